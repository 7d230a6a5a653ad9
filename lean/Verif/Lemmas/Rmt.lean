import Verif.Spec.Rmt
import Verif.Lemmas.Post
import Verif.Lemmas.Utility
/-! The stages of the RMT encoder. -/
namespace Dcc.Rmt
open Dcc.Spec

/-- The encoder `p` in state `st` after `k` symbols of it. -/
def Encoder.at (p : Encoder) (st : State) (k : Nat) : Encoder :=
  { p with copyIndex := 0, byteIndex := 0, bitIndex := if st = .data then k % 8 else 0,
           numSymbols := k, state := st }

@[simp] theorem at_state (p : Encoder) (st k) : (p.at st k).state = st := rfl
@[simp] theorem at_num (p : Encoder) (st k) : (p.at st k).numSymbols = k := rfl
@[simp] theorem at_copy (p : Encoder) (st k) : (p.at st k).copyIndex = 0 := rfl
@[simp] theorem at_at (p : Encoder) (st k st' k') : (p.at st k).at st' k' = p.at st' k' := rfl

theorem copy_none (sym : Symbol) (e : Encoder) (mem : List Symbol) (he : e.copyIndex = 0) :
    copyEncode [sym] ⟨e, 0, mem⟩ = (⟨e, 0, mem⟩, 0, ⟨false, true⟩) := by
  cases e; cases he; simp [copyEncode]

theorem copy_some (sym : Symbol) (e : Encoder) (f : Nat) (mem : List Symbol) (he : e.copyIndex = 0) :
    copyEncode [sym] ⟨e, f + 1, mem⟩ = (⟨e, f, mem ++ [sym]⟩, 1, ⟨true, decide (f = 0)⟩) := by
  cases e; cases he
  have h : min 1 (f + 1) = 1 := by omega
  have h2 : (!decide (1 < f + 1)) = decide (f = 0) := by rw [Bool.eq_iff_iff]; simp
  simp only [copyEncode, List.length_cons, List.length_nil, Nat.zero_add, Nat.sub_zero, h, h2]
  simp

/-- The loops: either the memory is full before the end or at it, or there is memory left. -/
theorem repeat_spec (p : Encoder) (sym : Symbol) (n : Nat) (cur next : State) (hcn : cur ≠ next)
    (hc : cur ≠ .data) (hn : next ≠ .data) : ∀ (fuel f k : Nat) (mem : List Symbol) (e : Nat),
    f < fuel → k < n →
    ∃ g : Bool, repeatSymbol sym n cur next fuel ⟨p.at cur k, f, mem⟩ e =
      if f < n - k then .ok (⟨p.at cur (k + f), 0, mem ++ List.replicate f sym⟩, e + f, ⟨g, true⟩)
      else .ok (⟨p.at next 0, f - (n - k), mem ++ List.replicate (n - k) sym⟩, e + (n - k),
        ⟨true, decide (f = n - k)⟩)
  | 0, f, k, mem, e, hf, hk => by omega
  | fuel + 1, f, k, mem, e, hf, hk => by
    cases f with
    | zero =>
      refine ⟨false, ?_⟩
      rw [if_pos (show 0 < n - k by omega), repeatSymbol, copy_none _ _ _ rfl]
      simp only [Bool.false_eq_true, false_and, if_false, if_true, List.replicate_zero, List.append_nil,
        Nat.add_zero]
      rfl
    | succ f =>
      rw [repeatSymbol, copy_some _ _ _ _ rfl]
      simp only [true_and, Session.count, at_num]
      by_cases hl : n ≤ k + 1
      · refine ⟨true, ?_⟩
        have h1 : n - k = 1 := by omega
        rw [if_pos hl, h1, if_neg (show ¬ f + 1 < 1 by omega)]
        have h2 : ({ ({ (p.at cur k) with numSymbols := k + 1 } : Encoder) with numSymbols := 0 }
            : Encoder) = { (p.at cur k) with numSymbols := 0 } := rfl
        have h3 : ({ ({ (p.at cur k) with numSymbols := 0 } : Encoder) with state := next } : Encoder) =
            p.at next 0 := by
          simp [Encoder.at, hc, hn]
        simp only [Session.goto, h3]
        by_cases hz : f = 0
        · subst hz
          simp only [decide_true, if_true, Nat.sub_self]
          rfl
        · simp [hz, Ne.symm hcn]
      · rw [if_neg hl]
        have h3 : ({ (p.at cur k) with numSymbols := k + 1 } : Encoder) = p.at cur (k + 1) := by
          simp [Encoder.at, hc]
        simp only [h3]
        by_cases hz : f = 0
        · subst hz
          refine ⟨true, ?_⟩
          rw [if_pos (show 0 + 1 < n - k by omega)]
          simp only [decide_true, if_true]
          rfl
        · obtain ⟨g, ih⟩ := repeat_spec p sym n cur next hcn hc hn fuel f (k + 1) (mem ++ [sym]) (e + 1)
            (by omega) (by omega)
          refine ⟨g, ?_⟩
          simp only [hz, decide_false, Bool.false_eq_true, if_false, at_state, if_true]
          rw [ih]
          by_cases hlt : f < n - (k + 1)
          · rw [if_pos hlt, if_pos (show f + 1 < n - k by omega)]
            simp only [Except.ok.injEq, Prod.mk.injEq, Session.mk.injEq, List.append_assoc, and_true, true_and]
            refine ⟨⟨by congr 1; omega, ?_⟩, by omega⟩
            rfl
          · rw [if_neg hlt, if_neg (show ¬ f + 1 < n - k by omega)]
            have h4 : n - k = n - (k + 1) + 1 := by omega
            rw [h4]
            simp only [Except.ok.injEq, Prod.mk.injEq, Session.mk.injEq, List.append_assoc, true_and, Flags.mk.injEq]
            refine ⟨⟨by omega, rfl⟩, by omega, ?_⟩
            simp

/-- The symbols of a byte. -/
def bitSymbols (one zero : Symbol) (b : Byte) : List Symbol :=
  (byteBits b).map fun x => if x then one else zero

@[simp] theorem bitSymbols_length (one zero b) : (bitSymbols one zero b).length = 8 := rfl

theorem bytesLoop_spec (one zero : Symbol) (b : Byte) (bs : List Byte) : ∀ (len j : Nat), j + len ≤ 8 → j < 8 →
    ∃ i j', bytesLoop one zero (b :: bs) 0 j len = .ok (((bitSymbols one zero b).drop j).take len, i, j') ∧
      (j + len < 8 → i = 0 ∧ j' = j + len)
  | 0, j, _, _ => ⟨0, j, rfl, fun _ => ⟨rfl, rfl⟩⟩
  | len + 1, j, h, hj => by
    have hsym : (bitSymbols one zero b).drop j = (if b.getLsbD (7 - j) then one else zero) ::
        (bitSymbols one zero b).drop (j + 1) := by
      rcases j with _|_|_|_|_|_|_|_|j
      all_goals first | rfl | omega
    rw [bytesLoop, byteAt_zero, ok_bind]
    by_cases h8 : 8 ≤ j + 1
    · have : len = 0 := by omega
      subst this
      refine ⟨1, 0, ?_, by omega⟩
      rw [if_pos h8, bytesLoop, hsym]
      rfl
    · obtain ⟨i, j', h1, h2⟩ := bytesLoop_spec one zero b bs len (j + 1) (by omega) (by omega)
      refine ⟨i, j', ?_, fun h => ?_⟩
      · rw [if_neg h8, h1, hsym]
        rfl
      · have := h2 (by omega)
        omega

theorem encodeData_spec (p : Encoder) (data : List Byte) (k f : Nat) (mem : List Symbol) (b : Byte)
    (bs : List Byte) (hd : data.drop (k / 8) = b :: bs) :
    encodeData data ⟨p.at .data k, f, mem⟩ =
      if f < 8 - k % 8 then
        .ok (⟨p.at .data (k + f), 0, mem ++ ((bitSymbols p.bit1 p.bit0 b).drop (k % 8)).take f⟩, f,
          ⟨false, true⟩)
      else .ok (⟨if bs = [] then p.at .fin 0 else p.at .data (k + (8 - k % 8)), f - (8 - k % 8),
          mem ++ (bitSymbols p.bit1 p.bit0 b).drop (k % 8)⟩, 8 - k % 8,
          ⟨true, decide (f = 8 - k % 8)⟩) := by
  have hlen : data.length = k / 8 + 1 + bs.length := by
    have := congrArg List.length hd
    simp only [List.length_drop, List.length_cons] at this
    omega
  have hj : k % 8 < 8 := Nat.mod_lt _ (by decide)
  have e1 : (p.at .data k).bitIndex = k % 8 := rfl
  have e2 : (p.at .data k).byteIndex = 0 := rfl
  have e3 : (p.at .data k).bit1 = p.bit1 := rfl
  have e4 : (p.at .data k).bit0 = p.bit0 := rfl
  rw [encodeData, at_num, hd, bytesEncode]
  simp only [e1, e2, e3, e4, Nat.sub_zero, Nat.sub_self, Nat.zero_mul, Nat.zero_add]
  obtain ⟨i, j', h1, h2⟩ := bytesLoop_spec p.bit1 p.bit0 b bs (min (8 - k % 8) f) (k % 8) (by omega) hj
  rw [h1]
  simp only [ok_bind, pure_eq_ok]
  by_cases hf : f < 8 - k % 8
  · have hm : min (8 - k % 8) f = f := by omega
    rw [hm] at h2 ⊢
    obtain ⟨rfl, rfl⟩ := h2 (by omega)
    simp only [hf, if_true, decide_true, Bool.not_true, Bool.false_eq_true, false_and, if_false, Nat.sub_self,
      Session.count, at_num]
    have : decide (8 - k % 8 < f) = false := by simp; omega
    rw [this]
    congr 1
    simp only [Prod.mk.injEq, Session.mk.injEq, and_true, true_and, Encoder.at, if_true, Encoder.mk.injEq,
      Bool.not_false]
    omega
  · have hm : min (8 - k % 8) f = 8 - k % 8 := by omega
    rw [hm]
    simp only [hf, if_false, decide_false, Bool.not_false, true_and, Session.count, at_num]
    have ht : ((bitSymbols p.bit1 p.bit0 b).drop (k % 8)).take (8 - k % 8) =
        (bitSymbols p.bit1 p.bit0 b).drop (k % 8) := List.take_of_length_le (by simp)
    have hfl : (!decide (8 - k % 8 < f)) = decide (f = 8 - k % 8) := by
      rw [Bool.eq_iff_iff]; simp; omega
    rw [ht, hfl]
    congr 1
    by_cases hb : bs = []
    · have hl0 : bs.length = 0 := by rw [hb]; rfl
      rw [if_pos hb, if_pos (by omega)]
      rfl
    · have hl0 : bs.length ≠ 0 := fun h => hb (List.length_eq_zero_iff.mp h)
      rw [if_neg hb, if_neg (by omega)]
      have : (k + (8 - k % 8)) % 8 = 0 := by omega
      simp [Encoder.at, this]

/-- The start bit. -/
theorem encodeStart_none (e : Encoder) (mem : List Symbol) (he : e.copyIndex = 0) :
    encodeStart ⟨e, 0, mem⟩ = (⟨e, 0, mem⟩, 0, ⟨false, true⟩) := by
  rw [encodeStart, encodeBit, copy_none _ _ _ he]; rfl

theorem encodeStart_some (e : Encoder) (f : Nat) (mem : List Symbol) (he : e.copyIndex = 0) :
    encodeStart ⟨e, f + 1, mem⟩ =
      (⟨{ e with state := .data }, f, mem ++ [e.zeroSymbol]⟩, 1, ⟨true, decide (f = 0)⟩) := by
  rw [encodeStart, encodeBit, copy_some _ _ _ _ he]; rfl

/-! ### What is still to be written -/

def plain (s : Symbol) : Slot := ⟨s, false⟩

def Encoder.bits (p : Encoder) (b : Byte) : List Slot := (bitSymbols p.oneSymbol p.zeroSymbol b).map plain

/-- Behind a byte: the other bytes and the end. -/
def Encoder.behind (p : Encoder) (bs : List Byte) : List Slot :=
  bs.flatMap (fun b => ⟨p.zeroSymbol, true⟩ :: p.bits b) ++ [plain p.endSymbol]

def Encoder.inData (p : Encoder) (data : List Byte) (k : Nat) : List Slot :=
  match data.drop (k / 8) with
  | [] => []
  | b :: bs => (p.bits b).drop (k % 8) ++ p.behind bs

def Encoder.inStart (p : Encoder) (data : List Byte) : List Slot := plain p.zeroSymbol :: p.inData data 0

def Encoder.inPreamble (p : Encoder) (data : List Byte) (k : Nat) : List Slot :=
  List.replicate (p.numPreamble - k) (plain p.oneSymbol) ++ p.inStart data

def Encoder.inZimo0 (p : Encoder) (data : List Byte) : List Slot :=
  (if p.zimo0 then [plain p.zeroSymbol] else []) ++ p.inPreamble data 0

def Encoder.inBidi (p : Encoder) (data : List Byte) (k : Nat) : List Slot :=
  (if p.bidiSymbol.duration0 = 0#15 then [] else List.replicate (4 - k) (plain p.bidiSymbol)) ++ p.inZimo0 data

def Encoder.pending (p : Encoder) (data : List Byte) : State → Nat → List Slot
  | .bidi, k => p.inBidi data k
  | .zimo0, _ => p.inZimo0 data
  | .preamble, k => p.inPreamble data k
  | .start, _ => p.inStart data
  | .data, k => p.inData data k
  | .fin, _ => [plain p.endSymbol]

/-- The positions an encoder can be in between two sessions. -/
def Encoder.Valid (p : Encoder) (data : List Byte) : State → Nat → Prop
  | .bidi, k => k < 4 ∧ (p.bidiSymbol.duration0 = 0#15 → k = 0)
  | .zimo0, k => k = 0
  | .preamble, k => k < p.numPreamble
  | .start, k => k = 0
  | .data, k => k < 8 * data.length
  | .fin, k => k = 0

/-- The call writes the first `free` of the slots `P`, and then is at the end of the packet or at the
slots that follow. -/
def Does (p : Encoder) (data : List Byte) (P : List Slot) (free : Nat) (mem : List Symbol) (n : Nat)
    (r : R Out) : Prop :=
  ∃ c' : Session, r = .ok (c', n + min free P.length, ⟨decide (P.length ≤ free), decide (free ≤ P.length)⟩) ∧
    c'.mem = mem ++ (P.take free).map Slot.symbol ∧
    (P.length ≤ free → c'.enc = p.at .bidi 0) ∧
    (free < P.length → ∃ st k, p.Valid data st k ∧ c'.enc = p.at st k ∧
      p.pending data st k = skipStart (P.drop free))

theorem Does.cons {p : Encoder} {data : List Byte} {x : Slot} {P : List Slot} {f : Nat} {mem : List Symbol}
    {n : Nat} {r : R Out} (h : Does p data P f (mem ++ [x.symbol]) (n + 1) r) :
    Does p data (x :: P) (f + 1) mem n r := by
  obtain ⟨c', h1, h2, h3, h4⟩ := h
  refine ⟨c', ?_, ?_, fun hl => h3 (by simp at hl; omega), fun hl => ?_⟩
  · rw [h1]
    simp only [List.length_cons, Nat.add_le_add_iff_right]
    congr 3
    omega
  · rw [h2]; simp
  · obtain ⟨st, k, h5, h6, h7⟩ := h4 (by simp at hl; omega)
    exact ⟨st, k, h5, h6, by rw [h7]; rfl⟩

theorem Does.append {p : Encoder} {data : List Byte} {P : List Slot} {f : Nat} {r : R Out} :
    ∀ (Q : List Slot) {mem : List Symbol} {n f' : Nat}, f' = f + Q.length →
    Does p data P f (mem ++ Q.map Slot.symbol) (n + Q.length) r → Does p data (Q ++ P) f' mem n r
  | [], mem, n, f', hf, h => by subst hf; simpa using h
  | x :: Q, mem, n, f', hf, h => by
    subst hf
    refine Does.cons (f := f + Q.length) (Does.append Q rfl ?_)
    have e1 : mem ++ [x.symbol] ++ Q.map Slot.symbol = mem ++ (x :: Q).map Slot.symbol := by simp
    have e2 : n + 1 + Q.length = n + (x :: Q).length := by simp; omega
    rw [e1, e2]
    exact h

/-- A call that ends because the memory is full. -/
theorem Does.full {p : Encoder} {data : List Byte} {P : List Slot} {mem : List Symbol} {n : Nat}
    {st : State} {k : Nat} {fr : Nat} (hP : P ≠ []) (hv : p.Valid data st k)
    (hp : p.pending data st k = skipStart P) :
    Does p data P 0 mem n (.ok (⟨p.at st k, fr, mem⟩, n, ⟨false, true⟩)) := by
  have hl : 0 < P.length := List.length_pos_iff.mpr hP
  refine ⟨⟨p.at st k, fr, mem⟩, ?_, by simp, fun h => by omega, fun _ => ⟨st, k, hv, rfl, by simpa using hp⟩⟩
  have : decide (P.length ≤ 0) = false := decide_eq_false (by omega)
  simp only [this, Nat.zero_min, Nat.add_zero, Nat.zero_le, decide_true]

theorem fromEnd_does (p : Encoder) (data : List Byte) (f : Nat) (mem : List Symbol) (n : Nat) :
    Does p data [plain p.endSymbol] f mem n (fromEnd ⟨p.at .fin 0, f, mem⟩ n) := by
  rw [fromEnd, encodeEnd, encodeBit]
  cases f with
  | zero =>
    rw [copy_none _ _ _ rfl]
    exact Does.full (by simp) rfl rfl
  | succ f =>
    rw [copy_some _ _ _ _ rfl]
    refine ⟨⟨p.at .bidi 0, f, mem ++ [p.endSymbol]⟩, ?_, by simp [plain], fun _ => rfl, fun h => by simp at h⟩
    have h1 : min (f + 1) 1 = 1 := by omega
    simp only [List.length_cons, List.length_nil, h1]
    simp
    rfl

theorem bits_drop (p : Encoder) (b : Byte) (j : Nat) :
    (p.bits b).drop j = ((bitSymbols p.oneSymbol p.zeroSymbol b).drop j).map plain := by
  rw [Encoder.bits, List.map_drop]

theorem map_plain (l : List Symbol) : (l.map plain).map Slot.symbol = l := by
  induction l with
  | nil => rfl
  | cons a l ih => simp only [List.map_cons, ih]; rfl

theorem skipStart_plain (l : List Symbol) (P : List Slot) (h : l ≠ []) :
    skipStart (l.map plain ++ P) = l.map plain ++ P := by
  cases l with
  | nil => exact absurd rfl h
  | cons a l => rfl

theorem behind_cons (p : Encoder) (b : Byte) (bs : List Byte) :
    p.behind (b :: bs) = ⟨p.zeroSymbol, true⟩ :: (p.bits b ++ p.behind bs) := by
  simp [Encoder.behind]

/-- What follows when the byte of symbol `k` is done. -/
theorem drop_next {data : List Byte} {k : Nat} {b b' : Byte} {bs : List Byte}
    (hd : data.drop (k / 8) = b :: b' :: bs) : data.drop ((k + (8 - k % 8)) / 8) = b' :: bs := by
  have h1 : (k + (8 - k % 8)) / 8 = k / 8 + 1 := by omega
  rw [h1, ← List.drop_drop, hd]
  rfl

theorem fromData_does (p : Encoder) (data : List Byte) (hb1 : p.bit1 = p.oneSymbol)
    (hb0 : p.bit0 = p.zeroSymbol) : ∀ (fuel k f : Nat) (mem : List Symbol) (n : Nat) , f < fuel →
    k < 8 * data.length →
    Does p data (p.inData data k) f mem n (fromData data fuel ⟨p.at .data k, f, mem⟩ n)
  | 0, _, _, _, _, h, _ => absurd h (Nat.not_lt_zero _)
  | fuel + 1, k, f, mem, n, hf, hk => by
    obtain ⟨b, bs, hd⟩ : ∃ b bs, data.drop (k / 8) = b :: bs := by
      cases h : data.drop (k / 8) with
      | nil =>
        have := congrArg List.length h
        simp at this
        omega
      | cons b bs => exact ⟨b, bs, rfl⟩
    have hlen : data.length = k / 8 + 1 + bs.length := by
      have := congrArg List.length hd
      simp only [List.length_drop, List.length_cons] at this
      omega
    have hj : k % 8 < 8 := Nat.mod_lt _ (by decide)
    rw [fromData, encodeData_spec p data k f mem b bs hd, hb1, hb0]
    have hpend : p.inData data k =
        ((bitSymbols p.oneSymbol p.zeroSymbol b).drop (k % 8)).map plain ++ p.behind bs := by
      rw [Encoder.inData, hd]
      show (p.bits b).drop (k % 8) ++ _ = _
      rw [bits_drop]
    rw [hpend]
    generalize hl : (bitSymbols p.oneSymbol p.zeroSymbol b).drop (k % 8) = l
    have hll : l.length = 8 - k % 8 := by rw [← hl]; simp
    by_cases hlt : f < 8 - k % 8
    · -- the memory ends within the byte
      rw [if_pos hlt, ok_bind]
      dsimp only
      rw [if_pos rfl]
      have e1 : l.map plain = (l.take f).map plain ++ (l.drop f).map plain := by
        rw [← List.map_append, List.take_append_drop]
      have e2 : f = 0 + ((l.take f).map plain).length := by simp; omega
      have hne : l.drop f ≠ [] := by
        intro h
        have := congrArg List.length h
        simp at this
        omega
      rw [e1, List.append_assoc]
      refine Does.append _ e2 ?_
      rw [map_plain]
      have e3 : n + ((l.take f).map plain).length = n + f := by simp; omega
      rw [e3]
      refine Does.full (by simp; omega) (by show k + f < _; omega) ?_
      rw [skipStart_plain _ _ hne]
      show p.inData data (k + f) = _
      have e4 : (k + f) / 8 = k / 8 := by omega
      have e5 : (k + f) % 8 = k % 8 + f := by omega
      rw [Encoder.inData, e4, hd]
      show (p.bits b).drop _ ++ _ = _
      rw [bits_drop, e5, ← List.drop_drop, hl]
    · rw [if_neg hlt, ok_bind]
      dsimp only
      obtain ⟨g, rfl⟩ : ∃ g, f = g + (l.map plain).length := ⟨f - l.length, by simp; omega⟩
      refine Does.append _ rfl ?_
      rw [map_plain]
      have e0 : (l.map plain).length = 8 - k % 8 := by simp [hll]
      rw [e0]
      have e1 : g + (8 - k % 8) - (8 - k % 8) = g := by omega
      rw [e1]
      by_cases hg : g = 0
      · -- the memory ends behind the byte
        subst hg
        rw [if_pos (by simp)]
        by_cases hbs : bs = []
        · rw [if_pos hbs, hbs]
          exact Does.full (by simp [Encoder.behind]) rfl rfl
        · rw [if_neg hbs]
          obtain ⟨b', bs', rfl⟩ := List.exists_cons_of_ne_nil hbs
          refine Does.full (by simp [Encoder.behind]) ?_ ?_
          · show _ < _
            simp only [List.length_cons] at hlen
            omega
          · rw [behind_cons]
            show p.inData data _ = _
            rw [Encoder.inData, drop_next hd]
            have : (k + (8 - k % 8)) % 8 = 0 := by omega
            show (p.bits b').drop _ ++ _ = _
            rw [this]
            rfl
      · rw [if_neg (by simp; omega)]
        by_cases hbs : bs = []
        · rw [if_pos hbs, if_pos (at_state ..), hbs]
          exact fromEnd_does p data g _ _
        · rw [if_neg hbs, if_neg (by simp)]
          obtain ⟨b', bs', rfl⟩ := List.exists_cons_of_ne_nil hbs
          obtain ⟨g, rfl⟩ : ∃ g', g = g' + 1 := ⟨g - 1, by omega⟩
          rw [encodeStart_some _ _ _ rfl, behind_cons]
          dsimp only
          refine Does.cons ?_
          have h8 : k + (8 - k % 8) < 8 * data.length := by
            simp only [List.length_cons] at hlen
            omega
          have hbit : (k + (8 - k % 8)) % 8 = 0 := by omega
          have hin : p.bits b' ++ p.behind bs' = p.inData data (k + (8 - k % 8)) := by
            rw [Encoder.inData, drop_next hd]
            show _ = (p.bits b').drop _ ++ _
            rw [hbit]
            rfl
          rw [hin]
          by_cases hg0 : g = 0
          · subst hg0
            rw [if_pos (by simp)]
            refine Does.full (st := .data) (k := k + (8 - k % 8)) ?_ h8 ?_
            · rw [← hin]; simp [Encoder.behind]
            · rw [← hin]
              show p.inData data _ = _
              rw [← hin, Encoder.bits, skipStart_plain _ _ (by intro h; cases h)]
          · rw [if_neg (by simp; omega)]
            exact fromData_does p data hb1 hb0 fuel _ g _ _ (by omega) h8

theorem inData_zero {p : Encoder} {b : Byte} {bs : List Byte} :
    p.inData (b :: bs) 0 = p.bits b ++ p.behind bs := rfl

theorem fromStart_does (p : Encoder) (data : List Byte) (hb1 : p.bit1 = p.oneSymbol)
    (hb0 : p.bit0 = p.zeroSymbol) (hd : data ≠ []) (f : Nat) (mem : List Symbol) (n : Nat) :
    Does p data (p.inStart data) f mem n (fromStart data ⟨p.at .start 0, f, mem⟩ n) := by
  rw [fromStart]
  cases f with
  | zero =>
    rw [encodeStart_none _ _ rfl]
    exact Does.full (by simp [Encoder.inStart]) rfl rfl
  | succ f =>
    rw [encodeStart_some _ _ _ rfl]
    dsimp only
    refine Does.cons ?_
    have hl : 0 < 8 * data.length := by have := List.length_pos_iff.mpr hd; omega
    by_cases hf : f = 0
    · subst hf
      rw [if_pos (by simp)]
      obtain ⟨b, bs, rfl⟩ := List.exists_cons_of_ne_nil hd
      refine Does.full (st := .data) (k := 0) (by simp [inData_zero, Encoder.behind]) hl ?_
      rw [inData_zero, Encoder.bits, skipStart_plain _ _ (by intro h; cases h)]
      rfl
    · rw [if_neg (by simp; omega)]
      exact fromData_does p data hb1 hb0 (f + 1) 0 f _ _ (by omega) hl

theorem fromPreamble_does (p : Encoder) (data : List Byte) (hb1 : p.bit1 = p.oneSymbol)
    (hb0 : p.bit0 = p.zeroSymbol) (hd : data ≠ []) (k : Nat) (hk : k < p.numPreamble) (f : Nat)
    (mem : List Symbol) (n : Nat) :
    Does p data (p.inPreamble data k) f mem n (fromPreamble data ⟨p.at .preamble k, f, mem⟩ n) := by
  rw [fromPreamble, encodePreamble]
  obtain ⟨g, h⟩ := repeat_spec p p.oneSymbol p.numPreamble .preamble .start (by decide) (by decide) (by decide)
    (f + 1) f k mem 0 (by omega) hk
  have hn : (p.at .preamble k).numPreamble = p.numPreamble := rfl
  have ho : (p.at .preamble k).oneSymbol = p.oneSymbol := rfl
  dsimp only
  rw [hn, ho, h]
  by_cases hf : f < p.numPreamble - k
  · rw [if_pos hf, ok_bind]
    dsimp only
    rw [if_pos rfl, Encoder.inPreamble]
    have e1 : List.replicate (p.numPreamble - k) (plain p.oneSymbol) =
        List.replicate f (plain p.oneSymbol) ++ List.replicate (p.numPreamble - (k + f)) (plain p.oneSymbol) := by
      rw [List.replicate_append_replicate]; congr 1; omega
    rw [e1, List.append_assoc]
    have e2 : f = 0 + (List.replicate f (plain p.oneSymbol)).length := by simp
    refine Does.append _ e2 ?_
    simp only [List.map_replicate, List.length_replicate, Nat.zero_add]
    obtain ⟨m, hm⟩ : ∃ m, p.numPreamble - (k + f) = m + 1 := ⟨p.numPreamble - (k + f) - 1, by omega⟩
    refine Does.full ?_ (by show k + f < _; omega) ?_
    · rw [hm]; simp [List.replicate_succ]
    · show p.inPreamble data (k + f) = _
      rw [Encoder.inPreamble, hm]
      rfl
  · rw [if_neg hf, ok_bind]
    dsimp only
    rw [Encoder.inPreamble]
    obtain ⟨g, rfl⟩ : ∃ g, f = g + (List.replicate (p.numPreamble - k) (plain p.oneSymbol)).length :=
      ⟨f - (p.numPreamble - k), by simp; omega⟩
    refine Does.append _ rfl ?_
    simp only [List.map_replicate, List.length_replicate, Nat.zero_add, Nat.add_sub_cancel]
    by_cases hg : g = 0
    · subst hg
      rw [if_pos (by simp)]
      exact Does.full (st := .start) (k := 0) (by simp [Encoder.inStart]) rfl rfl
    · rw [if_neg (by simp; omega)]
      exact fromStart_does p data hb1 hb0 hd g _ _

theorem inPreamble_ne (p : Encoder) (data : List Byte) (k : Nat) (hk : k < p.numPreamble) :
    ∃ xs, p.inPreamble data k = plain p.oneSymbol :: xs := by
  obtain ⟨m, hm⟩ : ∃ m, p.numPreamble - k = m + 1 := ⟨p.numPreamble - k - 1, by omega⟩
  exact ⟨_, by rw [Encoder.inPreamble, hm]; rfl⟩

theorem fromZimo0_does (p : Encoder) (data : List Byte) (hb1 : p.bit1 = p.oneSymbol)
    (hb0 : p.bit0 = p.zeroSymbol) (hd : data ≠ []) (hp : 0 < p.numPreamble) (f : Nat)
    (mem : List Symbol) (n : Nat) :
    Does p data (p.inZimo0 data) f mem n (fromZimo0 data ⟨p.at .zimo0 0, f, mem⟩ n) := by
  have hz : (p.at .zimo0 0).zimo0 = p.zimo0 := rfl
  rw [fromZimo0, encodeZimo0, Encoder.inZimo0]
  dsimp only
  rw [hz]
  obtain ⟨xs, hxs⟩ := inPreamble_ne p data 0 hp
  by_cases h : p.zimo0 = true
  · rw [if_pos h, if_pos h, encodeBit]
    cases f with
    | zero =>
      rw [copy_none _ _ _ rfl]
      refine Does.full (st := .zimo0) (k := 0) (by simp) rfl ?_
      show p.inZimo0 data = _
      rw [Encoder.inZimo0, if_pos h]
      rfl
    | succ f =>
      rw [copy_some _ _ _ _ rfl]
      dsimp only
      refine Does.cons (P := p.inPreamble data 0) ?_
      by_cases hf : f = 0
      · subst hf
        rw [if_pos (by simp)]
        refine Does.full (st := .preamble) (k := 0) (by rw [hxs]; simp) hp ?_
        show p.inPreamble data 0 = _
        rw [hxs]
        rfl
      · rw [if_neg (by simp; omega)]
        exact fromPreamble_does p data hb1 hb0 hd 0 hp f _ _
  · rw [if_neg h, if_neg h]
    exact fromPreamble_does p data hb1 hb0 hd 0 hp f _ _

theorem fromBidi_does (p : Encoder) (data : List Byte) (hb1 : p.bit1 = p.oneSymbol)
    (hb0 : p.bit0 = p.zeroSymbol) (hd : data ≠ []) (hp : 0 < p.numPreamble) (k : Nat) (hk : k < 4) (f : Nat)
    (hz : p.bidiSymbol.duration0 = 0#15 → k = 0)
    (mem : List Symbol) (n : Nat) :
    Does p data (p.inBidi data k) f mem n (fromBidi data ⟨p.at .bidi k, f, mem⟩ n) := by
  have hbs : (p.at .bidi k).bidiSymbol = p.bidiSymbol := rfl
  rw [fromBidi, encodeBidi, Encoder.inBidi]
  dsimp only
  rw [hbs]
  by_cases h : p.bidiSymbol.duration0 = 0#15
  · obtain rfl := hz h
    rw [if_pos h, if_pos h]
    exact fromZimo0_does p data hb1 hb0 hd hp f _ _
  · rw [if_neg h, if_neg h]
    obtain ⟨g, h1⟩ := repeat_spec p p.bidiSymbol 4 .bidi .zimo0 (by decide) (by decide) (by decide)
      (f + 1) f k mem 0 (by omega) hk
    rw [show 8 / 2 = 4 from rfl, h1]
    by_cases hf : f < 4 - k
    · rw [if_pos hf, ok_bind]
      dsimp only
      rw [if_pos rfl]
      have e1 : List.replicate (4 - k) (plain p.bidiSymbol) =
          List.replicate f (plain p.bidiSymbol) ++ List.replicate (4 - (k + f)) (plain p.bidiSymbol) := by
        rw [List.replicate_append_replicate]; congr 1; omega
      rw [e1, List.append_assoc]
      have e2 : f = 0 + (List.replicate f (plain p.bidiSymbol)).length := by simp
      refine Does.append _ e2 ?_
      simp only [List.map_replicate, List.length_replicate, Nat.zero_add]
      obtain ⟨m, hm⟩ : ∃ m, 4 - (k + f) = m + 1 := ⟨4 - (k + f) - 1, by omega⟩
      refine Does.full ?_ ⟨by omega, fun h0 => absurd h0 h⟩ ?_
      · rw [hm]; simp [List.replicate_succ]
      · show p.inBidi data (k + f) = _
        rw [Encoder.inBidi, if_neg h, hm]
        rfl
    · rw [if_neg hf, ok_bind]
      dsimp only
      obtain ⟨g, rfl⟩ : ∃ g, f = g + (List.replicate (4 - k) (plain p.bidiSymbol)).length :=
        ⟨f - (4 - k), by simp; omega⟩
      refine Does.append _ rfl ?_
      simp only [List.map_replicate, List.length_replicate, Nat.zero_add, Nat.add_sub_cancel]
      by_cases hg : g = 0
      · subst hg
        rw [if_pos (by simp)]
        obtain ⟨xs, hxs⟩ := inPreamble_ne p data 0 hp
        refine Does.full (st := .zimo0) (k := 0) (by rw [Encoder.inZimo0, hxs]; simp) rfl ?_
        show p.inZimo0 data = _
        rw [Encoder.inZimo0, hxs]
        cases p.zimo0 <;> rfl
      · rw [if_neg (by simp; omega)]
        exact fromZimo0_does p data hb1 hb0 hd hp g _ _

end Dcc.Rmt
