import Verif.Lemmas.RxQueue
/-!
Lemmas about BiDi channel 2.
-/
namespace Dcc
open Spec

theorem byteAt_some {p : List Byte} {i : Nat} {b : Byte} (h : byteAt p i = .ok b) :
    p[i]? = some b := by
  unfold byteAt at h
  split at h
  · rename_i h1; cases h; exact h1
  · cases h

private theorem addr_two : ∀ b : Byte, (128#8 ≤ b ∧ b ≤ 252#8) ↔ (128 ≤ b.toNat ∧ b.toNat ≤ 252) := by
  decide +kernel

private theorem long_key : ∀ b : Byte, decodeInstructionByte b = .cvLong ↔
    (224 ≤ b.toNat && b.toNat < 240) = true := by
  decide +kernel

theorem isLong_iff (p : Packet) (i : Instruction) (h : decodeInstructionPacket p = .ok i) :
    i = .cvLong ↔ isLongAccess p = true := by
  unfold decodeInstructionPacket at h
  simp only [bind_eq_ok, pure_eq_ok, Except.ok.injEq] at h
  obtain ⟨a, ha, b, hb, rfl⟩ := h
  have ha := byteAt_some ha
  have hb := byteAt_some hb
  cases p with
  | nil => cases ha
  | cons a' rest =>
    simp only [List.getElem?_cons_zero, Option.some.injEq] at ha
    subst ha
    rw [long_key]
    have : instructionByte (a' :: rest) = some b := by
      rw [instructionByte]
      split
      · rename_i h1
        rw [if_pos ((addr_two _).mpr h1)] at hb
        exact hb
      · rename_i h1
        rw [if_neg (fun h => h1 ((addr_two _).mp h))] at hb
        exact hb
    rw [isLongAccess, this]
    rfl

/-- What `biDiChannel2` does in a cutout of a kind. -/
def Rx.answer (s : Rx) : Cutout → Rx
  | .nothing => s
  | .tipOff => s.appTos
  | .cv => s.appPom
  | .dynamic => s.appDyn
  | .logon => s.appLogon2

theorem channel2_cutout (s s' : Rx) (h : s.biDiChannel2 = .ok s') : s' = s.answer (cutout s) := by
  unfold Rx.biDiChannel2 at h
  have key : (s.addrs.received.type = .short ∨ s.addrs.received.type = .long) →
      (if s.addrs.received.eq (if s.logon.assigned then s.addrs.logon else s.addrs.primary) then do
        let i ← decodeInstructionPacket s.link.packet
        return if i = Instruction.cvLong then s.appPom else s.appDyn
      else if s.addrs.received.eq s.addrs.consist && s.cfg.ch2ConsistEnabled then .ok s.appDyn
      else .ok s : R Rx) = .ok s' → s' = s.answer (cutout s) := by
    intro ht h
    have hc : cutout s = if SameDecoder s.addrs.received (ownAddress s) then
        if isLongAccess s.link.packet then .cv else .dynamic
      else if SameDecoder s.addrs.received s.addrs.consist ∧ s.cfg.ch2ConsistEnabled then .dynamic
      else .nothing := by
      unfold cutout
      rcases ht with ht | ht <;> rw [ht]
    rw [hc]
    by_cases h1 : SameDecoder s.addrs.received (ownAddress s)
    · rw [if_pos h1]
      have h1 := (SameDecoder.iff_eq _ _).mp h1
      rw [ownAddress] at h1
      rw [h1, if_pos rfl, bind_eq_ok] at h
      obtain ⟨i, hi, h⟩ := h
      cases h
      by_cases hl : isLongAccess s.link.packet = true
      · rw [if_pos hl, if_pos ((isLong_iff _ _ hi).mpr hl)]
        rfl
      · rw [if_neg hl, if_neg (fun hh => hl ((isLong_iff _ _ hi).mp hh))]
        rfl
    · rw [if_neg h1]
      have h1 : ¬ _ := fun hh => h1 ((SameDecoder.iff_eq _ _).mpr hh)
      rw [ownAddress] at h1
      rw [if_neg h1] at h
      by_cases h2 : SameDecoder s.addrs.received s.addrs.consist ∧ s.cfg.ch2ConsistEnabled = true
      · rw [if_pos h2]
        rw [if_pos (by rw [Bool.and_eq_true, ← SameDecoder.iff_eq]; exact h2)] at h
        cases h
        rfl
      · rw [if_neg h2]
        rw [if_neg (by rw [Bool.and_eq_true, ← SameDecoder.iff_eq]; exact h2)] at h
        cases h
        rfl
  cases ht : s.addrs.received.type with
  | short => rw [ht] at h; exact key (.inl ht) h
  | long => rw [ht] at h; exact key (.inr ht) h
  | _ =>
    rw [ht] at h
    unfold cutout
    rw [ht]
    cases h
    rfl

/-! ### Dynamic data -/

/-- Datagrams of dynamic data have three valid bytes, and there are not more than the queue holds. -/
structure DynInv (e : Env) (q : List (List Byte)) : Prop where
  room : q.length ≤ e.bidiDeque
  size : ∀ d ∈ q, d.length = 3
  valid : ∀ d ∈ q, ∀ c ∈ d, popcount c = 4

theorem DynInv.nil (e : Env) : DynInv e [] := ⟨Nat.zero_le _, nofun, nofun⟩

theorem DynInv.drop {e : Env} {q : List (List Byte)} (h : DynInv e q) (n : Nat) :
    DynInv e (q.drop n) :=
  ⟨Nat.le_trans (by rw [List.length_drop]; omega) h.room,
    fun d hd => h.size d (List.mem_of_mem_drop hd), fun d hd => h.valid d (List.mem_of_mem_drop hd)⟩

/-- The queue as the specification sees it. -/
def dynAbs (s : Rx) : DynQueue := { words := s.q.dyn.map read, blocked := s.q.blockDyn }

private theorem dyn_number (d x : Byte) :
    ((d.setWidth 32 <<< 6) ||| x.setWidth 32 : BitVec 32).toNat = (d.toNat * 64 ||| x.toNat) ∧
      (d.toNat * 64 ||| x.toNat) < 2 ^ 14 := by
  have hd := d.isLt
  have hx := x.isLt
  constructor
  · rw [BitVec.toNat_or, BitVec.toNat_shiftLeft, BitVec.toNat_setWidth, BitVec.toNat_setWidth,
      Nat.shiftLeft_eq, Nat.mod_eq_of_lt (show d.toNat < 2 ^ 32 by omega),
      Nat.mod_eq_of_lt (show x.toNat < 2 ^ 32 by omega),
      Nat.mod_eq_of_lt (show d.toNat * 2 ^ 6 < 2 ^ 32 by omega)]
  · exact Nat.or_lt_two_pow (by omega) (by omega)

theorem DynQueue.add_nil (cap : Nat) (q : DynQueue) : q.add cap [] = q := by
  unfold DynQueue.add; simp

theorem DynQueue.add_cons (cap : Nat) (q : DynQueue) (w : Nat) (ws : List Nat) :
    q.add cap (w :: ws) = (q.add cap [w]).add cap ws := by
  unfold DynQueue.add
  cases hn : cap - q.words.length with
  | zero =>
    simp [hn]
  | succ n =>
    have : cap - (q.words.length + 1) = n := by omega
    simp [this]

/-- A queue with others words of dynamic data. -/
def Rx.withDyn (s : Rx) (q : List (List Byte)) (b : Bool) : Rx :=
  { s with q := { s.q with dyn := q, blockDyn := b } }

theorem dyn_words (e : Env) (s : Rx) (d x : Byte) (hi : DynInv e s.q.dyn) :
    ∃ q, s.dyn e d x = .ok (s.withDyn q s.q.blockDyn) ∧ DynInv e q ∧
      q.map read = ((dynAbs s).add e.bidiDeque (if s.cfg.ch2DataEnabled then [dynWord d x] else [])).words := by
  unfold Rx.dyn
  cases he : s.cfg.ch2DataEnabled
  · refine ⟨s.q.dyn, rfl, hi, ?_⟩
    rw [if_neg Bool.false_ne_true, DynQueue.add_nil]
    rfl
  · by_cases hf : s.q.dyn.length = e.bidiDeque
    · refine ⟨s.q.dyn, ?_, hi, ?_⟩
      · rw [if_pos (by rw [decide_eq_true hf]; rfl)]
        rfl
      · rw [if_pos rfl, DynQueue.add, dynAbs, List.length_map, hf, Nat.sub_self, List.take_zero,
          List.append_nil]
    · rw [if_neg (by rw [decide_eq_false hf]; decide)]
      obtain ⟨h1, h2⟩ := dyn_number d x
      have h3 := idBytes_spec .b18 7 (d.toNat * 64 ||| x.toNat) (by omega) h2
      rw [h1, encodeId_ok .b18 7 _ (by omega) h2, ok_bind]
      have hr := hi.room
      refine ⟨s.q.dyn ++ [idBytes .b18 7 (d.toNat * 64 ||| x.toNat)], ?_, ⟨?_, ?_, ?_⟩, ?_⟩
      · rw [pushBack, if_pos (by omega)]
        rfl
      · rw [List.length_append, List.length_singleton]; omega
      · intro y hy
        rcases List.mem_append.mp hy with hy | hy
        · exact hi.size y hy
        · rw [List.mem_singleton.mp hy]; exact h3.1
      · intro y hy
        rcases List.mem_append.mp hy with hy | hy
        · exact hi.valid y hy
        · rw [List.mem_singleton.mp hy]; exact h3.2.1
      · rw [if_pos rfl, DynQueue.add, dynAbs, List.length_map, List.map_append, List.map_singleton,
          List.take_of_length_le (by rw [List.length_singleton]; omega)]
        exact congrArg (fun z => _ ++ [z]) h3.2.2

theorem dyns_words (e : Env) (ds : List Dyn) : ∀ s : Rx, DynInv e s.q.dyn →
    ∃ q, s.dyns e ds = .ok (s.withDyn q s.q.blockDyn) ∧ DynInv e q ∧
      q.map read = ((dynAbs s).add e.bidiDeque
        (if s.cfg.ch2DataEnabled then ds.map dynWordOf else [])).words := by
  induction ds with
  | nil =>
    intro s hi
    refine ⟨s.q.dyn, rfl, hi, ?_⟩
    rw [List.map_nil, ite_self, DynQueue.add_nil]
    rfl
  | cons d ds ih =>
    intro s hi
    obtain ⟨q, h1, h2, h3⟩ := dyn_words e s d.convert.1 d.convert.2 hi
    obtain ⟨q', h4, h5, h6⟩ := ih (s.withDyn q s.q.blockDyn) h2
    refine ⟨q', ?_, h5, ?_⟩
    · rw [Rx.dyns, h1, ok_bind, h4]
      rfl
    · rw [h6]
      have : dynAbs (s.withDyn q s.q.blockDyn) = (dynAbs s).add e.bidiDeque
          (if s.cfg.ch2DataEnabled then [dynWord d.convert.1 d.convert.2] else []) := by
        rw [dynAbs]
        show DynQueue.mk (q.map read) _ = _
        rw [h3]
        rfl
      rw [this]
      show (DynQueue.add _ _ (if s.cfg.ch2DataEnabled then _ else _)).words = _
      cases s.cfg.ch2DataEnabled
      · rw [if_neg Bool.false_ne_true, if_neg Bool.false_ne_true, if_neg Bool.false_ne_true,
          DynQueue.add_nil, DynQueue.add_nil]
      · rw [if_pos rfl, if_pos rfl, if_pos rfl, List.map_cons, DynQueue.add_cons _ _ (dynWordOf d)]
        rfl

/-- `datagram` does to the queue what the specification says. -/
theorem datagram_words (e : Env) (s : Rx) (ds : List Dyn) (hi : DynInv e s.q.dyn) :
    ∃ q b, s.datagram e ds = .ok (s.withDyn q b) ∧ DynInv e q ∧
      dynAbs (s.withDyn q b) = (dynAbs s).datagram e.bidiDeque s.cfg.ch2DataEnabled s.qos ds := by
  unfold Rx.datagram Rx.datagramStart DynQueue.datagram
  by_cases hf : s.q.dyn.length = e.bidiDeque
  · refine ⟨s.q.dyn, true, ?_, hi, ?_⟩
    · rw [if_pos hf, ok_bind]
      rfl
    · dsimp only
      rw [if_pos (by rw [dynAbs, List.length_map]; exact hf)]
      rfl
  · dsimp only
    rw [if_neg hf, if_neg (show ¬ (dynAbs s).words.length = e.bidiDeque by
      rw [dynAbs, List.length_map]; exact hf)]
    cases hq : s.q.dyn with
    | nil =>
      have h0 : DynInv e (s.withDyn [] false).q.dyn := DynInv.nil e
      obtain ⟨q, h1, h2, h3⟩ := dyn_words e (s.withDyn [] false) s.qos 7#8 h0
      obtain ⟨q', h4, h5, h6⟩ := dyns_words e ds (s.withDyn q false) h2
      refine ⟨q', false, ?_, h5, ?_⟩
      · rw [List.isEmpty_nil, if_pos rfl]
        show (Rx.dyn e (s.withDyn [] false) s.qos 7#8 >>= _) = _
        rw [h1, ok_bind]
        show (s.withDyn q false).dyns e ds = _
        rw [h4]
        rfl
      · rw [if_pos (by rw [dynAbs, hq]; rfl)]
        have h7 : dynAbs (s.withDyn q' false) = (dynAbs (s.withDyn q false)).add e.bidiDeque
            (if s.cfg.ch2DataEnabled then ds.map dynWordOf else []) := by
          rw [dynAbs]
          show DynQueue.mk (q'.map read) _ = _
          rw [h6]
          rfl
        have h8 : dynAbs (s.withDyn q false) = DynQueue.add e.bidiDeque { blocked := false }
            (if s.cfg.ch2DataEnabled then [dynWord s.qos 7#8] else []) := by
          rw [dynAbs]
          show DynQueue.mk (q.map read) _ = _
          rw [h3]
          rfl
        rw [h7, h8]
        cases s.cfg.ch2DataEnabled
        · simp only [Bool.false_eq_true, if_false, List.nil_append, DynQueue.add_nil]
        · simp only [if_true, List.singleton_append]
          exact (DynQueue.add_cons ..).symm
    | cons d0 rest =>
      have hne : (dynAbs s).words ≠ [] := by
        rw [dynAbs, hq]
        exact List.cons_ne_nil _ _
      rw [if_neg (show ¬ (d0 :: rest).isEmpty = true from Bool.false_ne_true), ok_bind, if_neg hne]
      cases hb : s.q.blockDyn
      · obtain ⟨q', h4, h5, h6⟩ := dyns_words e ds s hi
        refine ⟨q', false, ?_, h5, ?_⟩
        · rw [Bool.not_false, if_pos rfl, h4, hb]
        · rw [show (dynAbs s).blocked = false from hb, if_neg Bool.false_ne_true, dynAbs]
          show DynQueue.mk (q'.map read) false = _
          rw [h6, ← hb]
          rfl
      · refine ⟨s.q.dyn, true, ?_, hi, ?_⟩
        · rw [Bool.not_true, if_neg Bool.false_ne_true, ← hb]
          rfl
        · rw [show (dynAbs s).blocked = true from hb, if_pos rfl, ← hb]
          rfl

theorem triples_two {a b : List Byte} (ha : a.length = 3) (hb : b.length = 3) :
    triples (a ++ b) = [a, b] := by
  match a, ha, b, hb with
  | [_, _, _], _, [_, _, _], _ => rfl

theorem triples_one {a : List Byte} (ha : a.length = 3) : triples a = [a] := by
  match a, ha with
  | [_, _, _], _ => rfl

/-- `appDyn` takes up to two datagrams. -/
theorem appDyn_eq (e : Env) (s : Rx) (hi : DynInv e s.q.dyn) :
    (s.q.dyn = [] ∧ s.appDyn = s) ∨
    (∃ m, s.appDyn = (s.withDyn (s.q.dyn.drop 2) s.q.blockDyn).emit (.transmitBiDi m) ∧
      triples m = s.q.dyn.take 2 ∧ m = (s.q.dyn.take 2).flatten ∧ s.q.dyn ≠ []) := by
  unfold Rx.appDyn
  match hq : s.q.dyn with
  | [] => exact .inl ⟨rfl, rfl⟩
  | [a] =>
    have ha : a.length = 3 := hi.size a (by rw [hq]; exact .head _)
    refine .inr ⟨a, rfl, triples_one ha, by simp, nofun⟩
  | [a, b] =>
    have ha : a.length = 3 := hi.size a (by rw [hq]; exact .head _)
    have hb : b.length = 3 := hi.size b (by rw [hq]; exact .tail _ (.head _))
    refine .inr ⟨a ++ b, ?_, triples_two ha hb, by simp, nofun⟩
    dsimp only
    rw [appDynLoop, if_pos (by omega), appDynLoop]
    rfl
  | a :: b :: c :: rest =>
    have ha : a.length = 3 := hi.size a (by rw [hq]; exact .head _)
    have hb : b.length = 3 := hi.size b (by rw [hq]; exact .tail _ (.head _))
    have hc : c.length = 3 := hi.size c (by rw [hq]; exact .tail _ (.tail _ (.head _)))
    refine .inr ⟨a ++ b, ?_, triples_two ha hb, by simp, nofun⟩
    dsimp only
    rw [appDynLoop, if_pos (by omega), appDynLoop, if_neg (by rw [List.length_append]; omega)]
    rfl

end Dcc
