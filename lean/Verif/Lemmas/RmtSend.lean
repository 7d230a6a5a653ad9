import Verif.Lemmas.Rmt
/-! Whole packets of the RMT encoder, and which start bits are lost. -/
namespace Dcc.Rmt
open Dcc.Spec

/-- The encoder of a configuration between two packets, or before the first one. -/
def Config.ready (c : Config) (first : Bool) : Encoder := c.encoder.at (if first then .zimo0 else .bidi) 0

theorem new_ready (c : Config) : c.encoder = c.ready true := rfl

theorem bidi_zero (c : Config) : c.encoder.bidiSymbol.duration0 = 0#15 ↔ c.bidibitDuration = 0#8 := by
  have key : ∀ b : Byte, b.setWidth 15 = 0#15 ↔ b = 0#8 := by decide +kernel
  show (if c.bidibitDuration = 0#8 then ({} : Symbol) else _).duration0 = _ ↔ _
  by_cases h : c.bidibitDuration = 0#8
  · rw [if_pos h]; exact ⟨fun _ => h, fun _ => rfl⟩
  · rw [if_neg h]; exact key _

/-- One call of the encoder, from any position. -/
theorem session (p : Encoder) (data : List Byte) (hb1 : p.bit1 = p.oneSymbol) (hb0 : p.bit0 = p.zeroSymbol)
    (hd : data ≠ []) (hp : 0 < p.numPreamble) (st : State) (k : Nat) (hv : p.Valid data st k)
    (f : Nat) :
    Does p data (p.pending data st k) f [] 0 (encode data ⟨p.at st k, f, []⟩) := by
  cases st with
  | bidi => exact fromBidi_does p data hb1 hb0 hd hp k hv.1 f hv.2 [] 0
  | zimo0 => cases hv; exact fromZimo0_does p data hb1 hb0 hd hp f [] 0
  | preamble => exact fromPreamble_does p data hb1 hb0 hd k hv f [] 0
  | start => cases hv; exact fromStart_does p data hb1 hb0 hd f [] 0
  | data => exact fromData_does p data hb1 hb0 (f + 1) k f [] 0 (by omega) hv
  | fin => cases hv; exact fromEnd_does p data f [] 0

theorem send_spec (p : Encoder) (data : List Byte) (hb1 : p.bit1 = p.oneSymbol) (hb0 : p.bit0 = p.zeroSymbol)
    (hd : data ≠ []) (hp : 0 < p.numPreamble) : ∀ (sizes : List Nat) (st : State) (k : Nat),
    p.Valid data st k →
    let r := chunked (p.pending data st k) sizes
    ∃ st' k', p.Valid data st' k' ∧ (r.2.1 = true → st' = .bidi ∧ k' = 0) ∧
      send data sizes (p.at st k) = .ok ⟨p.at st' k', r.1.map Slot.symbol, r.1.length, r.2.1, r.2.2⟩
  | [], st, k, hv => ⟨st, k, hv, fun h => (by cases h), rfl⟩
  | f :: fs, st, k, hv => by
    obtain ⟨c', h1, h2, h3, h4⟩ := session p data hb1 hb0 hd hp st k hv f
    rw [send, h1, ok_bind]
    dsimp only
    generalize hP : p.pending data st k = P at *
    rw [chunked]
    by_cases hl : P.length ≤ f
    · rw [if_pos hl, if_pos (decide_eq_true hl)]
      refine ⟨.bidi, 0, ⟨by decide, fun _ => rfl⟩, fun _ => ⟨rfl, rfl⟩, ?_⟩
      rw [h2, h3 hl, pure_eq_ok, List.take_of_length_le hl]
      congr 2
      rw [Nat.zero_add, Nat.min_eq_right hl]
    · obtain ⟨st', k', h5, h6, h7⟩ := h4 (by omega)
      obtain ⟨st'', k'', h8, h9, h10⟩ := send_spec p data hb1 hb0 hd hp fs st' k' h5
      rw [if_neg hl, if_neg (by simp; omega), h6, h10, ok_bind, pure_eq_ok, h2, ← h7]
      refine ⟨st'', k'', h8, h9, ?_⟩
      simp only [List.nil_append, List.map_append, List.length_append, List.length_take, Nat.zero_add]

theorem symbol_levels (c : Config) (a b : Byte) : c.symbol a b = c.levels a.toNat b.toNat := by
  simp only [Config.symbol, Config.levels, Symbol.mk.injEq, and_true, true_and]
  constructor <;> apply BitVec.eq_of_toNat_eq <;> simp

theorem bits_eq (c : Config) (b : Byte) : c.encoder.bits b = (byteBits b).map fun x => ⟨c.bit x, false⟩ := by
  have h1 : c.encoder.oneSymbol = c.bit true := symbol_levels ..
  have h0 : c.encoder.zeroSymbol = c.bit false := symbol_levels ..
  rw [Encoder.bits, bitSymbols, List.map_map, h1, h0]
  apply List.map_congr_left
  intro x _
  cases x <;> rfl

theorem behind_eq (c : Config) (bs : List Byte) : c.encoder.behind bs =
    (bs.flatMap fun b => ⟨c.bit false, true⟩ :: (byteBits b).map (fun x => ⟨c.bit x, false⟩)) ++
      [⟨c.lastBit, false⟩] := by
  have h0 : c.encoder.zeroSymbol = c.bit false := symbol_levels ..
  have he : c.encoder.endSymbol = c.lastBit := by
    show c.symbol _ _ = _
    rw [symbol_levels, Config.lastBit]
    split <;> rfl
  rw [Encoder.behind, he, h0]
  simp only [bits_eq]
  rfl

theorem pending_slots (c : Config) (first : Bool) (data : List Byte) (hd : data ≠ []) :
    c.encoder.pending data (if first then .zimo0 else .bidi) 0 = c.slots first data := by
  have h1 : c.encoder.oneSymbol = c.bit true := symbol_levels ..
  have h0 : c.encoder.zeroSymbol = c.bit false := symbol_levels ..
  obtain ⟨b, bs, rfl⟩ := List.exists_cons_of_ne_nil hd
  have hz : c.encoder.inZimo0 (b :: bs) = c.slots true (b :: bs) := by
    have hcut : c.cutout true = [] := by simp [Config.cutout]
    rw [Encoder.inZimo0, Encoder.inPreamble, Encoder.inStart, inData_zero, bits_eq, behind_eq, h0, h1,
      Config.slots, Config.header, hcut]
    have hn : c.encoder.numPreamble = c.numPreamble.toNat := rfl
    have hzz : c.encoder.zimo0 = c.zimo0 := rfl
    rw [hn, hzz]
    cases c.zimo0 <;> simp [plain]
  cases first with
  | true => exact hz
  | false =>
    show c.encoder.inBidi (b :: bs) 0 = _
    rw [Encoder.inBidi, hz]
    by_cases hb : c.bidibitDuration = 0#8
    · rw [if_pos ((bidi_zero c).mpr hb)]
      have : c.header true = c.header false := by simp [Config.header, Config.cutout, hb]
      simp only [Config.slots, this]
      rfl
    · rw [if_neg (fun h => hb ((bidi_zero c).mp h))]
      have hs : c.encoder.bidiSymbol = c.levels c.bidibitDuration.toNat c.bidibitDuration.toNat := by
        show (if c.bidibitDuration = 0#8 then ({} : Symbol) else _) = _
        rw [if_neg hb, symbol_levels]
      have : c.header false = List.replicate 4 c.encoder.bidiSymbol ++ c.header true := by
        rw [hs]
        simp [Config.header, Config.cutout, hb]
      simp only [Config.slots, this]
      simp [plain]

/-- The symbols of the slots are those of the packet. -/
theorem slots_symbols (c : Config) (first : Bool) (data : List Byte) :
    (c.slots first data).map Slot.symbol = c.packet first data := by
  have hh : ∀ l : List Symbol, l.map (Slot.symbol ∘ fun s => ⟨s, false⟩) = l := by
    intro l
    induction l with
    | nil => rfl
    | cons a l ih => rw [List.map_cons, ih]; rfl
  cases data with
  | nil => simp [Config.slots, Config.packet, hh]
  | cons b bs =>
    have key : ∀ bs : List Byte, (bs.flatMap fun b => (⟨c.bit false, true⟩ : Slot) ::
        (byteBits b).map (fun x => ⟨c.bit x, false⟩)).map Slot.symbol =
        bs.flatMap (fun b => c.bit false :: (byteBits b).map c.bit) := by
      intro bs
      induction bs with
      | nil => rfl
      | cons b bs ih =>
        rw [List.flatMap_cons, List.map_append, ih, List.flatMap_cons]
        congr 1
    simp only [Config.slots, Config.packet, List.map_append, List.map_map, hh, List.map_cons, key,
      List.flatMap_cons, List.map_nil, List.append_assoc]
    rfl

/-! ### Which start bits are lost -/

theorem skipStart_length (l : List Slot) : (skipStart l).length ≤ l.length := by
  cases l with
  | nil => exact Nat.le_refl _
  | cons x xs =>
    rw [skipStart]
    split <;> simp

theorem chunked_length : ∀ (sizes : List Nat) (P : List Slot), (chunked P sizes).1.length ≤ P.length
  | [], P => Nat.zero_le _
  | f :: fs, P => by
    rw [chunked]
    split
    · exact Nat.le_refl _
    · have h1 := chunked_length fs (skipStart (P.drop f))
      have h2 := skipStart_length (P.drop f)
      simp only [List.length_append, List.length_take, List.length_drop] at h1 h2 ⊢
      omega

/-- The session boundaries (as counted without losses) that fall on a marked start bit. -/
def Hits (P : List Slot) (sizes : List Nat) : Prop :=
  ∃ pre x, pre <+: sizes ∧ P[pre.sum]? = some x ∧ x.start = true

theorem chunked_hit : ∀ (sizes : List Nat) (P : List Slot), (∀ x, P[0]? = some x → x.start = false) →
    Hits P sizes → (chunked P sizes).1.length < P.length
  | sizes, P, h0, ⟨[], x, _, h2, h3⟩ => by
    rw [h0 x h2] at h3
    cases h3
  | [], P, h0, ⟨a :: pre, x, h1, _⟩ => by simp at h1
  | f :: fs, P, h0, ⟨a :: pre, x, h1, h2, h3⟩ => by
    obtain ⟨rfl, h1'⟩ := List.cons_prefix_cons.mp h1
    have hlt : a + pre.sum < P.length := by
      rw [List.sum_cons] at h2
      exact (List.getElem?_eq_some_iff.mp h2).1
    rw [chunked, if_neg (by omega)]
    dsimp only
    have hlen : ∀ Q : List Slot, (chunked Q fs).1.length < P.length - a →
        (P.take a ++ (chunked Q fs).1).length < P.length := by
      intro Q h
      simp only [List.length_append, List.length_take]
      omega
    apply hlen
    have hdl : (P.drop a).length = P.length - a := List.length_drop
    have hx : (P.drop a)[pre.sum]? = some x := by
      rw [List.getElem?_drop]
      rwa [List.sum_cons] at h2
    rw [← hdl]
    generalize P.drop a = Q at *
    cases Q with
    | nil => simp at hx
    | cons y ys =>
      rw [skipStart]
      by_cases hy : y.start = true
      · rw [if_pos hy]
        have := chunked_length fs ys
        simp only [List.length_cons]
        omega
      · rw [if_neg hy]
        refine chunked_hit fs (y :: ys) ?_ ⟨pre, x, h1', hx, h3⟩
        intro z hz
        cases hz
        simpa using hy

theorem chunked_miss : ∀ (sizes : List Nat) (P : List Slot), ¬ Hits P sizes → P.length ≤ sizes.sum →
    P ≠ [] → (chunked P sizes).1 = P ∧ (chunked P sizes).2.1 = true
  | [], P, _, hs, hn => by
    simp at hs
    exact absurd hs hn
  | f :: fs, P, hh, hs, hn => by
    rw [chunked]
    by_cases hl : P.length ≤ f
    · rw [if_pos hl]
      exact ⟨rfl, rfl⟩
    · rw [if_neg hl]
      have hdn : P.drop f ≠ [] := by
        intro h
        have := congrArg List.length h
        simp at this
        omega
      have hsk : skipStart (P.drop f) = P.drop f := by
        cases hq : P.drop f with
        | nil => rfl
        | cons y ys =>
          rw [skipStart, if_neg]
          intro hy
          refine hh ⟨[f], y, ⟨fs, rfl⟩, ?_, hy⟩
          have : (P.drop f)[0]? = some y := by rw [hq]; rfl
          rw [List.getElem?_drop] at this
          simpa using this
      have hmiss : ¬ Hits (P.drop f) fs := by
        rintro ⟨pre, x, h1, h2, h3⟩
        refine hh ⟨f :: pre, x, List.cons_prefix_cons.mpr ⟨rfl, h1⟩, ?_, h3⟩
        rw [List.getElem?_drop] at h2
        rwa [List.sum_cons]
      obtain ⟨h1, h2⟩ := chunked_miss fs (P.drop f) hmiss (by simp at hs ⊢; omega) hdn
      dsimp only
      rw [hsk, h1]
      exact ⟨List.take_append_drop .., h2⟩

theorem start_behind (c : Config) (e : Slot) (he : e.start = false) : ∀ (bs : List Byte) (i : Nat),
    (∃ x, ((bs.flatMap fun b => (⟨c.bit false, true⟩ : Slot) :: (byteBits b).map (fun x => ⟨c.bit x, false⟩)) ++
      [e])[i]? = some x ∧ x.start = true) ↔ ∃ m, m < bs.length ∧ i = 9 * m
  | [], i => by
    constructor
    · rintro ⟨x, h1, h2⟩
      cases i with
      | zero => cases h1; rw [he] at h2; cases h2
      | succ i => simp at h1
    · rintro ⟨m, h, _⟩
      cases h
  | b :: bs, i => by
    have hb : (byteBits b).map (fun x => (⟨c.bit x, false⟩ : Slot)) =
      [⟨c.bit (b.getLsbD 7), false⟩, ⟨c.bit (b.getLsbD 6), false⟩, ⟨c.bit (b.getLsbD 5), false⟩,
       ⟨c.bit (b.getLsbD 4), false⟩, ⟨c.bit (b.getLsbD 3), false⟩, ⟨c.bit (b.getLsbD 2), false⟩,
       ⟨c.bit (b.getLsbD 1), false⟩, ⟨c.bit (b.getLsbD 0), false⟩] := rfl
    rw [List.flatMap_cons, hb]
    have ih := start_behind c e he bs
    generalize (bs.flatMap fun b => (⟨c.bit false, true⟩ : Slot) ::
      (byteBits b).map (fun x => ⟨c.bit x, false⟩)) = L at *
    rcases i with _|_|_|_|_|_|_|_|_|i
    · exact ⟨fun _ => ⟨0, by simp, rfl⟩, fun _ => ⟨_, rfl, rfl⟩⟩
    all_goals try (
      refine ⟨?_, ?_⟩
      · rintro ⟨x, h1, h2⟩
        cases h1
        cases h2
      · rintro ⟨m, _, h⟩
        omega)
    have := ih i
    simp only [List.cons_append, List.nil_append, List.getElem?_cons_succ] at this ⊢
    rw [this]
    constructor
    · rintro ⟨m, h1, h2⟩
      exact ⟨m + 1, by simp; omega, by omega⟩
    · rintro ⟨m, h1, h2⟩
      refine ⟨m - 1, ?_, by omega⟩
      simp at h1
      omega

theorem start_slots (c : Config) (first : Bool) (b : Byte) (bs : List Byte) (i : Nat) :
    (∃ x, (c.slots first (b :: bs))[i]? = some x ∧ x.start = true) ↔
      ∃ k, 0 < k ∧ k < (b :: bs).length ∧ i = (c.header first).length + 9 * k := by
  have hs : c.slots first (b :: bs) = (c.header first).map (fun s => ⟨s, false⟩) ++
      ((⟨c.bit false, false⟩ :: (byteBits b).map (fun x => (⟨c.bit x, false⟩ : Slot))) ++
      ((bs.flatMap fun b => (⟨c.bit false, true⟩ : Slot) :: (byteBits b).map (fun x => ⟨c.bit x, false⟩)) ++
      [⟨c.lastBit, false⟩])) := by
    simp [Config.slots]
  have hh : ∀ (l : List Symbol) (M : List Slot) i, (∃ x, (l.map (fun s => (⟨s, false⟩ : Slot)) ++ M)[i]? = some x ∧
      x.start = true) ↔ l.length ≤ i ∧ ∃ x, M[i - l.length]? = some x ∧ x.start = true := by
    intro l M i
    by_cases hl : l.length ≤ i
    · rw [List.getElem?_append_right (by simpa using hl), List.length_map]
      simp [hl]
    · constructor
      · rintro ⟨x, h1, h2⟩
        rw [List.getElem?_append_left (by simp; omega), List.getElem?_map] at h1
        cases hq : l[i]? with
        | none => rw [hq] at h1; cases h1
        | some y => rw [hq] at h1; cases h1; cases h2
      · rintro ⟨h, _⟩
        omega
  have h9 : (⟨c.bit false, false⟩ :: (byteBits b).map (fun x => (⟨c.bit x, false⟩ : Slot))) =
      (c.bit false :: (byteBits b).map c.bit).map (fun s => ⟨s, false⟩) := by simp
  have hl9 : (c.bit false :: (byteBits b).map c.bit).length = 9 := rfl
  rw [hs, hh, h9]
  simp only [hh, start_behind c ⟨c.lastBit, false⟩ rfl, hl9]
  constructor
  · rintro ⟨h1, h2, m, h3, h4⟩
    exact ⟨m + 1, by omega, by simp; omega, by omega⟩
  · rintro ⟨k, h1, h2, h3⟩
    refine ⟨by omega, by omega, k - 1, ?_, by omega⟩
    simp at h2
    omega

theorem hits_iff (c : Config) (first : Bool) (data : List Byte) (hd : data ≠ []) (sizes : List Nat) :
    Hits (c.slots first data) sizes ↔ EndsBehindByte c first data sizes := by
  obtain ⟨b, bs, rfl⟩ := List.exists_cons_of_ne_nil hd
  constructor
  · rintro ⟨pre, x, h1, h2, h3⟩
    obtain ⟨k, h4, h5, h6⟩ := (start_slots c first b bs pre.sum).mp ⟨x, h2, h3⟩
    exact ⟨pre, k, h1, h4, h5, h6⟩
  · rintro ⟨pre, k, h1, h4, h5, h6⟩
    obtain ⟨x, h2, h3⟩ := (start_slots c first b bs pre.sum).mpr ⟨k, h4, h5, h6⟩
    exact ⟨pre, x, h1, h2, h3⟩

end Dcc.Rmt
