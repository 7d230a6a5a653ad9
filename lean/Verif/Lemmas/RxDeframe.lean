import Verif.Lemmas.RxTrack
import Verif.Spec.Deframe
/-! What the receiver makes of any sequence of durations. -/
namespace Dcc
open Spec

/-- The effect of a half bit. -/
def Link.half (l : Link) (b : Bool) : R (Link × Option LinkOut) :=
  let l := { l with packetEnd := false }
  if l.state.halves && !l.isHalfbit then .ok ({ l with isHalfbit := true }, none)
  else (if l.state.halves then { l with isHalfbit := false } else l).bit b

/-- The packets from half bits. -/
def Link.feed (l : Link) : List Bool → R (List Packet)
  | [] => .ok []
  | b :: t => do
    let r ← l.half b
    let ps ← r.1.feed t
    return packetsOf r.2.toList ++ ps

theorem Link.feed_end (l : Link) (h : List Bool) : ({ l with packetEnd := false } : Link).feed h = l.feed h := by
  cases h <;> rfl

theorem Link.run_feed (ts : List Nat) : ∀ (l l' : Link) (os : List LinkOut), l.run ts = .ok (l', os) →
    l.feed (halves ts) = .ok (packetsOf os) := by
  induction ts with
  | nil => intro l l' os h; cases h; rfl
  | cons t ts ih =>
    intro l l' os h
    rw [Link.run, bind_eq_ok] at h
    obtain ⟨⟨l1, o⟩, h1, h2⟩ := h
    rw [bind_eq_ok] at h2
    obtain ⟨⟨l2, os'⟩, h2, h3⟩ := h2
    cases h3
    have h4 := ih _ _ _ h2
    have hp : packetsOf (o.toList ++ os') = packetsOf o.toList ++ packetsOf os' := by simp [packetsOf]
    have key : ∀ b, l.half b = .ok (l1, o) → l.feed (b :: halves ts) = .ok (packetsOf (o.toList ++ os')) := by
      intro b hb
      rw [Link.feed, hb, ok_bind, h4, hp]
      rfl
    dsimp only
    by_cases hone : 52 ≤ t ∧ t ≤ 64
    · have hh : halves (t :: ts) = true :: halves ts := by simp [halves, hone]
      have hb : time2bit t = .b1 := by unfold time2bit; rw [if_pos hone]
      rw [hh]
      refine key _ ?_
      simpa [Link.step, hb, Link.half] using h1
    · by_cases hzero : 90 ≤ t ∧ t ≤ 10000
      · have hh : halves (t :: ts) = false :: halves ts := by
          unfold halves
          rw [List.filterMap_cons, if_neg hone, if_pos hzero]
        have hb : time2bit t = .b0 := by unfold time2bit; rw [if_neg hone, if_pos hzero]
        rw [hh]
        refine key _ ?_
        simpa [Link.step, hb, Link.half] using h1
      · have hh : halves (t :: ts) = halves ts := by
          unfold halves
          rw [List.filterMap_cons, if_neg hone, if_neg hzero]
        have hb : time2bit t = .invalid := by unfold time2bit; rw [if_neg hone, if_neg hzero]
        simp only [Link.step, hb, Except.ok.injEq, Prod.mk.injEq] at h1
        obtain ⟨rfl, rfl⟩ := h1
        rw [hh, hp, ← Link.feed_end, h4]
        rfl

/-- How many more half bits the end of the next byte with its separator needs. -/
def Link.left (l : Link) : Nat :=
  match l.state with
  | .data => 2 * (9 - l.bitCount) - (if l.isHalfbit then 1 else 0)
  | _ => 2 - (if l.isHalfbit then 1 else 0)

/-- Before that nothing arrives. -/
theorem Link.feed_quiet (h : List Bool) : ∀ (l : Link) (ps : List Packet), l.state.halves = true →
    l.bitCount ≤ 7 → (l.state = .endbit → l.bitCount = 0) → h.length < l.left → l.feed h = .ok ps → ps = [] := by
  induction h with
  | nil => intro l ps _ _ _ _ h; cases h; rfl
  | cons b t ih =>
    intro l ps hs hc he hl h
    rw [Link.feed, bind_eq_ok] at h
    obtain ⟨⟨l1, o⟩, h1, h2⟩ := h
    rw [bind_eq_ok] at h2
    obtain ⟨ps', h2, h3⟩ := h2
    cases h3
    dsimp only at h2 ⊢
    simp only [List.length_cons] at hl
    obtain ⟨st, bc, by_, cs, ihb, pe, pk⟩ := l
    simp only at hc he
    have key : packetsOf o.toList = [] ∧ l1.state.halves = true ∧ l1.bitCount ≤ 7 ∧
        (l1.state = .endbit → l1.bitCount = 0) ∧ t.length < l1.left := by
      cases st <;> simp only [LinkState.halves, Bool.false_eq_true] at hs
      · cases ihb
        · simp only [Link.half, LinkState.halves, Bool.not_false, Bool.and_self, if_true, Except.ok.injEq,
            Prod.mk.injEq] at h1
          obtain ⟨rfl, rfl⟩ := h1
          simp [Link.left, packetsOf, LinkState.halves] at hl ⊢
          omega
        · simp only [Link.half, LinkState.halves, Bool.not_true, Bool.and_false, Bool.false_eq_true, if_false,
            if_true, Link.bit] at h1
          simp [Link.left] at hl
          split at h1
          · cases h1
            simp [Link.left, packetsOf, LinkState.halves]
            omega
          · split at h1
            · cases h1
              simp [Link.left, packetsOf, LinkState.halves]
              omega
            · cases h1
      · cases ihb
        · simp only [Link.half, LinkState.halves, Bool.not_false, Bool.and_self, if_true, Except.ok.injEq,
            Prod.mk.injEq] at h1
          obtain ⟨rfl, rfl⟩ := h1
          simp [Link.left, packetsOf, LinkState.halves] at hl ⊢
          exact ⟨hc, he rfl, List.eq_nil_of_length_eq_zero (by omega)⟩
        · simp [Link.left] at hl
    rw [key.1, ih l1 ps' key.2.1 key.2.2.1 key.2.2.2.1 key.2.2.2.2 h2]
    rfl

theorem wholeByte_bits : ∀ b1 b2 b3 b4 b5 b6 b7 b8 : Bool,
    ((((((((0#8 <<< 1 ||| (if b1 then 1#8 else 0#8)) <<< 1 ||| (if b2 then 1#8 else 0#8)) <<< 1 |||
      (if b3 then 1#8 else 0#8)) <<< 1 ||| (if b4 then 1#8 else 0#8)) <<< 1 ||| (if b5 then 1#8 else 0#8)) <<< 1 |||
      (if b6 then 1#8 else 0#8)) <<< 1 ||| (if b7 then 1#8 else 0#8)) <<< 1 ||| (if b8 then 1#8 else 0#8)) =
      wholeByte [b1, b2, b3, b4, b5, b6, b7, b8] := by decide +kernel

theorem Link.half_first (l : Link) (b : Bool) (hs : l.state.halves = true) (hh : l.isHalfbit = false) :
    l.half b = .ok ({ l with packetEnd := false, isHalfbit := true }, none) := by
  simp [Link.half, hs, hh]

/-- A bit. -/
theorem Link.feed_pair (l : Link) (a b : Bool) (t : List Bool) (hs : l.state.halves = true)
    (hh : l.isHalfbit = false) :
    l.feed (a :: b :: t) = (do
      let r ← ({ l with packetEnd := false } : Link).bit b
      let ps ← r.1.feed t
      return packetsOf r.2.toList ++ ps) := by
  obtain ⟨st, bc, by_, cs, ihb, pe, pk⟩ := l
  simp only at hs hh
  subst hh
  rw [Link.feed, Link.half_first _ _ hs rfl, ok_bind, Link.feed]
  simp only [Link.half, hs, Bool.not_true, Bool.and_false, Bool.false_eq_true, if_false, if_true]
  cases Link.bit { state := st, bitCount := bc, byte := by_, checksum := cs, isHalfbit := false, packetEnd := false, packet := pk } b with
  | error => rfl
  | ok r =>
    simp only [ok_bind]
    cases r.1.feed t <;> rfl

/-- A data bit that is not the last. -/
theorem Link.feed_bit (l : Link) (a b : Bool) (t : List Bool) (hs : l.state = .data)
    (hh : l.isHalfbit = false) (hc : l.bitCount < 7) :
    l.feed (a :: b :: t) = Link.feed { l with
      packetEnd := false, byte := l.byte <<< 1 ||| (if b then 1#8 else 0#8), bitCount := l.bitCount + 1 } t := by
  rw [Link.feed_pair l a b t (by rw [hs]; rfl) hh]
  obtain ⟨st, bc, by_, cs, ihb, pe, pk⟩ := l
  simp only at hs hh hc
  subst hs hh
  simp only [Link.bit, show bc + 1 < 8 by omega, if_true, ok_bind]
  cases Link.feed _ t <;> rfl

/-- A byte with what follows it. -/
theorem Link.feed_byte (l : Link) (hs : l.state = .data) (hh : l.isHalfbit = false) (hc : l.bitCount = 0)
    (hb : l.byte = 0#8) (h : List Bool) (hlen : ¬ h.length < 18) (ps : List Packet) (hf : l.feed h = .ok ps) :
    l.packet.length < maxPacketSize ∧
    ∃ l1 : Link, l1.state = .endbit ∧ l1.isHalfbit = false ∧ l1.bitCount = 0 ∧ l1.byte = 0#8 ∧
      l1.packet = l.packet ++ [wholeByte ((secondHalves (h.take 18)).take 8)] ∧
      l1.checksum = l.checksum ^^^ wholeByte ((secondHalves (h.take 18)).take 8) ∧
      (do
        let r ← l1.bit ((secondHalves (h.take 18)).getLast? = some true)
        let ps ← r.1.feed (h.drop 18)
        return packetsOf r.2.toList ++ ps) = .ok ps := by
  obtain ⟨x1, b1, x2, b2, x3, b3, x4, b4, x5, b5, x6, b6, x7, b7, x8, b8, x9, b9, t, rfl⟩ :
      ∃ x1 b1 x2 b2 x3 b3 x4 b4 x5 b5 x6 b6 x7 b7 x8 b8 x9 b9 t, h =
        x1 :: b1 :: x2 :: b2 :: x3 :: b3 :: x4 :: b4 :: x5 :: b5 :: x6 :: b6 :: x7 :: b7 :: x8 :: b8 :: x9 :: b9 :: t := by
    clear hf
    iterate 18 (obtain _ | ⟨_, h⟩ := h; · simp at hlen)
    exact ⟨_, _, _, _, _, _, _, _, _, _, _, _, _, _, _, _, _, _, _, rfl⟩
  clear hlen
  obtain ⟨st, bc, by_, cs, ihb, pe, pk⟩ := l
  simp only at hs hh hc hb
  subst hs hh hc hb
  rw [Link.feed_bit _ _ _ _ rfl rfl (by simp), Link.feed_bit _ _ _ _ rfl rfl (by simp),
    Link.feed_bit _ _ _ _ rfl rfl (by simp), Link.feed_bit _ _ _ _ rfl rfl (by simp),
    Link.feed_bit _ _ _ _ rfl rfl (by simp), Link.feed_bit _ _ _ _ rfl rfl (by simp),
    Link.feed_bit _ _ _ _ rfl rfl (by simp)] at hf
  rw [Link.feed_pair _ _ _ _ rfl rfl] at hf
  simp only [Link.bit, wholeByte_bits] at hf
  by_cases hp : pk.length < maxPacketSize
  · simp only [hp, if_true, Nat.reduceAdd, Nat.lt_irrefl, if_false, ok_bind] at hf
    refine ⟨hp, ⟨.endbit, 0, 0#8, cs ^^^ wholeByte [b1, b2, b3, b4, b5, b6, b7, b8], false, false,
      pk ++ [wholeByte [b1, b2, b3, b4, b5, b6, b7, b8]]⟩, rfl, rfl, rfl, rfl, rfl, rfl, ?_⟩
    have hlast : (secondHalves (List.take 18 (x1 :: b1 :: x2 :: b2 :: x3 :: b3 :: x4 :: b4 :: x5 :: b5 :: x6 :: b6 ::
        x7 :: b7 :: x8 :: b8 :: x9 :: b9 :: t))).getLast? = some b9 := rfl
    rw [hlast]
    rw [Link.feed_pair _ _ _ _ rfl rfl] at hf
    have h9 : decide (some b9 = some true) = b9 := by cases b9 <;> rfl
    rw [h9]
    rw [bind_eq_ok] at hf
    obtain ⟨ps1, hf, h'⟩ := hf
    cases h'
    exact hf
  · simp [hp] at hf

/-- The bytes up to the end bit. -/
theorem Link.feed_frame (n : Nat) : ∀ (l : Link) (h : List Bool) (ps : List Packet), h.length ≤ n →
    l.state = .data → l.isHalfbit = false → l.bitCount = 0 → l.byte = 0#8 → l.checksum = exor l.packet →
    l.feed h = .ok ps →
    match frame h with
    | none => ps = []
    | some (bs, t) => ∃ (l' : Link) (ps' : List Packet), l'.state = .preamble ∧ l'.bitCount = 0 ∧ l'.byte = 0#8 ∧ l'.checksum = 0#8 ∧
        l'.feed t = .ok ps' ∧
        ps = (if 3 ≤ (l.packet ++ bs).length ∧ exor (l.packet ++ bs) = 0#8 then [l.packet ++ bs] else []) ++ ps' := by
  induction n with
  | zero =>
    intro l h ps hn hs hh hc hb hk hf
    have : h = [] := List.eq_nil_of_length_eq_zero (by omega)
    subst this
    cases hf
    rw [frame]
    rfl
  | succ n ih =>
    intro l h ps hn hs hh hc hb hk hf
    rw [frame]
    by_cases hl : h.length < 18
    · rw [if_pos hl]
      exact Link.feed_quiet h l ps (by rw [hs]; rfl) (by omega) (by rw [hs]; intro h; cases h)
        (by simp [Link.left, hs, hh, hc]; omega) hf
    · rw [if_neg hl]
      obtain ⟨-, l1, a1, a2, a3, a4, a5, a6, h1⟩ := Link.feed_byte l hs hh hc hb h hl ps hf
      dsimp only
      generalize wholeByte ((secondHalves (h.take 18)).take 8) = b at a5 a6 ⊢
      by_cases hend : (secondHalves (h.take 18)).getLast? = some true
      · simp only [hend, if_true]
        simp only [hend, decide_true, Link.bit, a1] at h1
        by_cases hv : l1.checksum = 0#8 ∧ 3 ≤ l1.packet.length
        · simp only [hv, and_self, if_true, Bool.not_true, Bool.false_eq_true, if_false, ok_bind] at h1
          rw [bind_eq_ok] at h1
          obtain ⟨ps', h2, h3⟩ := h1
          cases h3
          refine ⟨_, ps', rfl, rfl, rfl, rfl, h2, ?_⟩
          rw [if_pos ⟨by rw [← a5]; exact hv.2, by rw [exor_snoc, ← hk, ← a6]; exact hv.1⟩, ← a5]
          rfl
        · simp only [hv, Bool.not_true, Bool.false_eq_true, if_false, ok_bind] at h1
          rw [bind_eq_ok] at h1
          obtain ⟨ps', h2, h3⟩ := h1
          cases h3
          refine ⟨_, ps', rfl, rfl, rfl, rfl, h2, ?_⟩
          rw [if_neg]
          · rfl
          · rw [exor_snoc, ← hk, ← a6, ← a5]
            exact fun h => hv ⟨h.2, h.1⟩
      · simp only [hend, if_false]
        simp only [hend, decide_false, Link.bit, a1, Bool.not_false, if_true, ok_bind] at h1
        rw [bind_eq_ok] at h1
        obtain ⟨ps', h2, h3⟩ := h1
        cases h3
        have := ih { l1 with state := .data } (h.drop 18) ps' (by rw [List.length_drop]; omega) rfl a2 a3 a4
          (by simp only [a5, a6, exor_snoc, hk]) h2
        cases hfr : frame (h.drop 18) with
        | none => rw [hfr] at this; rw [this]; rfl
        | some r =>
          rw [hfr] at this
          simp only [a5, List.append_assoc] at this
          exact this

/-- From any point between two packets. -/
theorem Link.feed_deframe (n : Nat) : ∀ (l : Link) (h : List Bool) (ps : List Packet), h.length ≤ n →
    l.state = .preamble → l.byte = 0#8 → l.checksum = 0#8 → l.feed h = .ok ps → ps = deframe l.bitCount h := by
  induction n with
  | zero =>
    intro l h ps hn _ _ _ hf
    have : h = [] := List.eq_nil_of_length_eq_zero (by omega)
    subst this
    cases hf
    rw [deframe]
  | succ n ih =>
    intro l h ps hn hs hb hk hf
    obtain _ | ⟨b, t⟩ := h
    · cases hf
      rw [deframe]
    · simp only [List.length_cons] at hn
      rw [Link.feed, bind_eq_ok] at hf
      obtain ⟨⟨l1, o⟩, h1, h2⟩ := hf
      rw [bind_eq_ok] at h2
      obtain ⟨ps', h2, h3⟩ := h2
      cases h3
      obtain ⟨st, bc, by_, cs, ihb, pe, pk⟩ := l
      simp only at hs hb hk
      subst hs hb hk
      cases b
      · rw [deframe]
        simp only [Link.half, LinkState.halves, Bool.false_and, Bool.false_eq_true, if_false, Link.bit] at h1
        by_cases hc : bc < 20
        · simp only [hc, if_true, Except.ok.injEq, Prod.mk.injEq, Nat.reduceMul] at h1
          obtain ⟨rfl, rfl⟩ := h1
          rw [if_pos hc]
          exact ih _ t ps' (by omega) rfl rfl rfl h2
        · simp only [hc, if_false, Except.ok.injEq, Prod.mk.injEq, Nat.reduceMul] at h1
          obtain ⟨rfl, rfl⟩ := h1
          rw [if_neg hc]
          obtain _ | ⟨x, t⟩ := t
          · cases h2
            rw [show frame ([] : List Bool).tail = none by rw [frame]; rfl]
            rfl
          · rw [Link.feed] at h2
            simp only [Link.half, LinkState.halves, Bool.false_and, Bool.false_eq_true, if_false, Link.bit,
              ok_bind] at h2
            rw [bind_eq_ok] at h2
            obtain ⟨ps'', h2, h3⟩ := h2
            cases h3
            have := Link.feed_frame _ _ t ps'' (Nat.le_refl _) rfl rfl rfl rfl rfl h2
            simp only [List.tail_cons, List.nil_append] at this ⊢
            simp only [List.length_cons] at hn
            cases hfr : frame t with
            | none => rw [hfr] at this; simp only [this]; rfl
            | some r =>
              rw [hfr] at this
              obtain ⟨l', ps', c1, c2, c3, c4, c5, c6⟩ := this
              have hl := frame_length hfr
              have := ih l' r.2 ps' (by omega) c1 c3 c4 c5
              rw [c2] at this
              rw [c6, this]
              rfl
      · rw [deframe]
        simp only [Link.half, LinkState.halves, Bool.false_and, Bool.false_eq_true, if_false, Link.bit, if_true,
          Except.ok.injEq, Prod.mk.injEq] at h1
        obtain ⟨rfl, rfl⟩ := h1
        exact ih _ t ps' (by omega) rfl rfl rfl h2

end Dcc
