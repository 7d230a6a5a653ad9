import Verif.Lemmas.RxDecoderTotal
/-! The value waiting is the content of the CV asked for. -/
namespace Dcc
open Spec

/-- The value waiting is what the CV packet counted last asks for, and that packet has been executed twice if
it is a write. -/
def Truth (d : Decoder) : Prop :=
  ∀ v, d.waiting = some v → isLongAccess d.last = true →
    ∃ k a, longRequest (afterAddress d.last) = some (k, a) ∧ valueIn d.cvs a = v ∧ (k = .write → 2 ≤ d.count)

theorem Truth.counted {d : Decoder} (h : Truth d) (p : Packet) : Truth (d.counted p) := by
  unfold Decoder.counted
  by_cases hp : d.last = p
  · intro v hv hl
    simp only [hp, if_true] at hv hl ⊢
    obtain ⟨k, a, h1, h2, h3⟩ := h v hv (by rw [hp]; exact hl)
    rw [hp] at h1
    exact ⟨k, a, h1, h2, fun hk => Nat.le_succ_of_le (h3 hk)⟩
  · intro v hv
    simp only [if_neg hp] at hv
    cases hv

theorem access_keeps {d d' : Decoder} {k : Kind} {a : Access} {evs : List Event} (h : d.access k a = some (d', evs)) :
    d'.last = d.last ∧ d'.count = d.count ∧ d'.service = d.service := by
  unfold Decoder.access at h
  split at h
  · split at h
    · cases h
    · cases h; exact ⟨rfl, rfl, rfl⟩
  · cases h; exact ⟨rfl, rfl, rfl⟩

theorem writes_keeps (as : List Access) : ∀ {d d' : Decoder} {evs : List Event}, d.writes as = some (d', evs) →
    d'.last = d.last ∧ d'.service = d.service := by
  induction as with
  | nil => intro d d' evs h; cases h; exact ⟨rfl, rfl⟩
  | cons a as ih =>
    intro d d' evs h
    have h : ((d.access .write a).bind fun x => (x.1.writes as).map fun y => (y.1, x.2 ++ y.2)) = some (d', evs) := h
    cases hx : d.access .write a with
    | none => rw [hx] at h; cases h
    | some x =>
      rw [hx] at h
      have h : ((x.1.writes as).map fun y => (y.1, x.2 ++ y.2)) = some (d', evs) := h
      cases hy : x.1.writes as with
      | none => rw [hy] at h; cases h
      | some y =>
        rw [hy] at h
        cases h
        obtain ⟨h1, h2⟩ := ih hy
        obtain ⟨h3, -, h4⟩ := access_keeps hx
        exact ⟨h1.trans h3, h2.trans h4⟩

/-- The action of the decoder is about the CV asked for. -/
theorem action_about {n : Nat} {bs : List Byte} {k : Kind} {a : Access} (h : longAction n bs = some (k, a)) :
    ∃ k' a', longRequest bs = some (k', a') ∧ (∀ c, valueIn c a = valueIn c a') ∧ (k' = .write → 2 ≤ n) ∧
      (k = .write → k' = .write ∧ n = 2) := by
  unfold longAction at h
  cases hr : longRequest bs with
  | none => rw [hr] at h; cases h
  | some x =>
    obtain ⟨k', a'⟩ := x
    rw [hr] at h
    refine ⟨k', a', rfl, ?_⟩
    cases k' with
    | verify =>
      cases h
      exact ⟨fun _ => rfl, by simp, by simp⟩
    | write =>
      cases a' with
      | byte cv b =>
        simp only at h
        split at h
        · cases h; exact ⟨fun _ => rfl, fun _ => by omega, fun _ => ⟨rfl, by assumption⟩⟩
        · split at h
          · cases h
          · cases h; exact ⟨fun _ => rfl, fun _ => by omega, by simp⟩
      | bit cv b pos =>
        simp only at h
        split at h
        · cases h; exact ⟨fun _ => rfl, fun _ => by omega, fun _ => ⟨rfl, by assumption⟩⟩
        · cases h

theorem Truth.long {d d' : Decoder} {bs : List Byte} {evs : List Event} (ht : Truth d) (hb : afterAddress d.last = bs)
    (hone : d.count = 2 → ∀ k a, longRequest bs = some (k, a) → k = .write → d.waiting = none)
    (h : d.long bs = some (d', evs)) : Truth d' := by
  unfold Decoder.long at h
  split at h
  · split at h
    · rename_i k a hact
      obtain ⟨k', a', h1, h2, h3, h4⟩ := action_about hact
      have h0 := access_keeps h
      unfold Decoder.access at h
      split at h
      · split at h
        · cases h
        · cases h
          intro v hv hl
          dsimp only at hv hl ⊢
          refine ⟨k', a', by rw [hb]; exact h1, ?_, h3⟩
          split at hv
          · cases hv; exact (h2 _).symm
          · obtain ⟨k2, a2, g1, g2, g3⟩ := ht v hv hl
            rw [hb, h1] at g1
            cases g1
            cases k with
            | verify => exact g2
            | write =>
              obtain ⟨g4, g5⟩ := h4 rfl
              rw [hone g5 _ _ h1 g4] at hv
              cases hv
      · cases h; exact ht
    · cases h; exact ht
  · split at h
    · cases h; exact ht
    · cases h
  · cases h

theorem long_keeps {d d' : Decoder} {bs : List Byte} {evs : List Event} (h : d.long bs = some (d', evs)) :
    d'.service = d.service := by
  unfold Decoder.long at h
  split at h
  · split at h
    · exact (access_keeps h).2.2
    · cases h; rfl
  · split at h
    · cases h; rfl
    · cases h
  · cases h

/-- What is no CV access, no consist control and does not enter service mode leaves the decoder alone. -/
theorem instruct_same {d d' : Decoder} {ew : Bool} {n : Nat} {p : Packet} {b : Byte} {rest : List Byte}
    {evs : List Event} (h224 : b.toNat < 224) (q1 : ¬ (n = 0 ∧ b = 0#8)) (q2 : ¬ (16 ≤ b.toNat ∧ b.toNat < 32))
    (h : d.instruct ew n p (b :: rest) = some (d', evs)) : d' = d := by
  have same : ∀ {evs evs' : List Event}, some (d, evs) = some (d', evs') → d' = d := by
    intro _ _ h; cases h; rfl
  have calls : ∀ {evs evs' : List Event}, d.calls evs = some (d', evs') → d' = d := by
    intro _ _ h; cases h; rfl
  unfold Decoder.instruct at h
  dsimp only at h
  by_cases c1 : b.toNat < 16
  · rw [if_pos c1, if_neg q1] at h; exact same h
  rw [if_neg c1, if_neg (fun c => q2 ⟨by omega, c⟩)] at h
  by_cases c2 : b.toNat < 64
  · rw [if_pos c2] at h
    cases rest with
    | nil =>
      split at h
      · cases h
      · split at h
        · cases h
        · split at h
          · cases h
          · exact same h
    | cons v rest =>
      split at h
      · exact calls h
      · split at h
        · exact calls h
        · split at h
          · exact calls h
          · exact same h
  rw [if_neg c2] at h
  by_cases c3 : b.toNat < 128
  · rw [if_pos c3] at h; exact calls h
  rw [if_neg c3] at h
  by_cases c4 : b.toNat < 192
  · rw [if_pos c4] at h; exact calls h
  rw [if_neg c4, if_pos h224] at h
  cases rest with
  | nil =>
    split at h
    · split at h
      · exact same h
      · cases h
    · split at h
      · split at h
        · exact same h
        · cases h
      · split at h
        · cases h
        · split at h
          · cases h
          · exact same h
  | cons v rest =>
    split at h
    · split at h
      · exact same h
      · cases h
    · split at h
      · split at h
        · exact same h
        · cases h
      · split at h
        · exact calls h
        · split at h
          · exact calls h
          · exact same h

theorem instruct_cv {d : Decoder} {ew : Bool} {n : Nat} {p : Packet} {b : Byte} {rest : List Byte}
    (h224 : ¬ b.toNat < 224) : d.instruct ew n p (b :: rest) =
      if n ≠ 0 ∧ n = consistNumber d.cvs then some (d, [])
      else if b.toNat < 240 then (d.counted p).long (b :: rest)
      else (shortWrites (d.counted p).count (b :: rest)).bind fun ws => (d.counted p).writes ws := by
  unfold Decoder.instruct
  dsimp only
  rw [if_neg (by omega), if_neg (by omega), if_neg (by omega), if_neg (by omega), if_neg (by omega),
    if_neg h224]

/-- Executing a packet that is no consist control and does not enter service mode. -/
theorem Truth.execute {d d' : Decoder} {ew : Bool} {p : Packet} {evs : List Event} (ht : Truth d)
    (hs : d.service = false) (hq : Undisturbing p) (h : d.execute ew p = some (d', evs)) :
    Truth d' ∧ d'.service = false := by
  unfold Decoder.execute at h
  rw [hs, if_neg Bool.false_ne_true] at h
  split at h
  · cases h; exact ⟨ht, hs⟩
  · rename_i n hn
    split at h
    · cases hb : afterAddress p with
      | nil => rw [hb] at h; cases h
      | cons b rest =>
        obtain ⟨q1, q2⟩ := hq n hn b (by rw [hb]; rfl)
        rw [hb] at h
        by_cases h224 : b.toNat < 224
        · rw [instruct_same h224 q1 q2 h]; exact ⟨ht, hs⟩
        by_cases hcon : n ≠ 0 ∧ n = consistNumber d.cvs
        · rw [instruct_cv h224, if_pos hcon] at h
          cases h; exact ⟨ht, hs⟩
        · rw [instruct_cv h224, if_neg hcon] at h
          have long : isLongAccess p = (decide (224 ≤ b.toNat) && decide (b.toNat < 240)) := by
            unfold isLongAccess
            rw [instructionByte_eq p n hn, hb]
            rfl
          have hlong : 224 ≤ b.toNat → b.toNat < 240 → isLongAccess p = true := by
            intro l1 l2
            rw [long]; simp [l1, l2]
          have hk := ht.counted p
          have hlast : (d.counted p).last = p := rfl
          split at h
          · refine ⟨hk.long (by rw [hlast]; exact hb) ?_ h, ?_⟩
            · intro hc k a hr hw
              cases hv : (d.counted p).waiting with
              | none => rfl
              | some v =>
                exfalso
                unfold Decoder.counted at hc hv
                dsimp only at hc hv
                split at hc
                · rename_i hp
                  rw [if_pos hp] at hv
                  obtain ⟨k', a', r1, -, r3⟩ := ht v hv (by
                    rw [hp]; exact hlong (by omega) (by assumption))
                  rw [hp, hb, hr] at r1
                  cases r1
                  have := r3 hw
                  omega
                · omega
            · exact (long_keeps h).trans hs
          · cases hws : shortWrites (d.counted p).count (b :: rest) with
            | none => rw [hws] at h; cases h
            | some ws =>
              rw [hws] at h
              have h : (d.counted p).writes ws = some (d', evs) := h
              obtain ⟨w1, w2⟩ := writes_keeps ws h
              refine ⟨?_, w2.trans hs⟩
              intro v _ hl
              rw [w1, hlast, long] at hl
              simp at hl
              omega
    · cases h; exact ⟨ht, hs⟩

theorem Truth.answer {d : Decoder} (ht : Truth d) (p : Packet) : Truth (d.answer p).1 ∧ (d.answer p).1.service = d.service := by
  unfold Decoder.answer
  split
  · split
    · exact ⟨fun v hv => (nomatch hv), rfl⟩
    · exact ⟨ht, rfl⟩
  · exact ⟨ht, rfl⟩

theorem Truth.run (ew : Bool) (xs : List MainStep) : ∀ {d : Decoder} {x : Decoder × List Event × List Message},
    Truth d → d.service = false → (∀ p ∈ executions xs, Undisturbing p) → d.run ew xs = some x →
    Truth x.1 ∧ x.1.service = false := by
  induction xs with
  | nil => intro d x h1 h2 _ h; cases h; exact ⟨h1, h2⟩
  | cons y xs ih =>
    intro d x h1 h2 h3 h
    cases y with
    | execute p =>
      have h : ((d.execute ew p).bind fun x => (x.1.run ew xs).map fun y => (y.1, x.2 ++ y.2.1, y.2.2)) = some x := h
      cases hy : d.execute ew p with
      | none => rw [hy] at h; cases h
      | some y =>
        rw [hy] at h
        have h : ((y.1.run ew xs).map fun z => (z.1, y.2 ++ z.2.1, z.2.2)) = some x := h
        cases hz : y.1.run ew xs with
        | none => rw [hz] at h; cases h
        | some z =>
          rw [hz] at h
          simp only [Option.map_some, Option.some.injEq] at h
          subst h
          obtain ⟨g1, g2⟩ := h1.execute h2 (h3 p (by simp [executions])) hy
          exact ih g1 g2 (fun q hq => h3 q (by
            unfold executions at hq ⊢
            rw [List.filterMap_cons]
            exact List.mem_cons_of_mem _ hq)) (x := z) hz
    | cutout p =>
      have h : (((d.answer p).1.run ew xs).map fun y => (y.1, y.2.1, (d.answer p).2 ++ y.2.2)) = some x := h
      cases hz : (d.answer p).1.run ew xs with
      | none => rw [hz] at h; cases h
      | some z =>
        rw [hz] at h
        simp only [Option.map_some, Option.some.injEq] at h
        subst h
        obtain ⟨g1, g2⟩ := h1.answer p
        exact ih g1 (g2.trans h2) (fun q hq => h3 q (by
          unfold executions at hq ⊢
          rw [List.filterMap_cons]
          exact hq)) (x := z) hz

end Dcc
