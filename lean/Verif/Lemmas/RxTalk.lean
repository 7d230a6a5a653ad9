import Verif.Lemmas.RxMainTalk
import Verif.Lemmas.RxTruth
import Verif.Spec.Fault
/-! Programming on the main as the abstract decoder does it. -/
namespace Dcc
open Spec

/-- An instruction with all its bytes that is no CV access and no consist control is executed. -/
theorem instruct_some {d : Decoder} (ew : Bool) {n : Nat} {p : Packet} {b : Byte} {rest : List Byte}
    (h224 : b.toNat < 224) (q2 : ¬ (16 ≤ b.toNat ∧ b.toNat < 32)) (hlen : instrLength b ≤ (b :: rest).length) :
    ∃ x, d.instruct ew n p (b :: rest) = some x := by
  unfold Decoder.instruct
  dsimp only
  by_cases c1 : b.toNat < 16
  · rw [if_pos c1]
    split <;> exact ⟨_, rfl⟩
  rw [if_neg c1, if_neg (fun c => q2 ⟨by omega, c⟩)]
  by_cases c2 : b.toNat < 64
  · rw [if_pos c2]
    cases rest with
    | cons v rest =>
      split
      · exact ⟨_, rfl⟩
      · split
        · exact ⟨_, rfl⟩
        · split <;> exact ⟨_, rfl⟩
    | nil =>
      have hlen : instrLength b ≤ 1 := hlen
      unfold instrLength at hlen
      rw [if_neg (by omega)] at hlen
      split at hlen
      · omega
      · rw [if_neg (by omega), if_neg (by omega), if_neg (by omega)]
        exact ⟨_, rfl⟩
  rw [if_neg c2]
  by_cases c3 : b.toNat < 128
  · rw [if_pos c3]; exact ⟨_, rfl⟩
  rw [if_neg c3]
  by_cases c4 : b.toNat < 192
  · rw [if_pos c4]; exact ⟨_, rfl⟩
  rw [if_neg c4, if_pos h224]
  unfold instrLength at hlen
  rw [if_neg (by omega), if_neg (by omega)] at hlen
  simp only [List.length_cons] at hlen
  split
  · rw [if_pos (by rw [if_pos (by assumption)] at hlen; omega)]; exact ⟨_, rfl⟩
  · rw [if_neg (by assumption)] at hlen
    split at hlen
    · cases rest with
      | nil => simp at hlen
      | cons v rest =>
        split
        · rw [if_pos (by simp)]; exact ⟨_, rfl⟩
        · split
          · exact ⟨_, rfl⟩
          · split <;> exact ⟨_, rfl⟩
    · rw [if_neg (by omega), if_neg (by omega), if_neg (by omega)]
      exact ⟨_, rfl⟩

theorem long_byte {p : Packet} {n : Nat} (hn : locoNumber p = some n) {b : Byte} {rest : List Byte}
    (hb : afterAddress p = b :: rest) : isLongAccess p = (decide (224 ≤ b.toNat) && decide (b.toNat < 240)) := by
  unfold isLongAccess
  rw [instructionByte_eq p n hn, hb]
  rfl

/-- Executing a packet on the main. -/
theorem execute_main {d d' : Decoder} {ew : Bool} {p : Packet} {evs : List Event} (hs : d.service = false)
    (hp : OnMain p) (h : d.execute ew p = some (d', evs)) :
    d'.onMain = d.onMain.execute p ∧ d'.service = false := by
  have same : pomFor d.cvs p = false → d' = d → d'.onMain = d.onMain.execute p ∧ d'.service = false := by
    rintro h1 rfl
    refine ⟨?_, hs⟩
    unfold MainDevice.execute
    rw [if_neg (by rw [show d'.onMain.cvs = d'.cvs from rfl, h1]; exact Bool.false_ne_true)]
  unfold Decoder.execute at h
  rw [hs, if_neg Bool.false_ne_true] at h
  split at h
  · rename_i hn
    cases h
    exact same (by unfold pomFor; rw [hn]) rfl
  · rename_i n hn
    split at h
    · rename_i hear
      cases hb : afterAddress p with
      | nil => rw [hb] at h; cases h
      | cons b rest =>
        obtain ⟨q1, q2, q3, q4⟩ := hp n hn b (by rw [hb]; rfl)
        have long := long_byte hn hb
        rw [hb] at h q4
        by_cases h224 : b.toNat < 224
        · refine same ?_ (instruct_same h224 q1 q2 h)
          unfold pomFor
          rw [hn]
          dsimp only
          rw [long]
          have : ¬ 224 ≤ b.toNat := by omega
          simp [this]
        by_cases hcon : n ≠ 0 ∧ n = consistNumber d.cvs
        · rw [instruct_cv h224, if_pos hcon] at h
          cases h
          refine same ?_ rfl
          unfold pomFor
          rw [hn]
          simp [hcon.1, hcon.2.symm]
        · rw [instruct_cv h224, if_neg hcon, if_pos q3] at h
          have hfor : pomFor d.cvs p = true := by
            unfold pomFor
            rw [hn]
            dsimp only
            rw [long]
            unfold hearing at hear
            have : 224 ≤ b.toNat := by omega
            simp only [Bool.or_eq_true, decide_eq_true_eq] at hear
            simp only [this, q3, decide_true, Bool.and_true, Bool.or_eq_true, decide_eq_true_eq, Bool.and_eq_true]
            rcases hear with (h | h) | h
            · exact .inl h
            · by_cases h0 : n = 0
              · exact .inl h0
              · exact .inr ⟨h, fun hc => hcon ⟨h0, hc⟩⟩
            · by_cases h0 : n = 0
              · exact .inl h0
              · exact (hcon ⟨h0, h⟩).elim
          refine ⟨?_, (long_keeps h).trans hs⟩
          unfold MainDevice.execute
          rw [if_pos (show pomFor d.onMain.cvs p = true from hfor)]
          dsimp only
          have hlen := q4 (by omega)
          match rest, hlen with
          | b1 :: b2 :: rest, _ =>
            rw [hb]
            have h : (match longAction (d.counted p).count (b :: b1 :: b2 :: rest) with
              | some (k, a) => (d.counted p).access k a
              | none => some (d.counted p, [])) = some (d', evs) := h
            have hc : (d.counted p).count = if d.onMain.last = p then d.onMain.count + 1 else 1 := rfl
            rw [← hc]
            cases hact : longAction (d.counted p).count (b :: b1 :: b2 :: rest) with
            | none => rw [hact] at h; cases h; rfl
            | some x =>
              obtain ⟨k, a⟩ := x
              rw [hact] at h
              have h : (d.counted p).access k a = some (d', evs) := h
              unfold Decoder.access at h
              dsimp only
              rw [show (d.counted p).cvs = d.onMain.cvs from rfl] at h
              split at h
              · rename_i hperm
                rw [if_pos hperm]
                split at h
                · cases h
                · cases h
                  rw [show (d.counted p).service = false from hs]
                  rfl
              · rename_i hperm
                rw [if_neg hperm]
                cases h; rfl
    · rename_i hear
      cases h
      refine same ?_ rfl
      unfold pomFor
      rw [hn]
      unfold hearing at hear
      simp only [Bool.or_eq_true, decide_eq_true_eq, not_or] at hear
      simp [hear.1.1, hear.1.2]

theorem answered_main (d : Decoder) (p : Packet) :
    (d.answered p).1.service = d.service ∧ (d.answered p).1.cvs = d.cvs ∧
      d.onMain.hear p = ((d.answered p).1.onMain.execute p, (d.answered p).2) := by
  unfold Decoder.answered MainDevice.hear
  rw [show d.onMain.cvs = d.cvs from rfl]
  by_cases h : asks d.cvs p = true
  · rw [if_pos h, if_pos h]
    unfold Decoder.answer MainDevice.answer
    rw [show d.onMain.cvs = d.cvs from rfl, show d.onMain.last = d.last from rfl]
    split
    · split <;> exact ⟨rfl, rfl, rfl⟩
    · exact ⟨rfl, rfl, rfl⟩
  · rw [if_neg h, if_neg h]
    exact ⟨rfl, rfl, rfl⟩

/-- What a decoder on the main that talks to an address may get. -/
structure Proper (a : Address) (p : Packet) : Prop where
  main : OnMain p
  whole : locoNumber p ≠ none → LongEnough p
  harmless : pomTo a p = true → ∀ x, longRequest (afterAddress p) = some (.write, x) → BitVec.ofNat 32 x.cv ∉ initCvs

/-- What is written is what is asked for. -/
theorem action_write {n : Nat} {bs : List Byte} {x : Access} (hact : longAction n bs = some (.write, x)) :
    longRequest bs = some (.write, x) := by
  unfold longAction at hact
  cases hr : longRequest bs with
  | none => rw [hr] at hact; cases hact
  | some z =>
    obtain ⟨k', a'⟩ := z
    rw [hr] at hact
    cases k' with
    | verify => cases hact
    | write =>
      cases a' with
      | byte cv v =>
        simp only at hact
        split at hact
        · cases hact; rfl
        · split at hact <;> cases hact
      | bit cv v pos =>
        simp only at hact
        split at hact
        · cases hact; rfl
        · cases hact

/-- It is executed. -/
theorem execute_proper {d : Decoder} {a : Address} (ht : Talks d.cvs a) (ew : Bool) {p : Packet} (hs : d.service = false)
    (hp : Proper a p) : ∃ x, d.execute ew p = some x := by
  unfold Decoder.execute
  rw [hs, if_neg Bool.false_ne_true]
  split
  · exact ⟨_, rfl⟩
  · rename_i n hn
    split
    · rename_i hear
      obtain ⟨b, rest, hb, hlen⟩ := hp.whole (by rw [hn]; simp)
      obtain ⟨q1, q2, q3, q4⟩ := hp.main n hn b (by rw [hb]; rfl)
      have long := long_byte hn hb
      rw [hb] at q4 ⊢
      by_cases h224 : b.toNat < 224
      · exact instruct_some ew h224 q2 hlen
      rw [instruct_cv h224]
      split
      · exact ⟨_, rfl⟩
      rename_i hcon
      have hlen := q4 (by omega)
      match rest, hlen, hb with
      | b1 :: b2 :: rest, _, hb =>
        show ∃ x, (match longAction (d.counted p).count (b :: b1 :: b2 :: rest) with
              | some (k, a) => (d.counted p).access k a
              | none => some (d.counted p, [])) = some x
        cases hact : longAction (d.counted p).count (b :: b1 :: b2 :: rest) with
        | none => exact ⟨_, rfl⟩
        | some y =>
          obtain ⟨k, x⟩ := y
          show ∃ x', (d.counted p).access k x = some x'
          unfold Decoder.access
          split
          · rw [if_neg]
            · exact ⟨_, rfl⟩
            rintro ⟨rfl, hc, -⟩
            refine hp.harmless ?_ x ?_ hc
            · unfold pomTo
              rw [long, hn]
              have : 224 ≤ b.toNat := by omega
              unfold hearing at hear
              rw [ht.own] at hear
              simp only [Bool.or_eq_true, decide_eq_true_eq, Option.some.injEq] at hear
              simp only [this, q3, decide_true, Bool.and_true, Bool.true_and, Bool.or_eq_true, decide_eq_true_eq,
                Option.some.injEq]
              rcases hear with (h | h) | h
              · exact .inr h
              · exact .inl h.symm
              · by_cases h0 : n = 0
                · exact .inr h0
                · exact (hcon ⟨h0, h⟩).elim
            · rw [hb]
              exact action_write hact
          · exact ⟨_, rfl⟩
    · exact ⟨_, rfl⟩

/-- It goes on talking. -/
theorem talks_hear {d : MainDevice} {a : Address} (ht : Talks d.cvs a) {p : Packet} (hp : Proper a p) :
    Talks (d.hear p).1.cvs a := by
  have exec : ∀ d : MainDevice, Talks d.cvs a → Talks (d.execute p).cvs a := by
    intro d ht
    unfold MainDevice.execute
    by_cases hfor : pomFor d.cvs p = true
    · rw [if_pos hfor]
      dsimp only
      split
      · exact ht
      · rename_i k x hact
        split
        · refine talks_congr (stored_other _ _ _ ?_) ht
          rintro rfl
          refine hp.harmless ?_ x ?_
          · unfold pomFor at hfor
            unfold pomTo
            split at hfor
            · cases hfor
            · rename_i n hn
              rw [ht.own] at hfor
              rw [hn]
              simp only [Bool.and_eq_true, Bool.or_eq_true, decide_eq_true_eq, Option.some.injEq] at hfor ⊢
              refine ⟨hfor.2, ?_⟩
              rcases hfor.1 with h | h
              · exact .inr h
              · exact .inl h.1.symm
          · exact action_write hact
        · exact ht
    · rw [if_neg hfor]; exact ht
  unfold MainDevice.hear
  split
  · refine exec _ ?_
    unfold MainDevice.answer
    split
    · split <;> exact ht
    · exact ht
  · exact exec _ ht

/-- Packets to others do not matter. -/
theorem hearAll_to {a : Address} (ps : List Packet) : ∀ d : MainDevice, Talks d.cvs a → (∀ p ∈ ps, Proper a p) →
    d.hearAll ps = d.hearAll (ps.filter (pomTo a)) := by
  induction ps with
  | nil => intro d _ _; rfl
  | cons p ps ih =>
    intro d ht hp
    rw [List.filter_cons]
    cases hto : pomTo a p with
    | true =>
      rw [if_pos rfl, MainDevice.hearAll, MainDevice.hearAll,
        ih _ (talks_hear ht (hp p (by simp))) fun q hq => hp q (by simp [hq])]
    | false =>
      rw [if_neg Bool.false_ne_true, MainDevice.hearAll]
      have : d.hear p = (d, []) := by
        unfold pomTo at hto
        have h1 : asks d.cvs p = false := by
          unfold asks
          rw [ht.own]
          cases h2 : isLongAccess p
          · rfl
          · rw [h2] at hto
            cases hn : locoNumber p with
            | none => simp
            | some n =>
              rw [hn] at hto
              simp only [Option.some.injEq, Bool.true_and, Bool.or_eq_false_iff, decide_eq_false_iff_not] at hto
              have : ¬ a.value.toNat = n := fun h => hto.1 h.symm
              simp [this]
        have h2 : pomFor d.cvs p = false := by
          unfold pomFor
          rw [ht.own]
          cases hn : locoNumber p with
          | none => rfl
          | some n =>
            rw [hn] at hto
            cases h2 : isLongAccess p
            · simp
            · rw [h2] at hto
              simp only [Option.some.injEq, Bool.true_and, Bool.or_eq_false_iff, decide_eq_false_iff_not] at hto
              have : ¬ a.value.toNat = n := fun h => hto.1 h.symm
              simp [this, hto.2]
        unfold MainDevice.hear MainDevice.execute
        rw [h1, h2]
        rfl
      rw [this, ← ih d ht fun q hq => hp q (by simp [hq])]
      rfl

/-- A decoder that talks to an address does not fault. -/
theorem hearAll_main {a : Address} (ew : Bool) (ps : List Packet) : ∀ d : Decoder, d.service = false →
    Talks d.cvs a → (∀ p ∈ ps, Proper a p) →
    ∃ d' calls, d.hearAll ew ps = some (d', calls, (d.onMain.hearAll ps).2) ∧
      d'.onMain = (d.onMain.hearAll ps).1 ∧ d'.service = false ∧ Talks d'.cvs a := by
  induction ps with
  | nil => intro d hs ht _; exact ⟨d, [], rfl, rfl, hs, ht⟩
  | cons p ps ih =>
    intro d hs ht hp
    obtain ⟨g1, g2, g3⟩ := answered_main d p
    obtain ⟨⟨d1, evs⟩, hx⟩ := execute_proper (d := (d.answered p).1) (by rw [g2]; exact ht) ew (g1.trans hs) (hp p (by simp))
    obtain ⟨h1, h2⟩ := execute_main (g1.trans hs) (hp p (by simp)).main hx
    have h3 : (d.onMain.hear p).1 = d1.onMain := by rw [g3, h1]
    have h4 : Talks d1.cvs a := by
      have := talks_hear (d := d.onMain) ht (hp p (by simp))
      rw [h3] at this
      exact this
    obtain ⟨d', calls, k1, k2, k3, k4⟩ := ih d1 h2 h4 fun q hq => hp q (by simp [hq])
    refine ⟨d', evs ++ calls, ?_, ?_, k3, k4⟩
    · show (((d.answered p).1.execute ew p).map _).bind _ = _
      rw [hx]
      show (d1.hearAll ew ps).map _ = _
      rw [k1]
      show some (d', evs ++ calls, (d.answered p).2 ++ _) = _
      rw [MainDevice.hearAll, h3, g3]
    · rw [MainDevice.hearAll, h3]; exact k2

/-- What is heard first is heard in any case. -/
theorem hearAll_prefix (ps qs : List Packet) (d : MainDevice) :
    (d.hearAll ps).2 <+: (d.hearAll (ps ++ qs)).2 := by
  rw [MainDevice.hearAll_append]
  exact List.prefix_append _ _

end Dcc
