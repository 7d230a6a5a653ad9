import Verif.Props.RxTos
import Verif.Lemmas.RxMain
import Verif.Spec.TipOff
/-! Whether the answers to tip-off searches are up to date: C118. -/
namespace Dcc
open Spec

theorem dueSearch_append (e : Env) (b : List RxOp) : ∀ (a : List RxOp) (s s1 : Rx) (x : Search), s.run e a = .ok s1 →
    dueSearch e s x (a ++ b) = dueSearch e s x a ++ dueSearch e s1 (searchState e s x a) b ∧
      searchState e s x (a ++ b) = searchState e s1 (searchState e s x a) b := by
  intro a
  induction a with
  | nil =>
    intro s s1 x h
    cases h
    exact ⟨rfl, rfl⟩
  | cons op a ih =>
    intro s s1 x h
    rw [Rx.run] at h
    cases hs : s.step e op with
    | error f => rw [hs] at h; cases h
    | ok s' =>
      rw [hs] at h
      obtain ⟨h1, h2⟩ := ih s' s1 (x.step s op) h
      simp only [List.cons_append, dueSearch, searchState, hs]
      rw [h1, h2, List.append_assoc]
      exact ⟨rfl, rfl⟩

/-- An answer that waits stays as it is until it is transmitted. -/
theorem waiting_stays (e : Env) : ∀ (mid : List RxOp) (s s1 : Rx) (x : Search), s.run e mid = .ok s1 →
    x.waiting ≠ [] → dueSearch e s x mid = [] → (searchState e s x mid).waiting = x.waiting := by
  intro mid
  induction mid with
  | nil => exact fun _ _ _ _ _ _ => rfl
  | cons op mid ih =>
    intro s s1 x h hw hd
    rw [Rx.run] at h
    cases hs : s.step e op with
    | error f => rw [hs] at h; cases h
    | ok s' =>
      rw [hs] at h
      rw [dueSearch, hs] at hd
      rw [searchState, hs]
      dsimp only at hd ⊢
      obtain ⟨hd1, hd2⟩ := List.append_eq_nil_iff.mp hd
      have hx : (x.step s op).waiting = x.waiting := by
        unfold Search.step
        split
        · split
          · unfold Search.execute
            dsimp only
            split
            · dsimp only
              rw [if_neg (fun hc => hw hc.2.1)]
            · rfl
          · rfl
        · split
          · rename_i hc
            rw [if_pos (by rw [inChannel2, hc]; rfl)] at hd1
            exact absurd hd1 hw
          · rfl
        · rfl
      rw [ih s' s1 _ h (hx ▸ hw) hd2, hx]

theorem clockForward_left {b : List RxOp} : ∀ (a : List RxOp) {c : Int}, ClockForward c (a ++ b) → ClockForward c a := by
  intro a
  induction a with
  | nil => exact fun _ => trivial
  | cons op a ih =>
    intro c h
    rw [List.cons_append] at h
    cases op with
    | execute now rand => exact ⟨h.1, ih h.2⟩
    | _ => exact ih h

theorem tipOff_step (e : Env) (s : Rx) (h : cutout s = .tipOff) : ∃ s', s.step e .biDiChannel2 = .ok s' := by
  have ht : s.addrs.received.type = .broadcast := by
    unfold cutout at h
    split at h
    · assumption
    · split at h
      · split at h <;> cases h
      · split at h <;> cases h
    · split at h
      · split at h <;> cases h
      · split at h <;> cases h
    · cases h
    · cases h
  refine ⟨s.appTos, ?_⟩
  show s.biDiChannel2 = _
  unfold Rx.biDiChannel2
  rw [ht]

/-- **C118** A search that is to be answered is answered in the next cutout after a broadcast in which channel 2 is
attended to, however long that takes and whatever is received and executed meanwhile.  The answer is the address and
the number of seconds at the time the search was executed. -/
theorem C118_answered (e : Env) (a mid : List RxOp) (now : Int) (rand : Nat) (s s1 s2 : Rx)
    (hc : ClockForward 0 (a ++ .execute now rand :: (mid ++ [.biDiChannel2]))) (ha : Rx.run e {} a = .ok s)
    (hq : ToAnswer s (searchState e {} {} a) now rand) (hs : s.step e (.execute now rand) = .ok s1)
    (hm : s1.run e mid = .ok s2) (hb : cutout s2 = .tipOff)
    (hn : searchReplies e (a ++ .execute now rand :: mid) = searchReplies e a) :
    searchReplies e (a ++ .execute now rand :: (mid ++ [.biDiChannel2])) =
      searchReplies e a ++ [searchWords s ((searchState e {} {} a).times.execute now)] := by
  have hc' : ClockForward 0 (a ++ .execute now rand :: mid) := by
    refine clockForward_left (b := [.biDiChannel2]) _ ?_
    rw [List.append_assoc]
    exact hc
  have hca : ClockForward 0 a := clockForward_left (b := .execute now rand :: mid) _ hc'
  unfold searchReplies at hn ⊢
  rw [C50_exact e _ hc', C50_exact e _ hca, (dueSearch_append e _ a {} s {} ha).1] at hn
  rw [C50_exact e _ hc, C50_exact e _ hca, (dueSearch_append e _ a {} s {} ha).1]
  congr 1
  have hn := List.append_cancel_left (hn.trans (List.append_nil _).symm)
  generalize searchState e {} {} a = x at hn hq ⊢
  rw [dueSearch, hs] at hn ⊢
  dsimp only at hn ⊢
  rw [if_neg (by exact Bool.false_ne_true), List.nil_append] at hn ⊢
  have hx : (x.step s (.execute now rand)).waiting = [searchWords s (x.times.execute now)] := by
    obtain ⟨p, h1, h2, h3, h4, h5⟩ := hq
    unfold Search.step
    rw [h1]
    unfold Search.execute
    dsimp only
    rw [if_pos h2]
    dsimp only
    rw [if_pos ⟨h5, h3, h4⟩]
  have hstay := waiting_stays e mid s1 s2 _ hm (by rw [hx]; exact List.cons_ne_nil _ _) hn
  rw [(dueSearch_append e _ mid s1 s2 _ hm).1, hn, List.nil_append, dueSearch]
  obtain ⟨s3, h3⟩ := tipOff_step e s2 hb
  rw [h3]
  dsimp only
  rw [if_pos (by rw [inChannel2, hb]; rfl), hstay, hx, dueSearch, List.append_nil]

theorem times_stay (e : Env) : ∀ (mid : List RxOp) (s : Rx) (x : Search), (∀ op ∈ mid, op.isExecute = false) →
    (searchState e s x mid).times = x.times := by
  intro mid
  induction mid with
  | nil => exact fun _ _ _ => rfl
  | cons op mid ih =>
    intro s x h
    rw [searchState]
    split
    · rfl
    · rw [ih _ _ fun o ho => h o (List.mem_cons_of_mem _ ho)]
      have h0 := h op List.mem_cons_self
      unfold Search.step
      split
      · cases h0
      · split <;> rfl
      · rfl

/-- **C118** (partial) If no packet has been executed since and the decoder has kept its addresses, the answer is what
a search executed now would be answered with. -/
theorem C118_fresh_partial (e : Env) (a mid : List RxOp) (now : Int) (rand : Nat) (s s1 s2 : Rx)
    (hc : ClockForward 0 (a ++ .execute now rand :: (mid ++ [.biDiChannel2]))) (ha : Rx.run e {} a = .ok s)
    (hq : ToAnswer s (searchState e {} {} a) now rand) (hs : s.step e (.execute now rand) = .ok s1)
    (hm : s1.run e mid = .ok s2) (hb : cutout s2 = .tipOff)
    (hn : searchReplies e (a ++ .execute now rand :: mid) = searchReplies e a)
    (hx : ∀ op ∈ mid, op.isExecute = false) (hp : s2.addrs.primary = s.addrs.primary)
    (hk : s2.addrs.consist = s.addrs.consist) :
    searchReplies e (a ++ .execute now rand :: (mid ++ [.biDiChannel2])) = searchReplies e a ++
      [searchWords s2 (searchState e {} {} (a ++ .execute now rand :: mid)).times] := by
  rw [C118_answered e a mid now rand s s1 s2 hc ha hq hs hm hb hn, (dueSearch_append e _ a {} s {} ha).2, searchState, hs]
  dsimp only
  rw [times_stay e mid _ _ hx]
  obtain ⟨p, h1, h2, -⟩ := hq
  unfold searchWords
  rw [hp, hk]
  unfold Search.step
  rw [h1]
  unfold Search.execute
  dsimp only
  rw [if_pos h2]

/-! ### Examples -/

/-- Whether the clock goes forward, computed. -/
def clockCheck (last : Int) : List RxOp → Bool
  | [] => true
  | .execute now _ :: ops => decide (last ≤ now) && clockCheck now ops
  | _ :: ops => clockCheck last ops

theorem clockCheck_forward : ∀ (ops : List RxOp) {c : Int}, clockCheck c ops = true → ClockForward c ops := by
  intro ops
  induction ops with
  | nil => exact fun _ => trivial
  | cons op ops ih =>
    intro c h
    cases op with
    | execute now rand =>
      rw [clockCheck, Bool.and_eq_true, decide_eq_true_eq] at h
      exact ⟨h.1, ih h.2⟩
    | _ => exact ih h

/-- The station searches: XF2 off for all. -/
def searchBytes : List Byte := [0#8, 0xDD#8, 2#8, 0xDF#8]

/-- The decoder is switched on, executes its first packet at 9 s, and hears a search. -/
def searched : List RxOp := .init :: hears [0xFF#8, 0#8, 0xFF#8] ++ .execute 9000000000 0 :: hears searchBytes

/-- The next packet is a search again. -/
def searchedCheck : Bool :=
  match Rx.run exampleEnv {} searched with
  | .error _ => false
  | .ok s =>
    match front s, s.step exampleEnv (.execute 10500000000 0) with
    | some p, .ok s1 =>
      match s1.run exampleEnv (hears searchBytes) with
      | .error _ => false
      | .ok s2 =>
        let x := searchState exampleEnv {} {} searched
        searchPacket s p && decide (x.waiting = []) && decide ((x.times.execute 10500000000).seconds < 30) &&
          ((if 2000000000 ≤ 10500000000 - x.times.last then {} else x.pause : Pause).query 0).2 == false &&
          decide (cutout s2 = .tipOff) && decide (s2.addrs.primary = s.addrs.primary) &&
          decide (s2.addrs.consist = s.addrs.consist)
    | _, _ => false

/-- The hypotheses are met by a search answered in the cutout after the next one. -/
example : ∃ s s1 s2, ClockForward 0 (searched ++ .execute 10500000000 0 :: (hears searchBytes ++ [.biDiChannel2])) ∧
    Rx.run exampleEnv {} searched = .ok s ∧ ToAnswer s (searchState exampleEnv {} {} searched) 10500000000 0 ∧
    s.step exampleEnv (.execute 10500000000 0) = .ok s1 ∧ s1.run exampleEnv (hears searchBytes) = .ok s2 ∧
    cutout s2 = .tipOff ∧
    searchReplies exampleEnv (searched ++ .execute 10500000000 0 :: hears searchBytes) =
      searchReplies exampleEnv searched ∧
    (∀ op ∈ hears searchBytes, op.isExecute = false) ∧ s2.addrs.primary = s.addrs.primary ∧
    s2.addrs.consist = s.addrs.consist := by
  have h : searchedCheck = true := by decide +kernel
  unfold searchedCheck at h
  split at h
  · cases h
  rename_i s hs
  split at h
  rename_i p s1 hp hs1
  · split at h
    · cases h
    rename_i s2 hs2
    simp only [Bool.and_eq_true, decide_eq_true_eq, beq_iff_eq] at h
    obtain ⟨⟨⟨⟨⟨⟨h1, h2⟩, h3⟩, h4⟩, h5⟩, h6⟩, h7⟩ := h
    exact ⟨s, s1, s2, clockCheck_forward _ (by decide +kernel), hs, ⟨p, hp, h1, h2, h3, h4⟩, hs1, hs2, h5,
      by decide +kernel, by decide +kernel, h6, h7⟩
  · cases h

/-- **C118** fails: a search is executed 1.5 seconds after the decoder was switched on, and the station stops
searching.  For an hour there is no packet, then all locomotives are stopped.  In the cutout after that the
decoder answers the search of an hour ago, with the seconds of that time. -/
theorem C118_stale_false : let ops := searched ++ .execute 10500000000 0 :: (hears [0xFF#8, 0#8, 0xFF#8] ++
      .execute 3610500000000 0 :: hears [0#8, 0x71#8, 0x71#8])
    searchReplies exampleEnv ops = [] ∧
    searchReplies exampleEnv (ops ++ [.biDiChannel2]) = [[word12 1 0, word12 2 3, word12 14 1]] ∧
    (searchState exampleEnv {} {} ops).times.seconds = 0 ∧
    (searchState exampleEnv {} {} ops).times.start = 3610500000000 := by
  decide +kernel

end Dcc
