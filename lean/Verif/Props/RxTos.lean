import Verif.Lemmas.RxTosExact
import Verif.Props.RxBidi
/-!
C50: the answers to tip-off searches.
-/
namespace Dcc
open Spec
open scoped List

/-- The words of a message of datagrams with twelve bits. -/
private def wordsOf (m : List Byte) : List Nat := (pairs m).map read

private theorem tosBytes_words (as : Addresses) (n : Nat) (hn : n < 30) : (pairs (tosBytes as n)).map read =
    [word12 1 (reportData as.consist as.primary).1, word12 2 (reportData as.consist as.primary).2,
      word12 14 n] := by
  have h1 := adrHighData_lt as as.primary
  have h2 := adrLowData_lt as as.primary
  have h3 := idBytes_spec .b12 1 _ (by omega) h1
  have h4 := idBytes_spec .b12 2 _ (by omega) h2
  have h5 := idBytes_spec .b12 14 n (by omega) (show n < 2 ^ 8 by omega)
  have key : ∀ a b c : List Byte, a.length = 2 → b.length = 2 → c.length = 2 →
      pairs (a ++ b ++ c) = [a, b, c] := by
    intro a b c ha hb hc
    match a, b, c, ha, hb, hc with
    | [_, _], [_, _], [_, _], _, _, _ => rfl
  unfold tosBytes
  rw [key _ _ _ h3.1 h4.1 h5.1, reportData_eq]
  simp only [List.map_cons, List.map_nil, read_b12 1 _ (by omega) h1, read_b12 2 _ (by omega) h2,
    read_b12 14 n (by omega) (show n < 256 by omega)]

private theorem clock_cons {c : Int} {op : RxOp} {ops : List RxOp} (h : ClockForward c (op :: ops)) :
    ∃ c', c ≤ c' ∧ ClockForward c' ops ∧ ∀ now rand, op = .execute now rand → c' = now := by
  cases op with
  | execute now rand => exact ⟨now, h.1, h.2, fun _ _ h => by cases h; rfl⟩
  | _ => exact ⟨c, Int.le_refl _, h, nofun⟩

/-- The answers transmitted from a state on, and the one waiting in the end. -/
private theorem tos_run (e : Env) (ops : List RxOp) : ∀ (s : Rx) (c : Int), Reachable e s →
    s.tosTp ≤ s.lastPacketTp → s.lastPacketTp ≤ c → ClockForward c ops → s.q.tos.length ≤ 1 →
    (sent (inChannel2 .tipOff) e s ops).map wordsOf <+ s.q.tos.map wordsOf ++
      searchAnswers e s ⟨s.lastPacketTp, s.tosTp⟩ ops ∧
    ∀ s', s.run e ops = .ok s' → s'.q.tos.length ≤ 1 := by
  induction ops with
  | nil =>
    intro s c _ _ _ _ hl
    refine ⟨List.nil_sublist _, fun s' h => ?_⟩
    cases h
    exact hl
  | cons op ops ih =>
    intro s c hr hle hc hcl hl
    obtain ⟨c', hcc, hcl', hc'⟩ := clock_cons hcl
    cases h : s.step e op with
    | error f =>
      rw [sent, searchAnswers, h]
      refine ⟨List.nil_sublist _, fun s' h' => ?_⟩
      rw [Rx.run, h] at h'
      cases h'
    | ok s' =>
      rw [Rx.run, h, ok_bind, sent_cons ops h, searchAnswers, h]
      dsimp only
      have ih := ih s' c' (hr.step op h)
      have other : op.isExecute = false → s'.lastPacketTp = s.lastPacketTp → s'.tosTp = s.tosTp →
          ((if inChannel2 .tipOff s op then transmitted (newCalls s s') else []) ++ s'.q.tos <+ s.q.tos) →
          s'.q.tos.length ≤ 1 → ((if inChannel2 .tipOff s op then transmitted (newCalls s s') else []) ++
            sent (inChannel2 .tipOff) e s' ops).map wordsOf <+ s.q.tos.map wordsOf ++
            (searchAnswer s ⟨s.lastPacketTp, s.tosTp⟩ op ++
              searchAnswers e s' (Times.step ⟨s.lastPacketTp, s.tosTp⟩ s op) ops) ∧
          ∀ s'', s'.run e ops = .ok s'' → s''.q.tos.length ≤ 1 := by
        intro h1 h2 h3 h4 h5
        obtain ⟨i1, i2⟩ := ih (by rw [h2, h3]; exact hle) (by rw [h2]; omega) hcl' h5
        refine ⟨?_, i2⟩
        have ht : Times.step ⟨s.lastPacketTp, s.tosTp⟩ s op = ⟨s'.lastPacketTp, s'.tosTp⟩ := by
          rw [h2, h3]; cases op <;> first | rfl | cases h1
        have hn : searchAnswer s ⟨s.lastPacketTp, s.tosTp⟩ op = [] := by
          cases op <;> first | rfl | cases h1
        rw [ht, hn, List.nil_append, List.map_append]
        have h4 := h4.map wordsOf
        rw [List.map_append] at h4
        refine ((List.Sublist.refl _).append i1).trans ?_
        rw [← List.append_assoc]
        exact h4.append (List.Sublist.refl _)
      cases op with
      | execute now rand =>
        cases hc' now rand rfl
        rw [show inChannel2 .tipOff s (.execute c' rand) = false from rfl, if_neg Bool.false_ne_true,
          List.nil_append]
        rcases execute_tos e s s' c' rand hr hle (by omega) h with ⟨h1, rfl⟩ | ⟨p, h1, h2, h3, h4⟩
        · obtain ⟨i1, i2⟩ := ih hle (by omega) hcl' hl
          refine ⟨?_, i2⟩
          rw [Times.step, searchAnswer, h1]
          exact i1
        · have ht : Times.step ⟨s.lastPacketTp, s.tosTp⟩ s (.execute c' rand) =
              ⟨s'.lastPacketTp, s'.tosTp⟩ := by
            rw [Times.step, h1, h2, h3]; rfl
          have hle' : s'.tosTp ≤ s'.lastPacketTp := by
            rw [h2, h3]; split <;> omega
          rcases h4 with h4 | ⟨a1, a2, a3, a4⟩
          · obtain ⟨i1, i2⟩ := ih hle' (by omega) hcl' (by rw [h4]; exact hl)
            refine ⟨?_, i2⟩
            rw [ht]
            rw [h4] at i1
            exact i1.trans ((List.Sublist.refl _).append (List.sublist_append_right ..))
          · obtain ⟨i1, i2⟩ := ih hle' (by omega) hcl' (by rw [a4]; exact Nat.le_refl 1)
            refine ⟨?_, i2⟩
            rw [ht, a2]
            have hex : Times.execute ⟨s.lastPacketTp, s.tosTp⟩ c' = ⟨c', s'.tosTp⟩ := by
              rw [h3]; rfl
            have : searchAnswer s ⟨s.lastPacketTp, s.tosTp⟩ (.execute c' rand) = s'.q.tos.map wordsOf := by
              rw [searchAnswer, hex, h1, Option.any_some, a1,
                decide_eq_true (show Times.seconds ⟨c', s'.tosTp⟩ < 30 from a3), a4]
              exact congrArg (fun x => [x]) (tosBytes_words s.addrs _ a3).symm
            rw [this]
            exact i1
      | biDiChannel2 =>
        obtain ⟨h1, h2, h3⟩ := channel2_tos s s' h
        by_cases hc : cutout s = .tipOff
        · rw [if_pos hc] at h3
          refine other rfl h1 h2 ?_ (by rw [h3.1, List.length_drop]; omega)
          rw [show inChannel2 .tipOff s .biDiChannel2 = true from decide_eq_true hc, if_pos rfl, h3.1,
            h3.2, List.take_append_drop]
          exact List.Sublist.refl _
        · rw [if_neg hc] at h3
          refine other rfl h1 h2 ?_ (by rw [h3]; exact hl)
          rw [show inChannel2 .tipOff s .biDiChannel2 = false from decide_eq_false hc, h3]
          exact List.Sublist.refl _
      | _ =>
        have f := other_tos e s s' _ hr.recvInv.room h rfl nofun
        refine other rfl f.last f.start ?_ (by rw [f.tos]; exact hl)
        rw [f.tos]
        exact List.Sublist.refl _

/-- **C50** In every history with a clock that does not run backwards, what the decoder transmits in
the cutouts after broadcasts are answers to tip-off searches for it that come less than 30 seconds
after the last gap of two seconds or more: the two address words and the seconds passed.  Every search
is answered at most once and in order. -/
theorem C50_tip_off_search (e : Env) (ops : List RxOp) (hc : ClockForward 0 ops) :
    (sent (inChannel2 .tipOff) e {} ops).map (fun m => (pairs m).map read) <+
      searchAnswers e {} {} ops :=
  (tos_run e ops {} 0 .start (Int.le_refl _) (Int.le_refl _) hc (Nat.zero_le _)).1

/-- **C50** At most one answer is waiting at any time. -/
theorem C50_one_pending (e : Env) (ops : List RxOp) (hc : ClockForward 0 ops) (s : Rx)
    (h : Rx.run e {} ops = .ok s) : s.q.tos.length ≤ 1 :=
  (tos_run e ops {} 0 .start (Int.le_refl _) (Int.le_refl _) hc (Nat.zero_le _)).2 s h

private theorem ite_length {P : Prop} [Decidable P] (a : List Byte) (q : List (List Byte)) :
    (if P then [a] else q).length ≤ max 1 q.length := by
  split
  · exact Nat.le_max_left ..
  · exact Nat.le_max_right ..

private theorem seconds_eq (now : Int) (t : Int) : Times.seconds ⟨now, t⟩ = (now - t).toNat / 1000000000 := rfl

/-- The answers transmitted from a state on are those of a reference that describes it. -/
private theorem search_run (e : Env) (ops : List RxOp) : ∀ (s : Rx) (c : Int) (x : Search), Reachable e s →
    s.tosTp ≤ s.lastPacketTp → s.lastPacketTp ≤ c → ClockForward c ops → s.q.tos.length ≤ 1 →
    x.times = ⟨s.lastPacketTp, s.tosTp⟩ → PauseIs x.pause s.tosBackoff → x.waiting = s.q.tos.map wordsOf →
    (sent (inChannel2 .tipOff) e s ops).map wordsOf = dueSearch e s x ops := by
  induction ops with
  | nil => intros; rfl
  | cons op ops ih =>
    intro s c x hr hle hc hcl hl ht hb hw
    obtain ⟨c', hcc, hcl', hc'⟩ := clock_cons hcl
    cases h : s.step e op with
    | error f => rw [sent, dueSearch, h]; rfl
    | ok s' =>
      rw [sent_cons ops h, dueSearch, h]
      dsimp only
      have ih := ih s' c'
      have other : op.isExecute = false → s'.lastPacketTp = s.lastPacketTp → s'.tosTp = s.tosTp →
          s'.tosBackoff = s.tosBackoff → x.step s op = x → s'.q.tos = s.q.tos →
          inChannel2 .tipOff s op = false →
          ((if inChannel2 .tipOff s op then transmitted (newCalls s s') else []) ++
            sent (inChannel2 .tipOff) e s' ops).map wordsOf =
            (if inChannel2 .tipOff s op then x.waiting else []) ++ dueSearch e s' (x.step s op) ops := by
        intro h1 h2 h3 h4 h5 h6 h7
        rw [h7, if_neg Bool.false_ne_true, if_neg Bool.false_ne_true, List.nil_append, List.nil_append, h5]
        exact ih x (hr.step op h) (by rw [h2, h3]; exact hle) (by rw [h2]; omega) hcl' (by rw [h6]; exact hl)
          (by rw [h2, h3]; exact ht) (by rw [h4]; exact hb) (by rw [h6]; exact hw)
      cases op with
      | execute now rand =>
        cases hc' now rand rfl
        rw [show inChannel2 .tipOff s (.execute c' rand) = false from rfl, if_neg Bool.false_ne_true,
          if_neg Bool.false_ne_true, List.nil_append, List.nil_append]
        cases hp : front s with
        | none =>
          rcases execute_tos e s s' c' rand hr hle (by omega) h with ⟨-, rfl⟩ | ⟨p, h1, -⟩
          · rw [Search.step, hp]
            exact ih x hr hle (by omega) hcl' hl ht hb hw
          · rw [hp] at h1; cases h1
        | some p =>
          obtain ⟨h2, h3, h4⟩ := execute_exact e s s' p c' rand hr hle (by omega) hp h
          have hle' : s'.tosTp ≤ s'.lastPacketTp := by
            rw [h2, h3]; split <;> omega
          have ht' : x.times.execute c' = ⟨s'.lastPacketTp, s'.tosTp⟩ := by
            rw [ht, h2, h3]; rfl
          have hb' : PauseIs (if 2000000000 ≤ c' - s.lastPacketTp then {} else x.pause)
              (if 2000000000 ≤ c' - s.lastPacketTp then s.tosBackoff.now else s.tosBackoff) := by
            split
            · exact .now _
            · exact hb
          have hg : x.times.last = s.lastPacketTp := by rw [ht]
          rw [Search.step, hp]
          dsimp only
          unfold Search.execute
          dsimp only
          rw [hg, ht']
          have hlen : s'.q.tos.length ≤ 1 := by
            split at h4
            · rw [h4.2]
              exact Nat.le_trans (ite_length _ _) (by omega)
            · rw [h4.2]; exact hl
          split
          · rename_i hs
            rw [if_pos hs] at h4
            obtain ⟨q1, q2⟩ := hb'.query rand
            refine ih _ (hr.step _ h) hle' (by omega) hcl' hlen rfl (by rw [h4.1]; exact q1) ?_
            rw [h4.2, ← q2, h2, seconds_eq, hw]
            dsimp only
            simp only [List.map_eq_nil_iff]
            generalize ((if 2000000000 ≤ c' - s.lastPacketTp then s.tosBackoff.now
              else s.tosBackoff).query rand).2 = back
            split
            · rename_i hc
              rw [List.map_cons, List.map_nil, wordsOf, tosBytes_words _ _ hc.2.2, searchWords, seconds_eq]
            · rfl
          · rename_i hs
            rw [if_neg hs] at h4
            exact ih _ (hr.step _ h) hle' (by omega) hcl' hlen rfl (by rw [h4.1]; exact hb')
              (by rw [h4.2]; exact hw)
      | biDiChannel2 =>
        obtain ⟨h1, h2, h3⟩ := channel2_tos s s' h
        have hbo : s'.tosBackoff = s.tosBackoff := by
          obtain ⟨q, evs, h, -⟩ := (channel2_adds s).out _ h
          rw [h]
        by_cases hc : cutout s = .tipOff
        · rw [if_pos hc] at h3
          rw [show inChannel2 .tipOff s .biDiChannel2 = true from decide_eq_true hc, if_pos rfl, if_pos rfl,
            h3.2, Search.step, if_pos hc, List.map_append]
          have e1 : s.q.tos.take 1 = s.q.tos := List.take_of_length_le hl
          have e2 : s.q.tos.drop 1 = [] := List.drop_eq_nil_of_le hl
          rw [e1, ← hw]
          congr 1
          exact ih _ (hr.step _ h) (by rw [h1, h2]; exact hle) (by rw [h1]; omega) hcl'
            (by rw [h3.1, e2]; exact Nat.zero_le _) (by rw [h1, h2]; exact ht) (by rw [hbo]; exact hb)
            (by rw [h3.1, e2]; rfl)
        · rw [if_neg hc] at h3
          exact other rfl h1 h2 hbo (by rw [Search.step, if_neg hc]) h3 (decide_eq_false hc)
      | _ =>
        have f := other_tos e s s' _ hr.recvInv.room h rfl nofun
        exact other rfl f.last f.start (other_backoff e s s' _ hr.recvInv.room h rfl nofun) rfl f.tos rfl

/-- **C50** Exactly which searches are answered: in every history with a clock that does not run
backwards the answers transmitted in the cutouts after broadcasts are those of the reference `Search`.  A
search that need not back off, with no answer waiting and less than 30 seconds after the last gap of two
seconds or more, is answered in the next cutout after a broadcast; no other is.  The first search after a
gap never has to back off. -/
theorem C50_exact (e : Env) (ops : List RxOp) (hc : ClockForward 0 ops) :
    (sent (inChannel2 .tipOff) e {} ops).map (fun m => (pairs m).map read) = dueSearch e {} {} ops :=
  search_run e ops {} 0 {} .start (Int.le_refl _) (Int.le_refl _) hc (Nat.zero_le _) rfl .fresh rfl

/-- The reference for the searches below: the second search would be answered but has to back off for
the value 5 drawn by the first. -/
example : let ops := .init :: hears [0#8, 0xDD#8, 2#8, 0xDF#8] ++ .execute 9000000000 5 ::
      hears [0#8, 0xDD#8, 2#8, 0xDF#8] ++ .biDiChannel2 :: .execute 9100000000 0 ::
      hears [0#8, 0xDD#8, 2#8, 0xDF#8] ++ .biDiChannel2 :: .execute 12000000000 0 ::
      hears [0#8, 0xDD#8, 2#8, 0xDF#8] ++ [.biDiChannel2]
    dueSearch exampleEnv {} {} ops =
      [[word12 1 0, word12 2 3, word12 14 0], [word12 1 0, word12 2 3, word12 14 0]] := by
  decide +kernel

/-- Two searches by broadcast, right after the first packet and 3.9 seconds later; the first is answered. -/
example : let ops := .init :: hears [0#8, 0xDD#8, 2#8, 0xDF#8] ++ .execute 9000000000 0 ::
      hears [3#8, 0x3F#8, 0x80#8, 0xBC#8] ++ .execute 10000000000 0 :: hears [3#8, 0x3F#8, 0x80#8, 0xBC#8] ++
      .execute 11500000000 0 :: hears [0#8, 0xDD#8, 2#8, 0xDF#8] ++ .execute 12900000000 0 ::
      hears [0#8, 0xDD#8, 2#8, 0xDF#8] ++ [.biDiChannel2]
    (sent (inChannel2 .tipOff) exampleEnv {} ops).map (fun m => (pairs m).map read) =
      [[word12 1 0, word12 2 3, word12 14 0]] ∧
    searchAnswers exampleEnv {} {} ops =
      [[word12 1 0, word12 2 3, word12 14 0], [word12 1 0, word12 2 3, word12 14 3]] := by
  decide +kernel

end Dcc
