import Verif.Lemmas.RxChan2
import Verif.Props.RxBidi
/-!
C48: the queue for dynamic data.
-/
namespace Dcc
open Spec

/-- The words in a message of dynamic data. -/
private def wordsOf (m : List Byte) : List Nat := (triples m).map read

private theorem transmitted_emit (s : Rx) (m : List Byte) (s1 : Rx) (h : s1.trace = s.trace) :
    transmitted (newCalls s (s1.emit (.transmitBiDi m))) = [m] := by
  rw [newCalls_append (s := s) (evs := [.transmitBiDi m])]
  · rfl
  · show s1.trace ++ _ = _
    rw [h]

/-- Cutouts of another kind leave the queue alone. -/
private theorem answer_dyn (s : Rx) (c : Cutout) (h : c ≠ .dynamic) :
    (s.answer c).q.dyn = s.q.dyn ∧ (s.answer c).q.blockDyn = s.q.blockDyn := by
  cases c with
  | dynamic => exact absurd rfl h
  | nothing => exact ⟨rfl, rfl⟩
  | tipOff =>
    show (s.appTos).q.dyn = _ ∧ _
    unfold Rx.answer Rx.appTos
    split <;> exact ⟨rfl, rfl⟩
  | logon =>
    show (s.appLogon2).q.dyn = _ ∧ _
    unfold Rx.answer Rx.appLogon2
    split <;> exact ⟨rfl, rfl⟩
  | cv =>
    show (s.appPom).q.dyn = _ ∧ _
    unfold Rx.answer Rx.appPom
    split
    · exact ⟨rfl, rfl⟩
    split
    · exact ⟨rfl, rfl⟩
    split <;> exact ⟨rfl, rfl⟩

/-- What one call does to the queue. -/
private theorem step_dyn (e : Env) (s s' : Rx) (op : RxOp) (hr : Reachable e s)
    (hi : DynInv e s.q.dyn) (h : s.step e op = .ok s') : DynInv e s'.q.dyn ∧
    dynAbs s' = (dynAbs s).step e s op ∧
    (inChannel2 .dynamic s op = true → (transmitted (newCalls s s')).map wordsOf =
        (if (dynAbs s).words ≠ [] then [(dynAbs s).words.take 2] else []) ∧
        ∀ m ∈ transmitted (newCalls s s'), m = (triples m).flatten ∧ m.length ≤ 6) := by
  have same : SameQueues s s' → DynInv e s'.q.dyn ∧ dynAbs s' = dynAbs s := by
    intro f
    rw [dynAbs, f.dyn, f.blockDyn]
    exact ⟨hi, rfl⟩
  have rest := other_queues e s s' op hr.recvInv.room h
  cases op with
  | datagram ds =>
    obtain ⟨q, b, h1, h2, h3⟩ := datagram_words e s ds hi
    have h : s.datagram e ds = .ok s' := h
    rw [h1] at h
    cases h
    exact ⟨h2, h3, nofun⟩
  | biDiChannel2 =>
    have h := channel2_cutout s s' h
    rw [DynQueue.step]
    by_cases hc : cutout s = .dynamic
    · rw [if_pos hc]
      rw [hc] at h
      rcases appDyn_eq e s hi with ⟨h1, h2⟩ | ⟨m, h1, h2, h3, h4⟩
      · have h : s' = s := h.trans h2
        subst h
        refine ⟨hi, ?_, fun _ => ⟨?_, ?_⟩⟩
        · rw [dynAbs, h1]; rfl
        · rw [newCalls_self rfl, dynAbs, h1]; rfl
        · rw [newCalls_self rfl]; nofun
      · have h : s' = (s.withDyn (s.q.dyn.drop 2) s.q.blockDyn).emit (.transmitBiDi m) := h.trans h1
        subst h
        refine ⟨hi.drop 2, ?_, fun _ => ⟨?_, ?_⟩⟩
        · show DynQueue.mk ((s.q.dyn.drop 2).map read) _ = _
          rw [List.map_drop]
          rfl
        · rw [transmitted_emit s m (s.withDyn (s.q.dyn.drop 2) s.q.blockDyn) rfl, if_pos (by
            rw [dynAbs]; exact fun hn => h4 (List.map_eq_nil_iff.mp hn))]
          show [wordsOf m] = [(s.q.dyn.map read).take 2]
          rw [wordsOf, h2, List.map_take]
        · rw [transmitted_emit s m (s.withDyn (s.q.dyn.drop 2) s.q.blockDyn) rfl]
          intro m' hm'
          rw [List.mem_singleton] at hm'
          subst hm'
          refine ⟨by rw [h2]; exact h3, ?_⟩
          rw [h3]
          have hs := hi.size
          clear h h1 h2 h3 same rest
          match hq : s.q.dyn with
          | [] => exact absurd hq h4
          | [a] =>
            rw [hq] at hs
            have := hs a (by simp)
            simp [this]
          | a :: b :: l =>
            rw [hq] at hs
            have h1 := hs a (by simp)
            have h2 := hs b (by simp)
            simp [h1, h2]
    · rw [if_neg hc]
      subst h
      obtain ⟨h1, h2⟩ := answer_dyn s _ hc
      refine ⟨by rw [h1]; exact hi, ?_, fun h => absurd (of_decide_eq_true h) hc⟩
      rw [dynAbs, h1, h2]
      rfl
  | execute now rand =>
    obtain ⟨-, h1, h2, -⟩ := execute_queues e s s' now rand h
    refine ⟨by rw [h1]; exact hi, ?_, nofun⟩
    rw [dynAbs, h1, h2]
    rfl
  | biDiChannel1 =>
    have h : .ok s.biDiChannel1 = Except.ok s' := h
    cases h
    have hq : s.biDiChannel1.q.dyn = s.q.dyn ∧ s.biDiChannel1.q.blockDyn = s.q.blockDyn := by
      unfold Rx.biDiChannel1
      split
      · unfold Rx.appAdr; split <;> exact ⟨rfl, rfl⟩
      · unfold Rx.appAdr; split <;> exact ⟨rfl, rfl⟩
      · unfold Rx.appAdr; split <;> exact ⟨rfl, rfl⟩
      · unfold Rx.appLogon1; split <;> exact ⟨rfl, rfl⟩
      · exact ⟨rfl, rfl⟩
    refine ⟨by rw [hq.1]; exact hi, ?_, nofun⟩
    rw [dynAbs, hq.1, hq.2]
    rfl
  | init => exact (same (rest rfl nofun nofun nofun)).elim fun h1 h2 => ⟨h1, h2, nofun⟩
  | enable => exact (same (rest rfl nofun nofun nofun)).elim fun h1 h2 => ⟨h1, h2, nofun⟩
  | disable => exact (same (rest rfl nofun nofun nofun)).elim fun h1 h2 => ⟨h1, h2, nofun⟩
  | receive _ _ => exact (same (rest rfl nofun nofun nofun)).elim fun h1 h2 => ⟨h1, h2, nofun⟩
  | callbackByte _ _ => exact (same (rest rfl nofun nofun nofun)).elim fun h1 h2 => ⟨h1, h2, nofun⟩
  | callbackBit _ _ => exact (same (rest rfl nofun nofun nofun)).elim fun h1 h2 => ⟨h1, h2, nofun⟩

private theorem dyn_due (e : Env) (ops : List RxOp) : ∀ s : Rx, Reachable e s → DynInv e s.q.dyn →
    (sent (inChannel2 .dynamic) e s ops).map wordsOf = dueDynamic e s (dynAbs s) ops ∧
    (∀ m ∈ sent (inChannel2 .dynamic) e s ops, m = (triples m).flatten ∧ m.length ≤ 6) ∧
    ∀ s', s.run e ops = .ok s' → DynInv e s'.q.dyn ∧ dynQueue e s (dynAbs s) ops = dynAbs s' := by
  induction ops with
  | nil =>
    intro s _ hi
    refine ⟨rfl, nofun, fun s' h => ?_⟩
    cases h
    exact ⟨hi, rfl⟩
  | cons op ops ih =>
    intro s hr hi
    cases h : s.step e op with
    | error f =>
      rw [sent, dueDynamic, dynQueue, h]
      refine ⟨rfl, nofun, fun s' h' => ?_⟩
      rw [Rx.run, h] at h'
      cases h'
    | ok s' =>
      obtain ⟨hi', hd, ht⟩ := step_dyn e s s' op hr hi h
      obtain ⟨ih1, ih2, ih3⟩ := ih s' (hr.step op h) hi'
      rw [Rx.run, h, ok_bind, sent_cons ops h, dueDynamic, dynQueue, h]
      dsimp only
      rw [← hd]
      cases hc : inChannel2 .dynamic s op
      · rw [if_neg Bool.false_ne_true, List.nil_append, if_neg (fun h => Bool.false_ne_true h.1)]
        exact ⟨ih1, ih2, ih3⟩
      · obtain ⟨h1, h2⟩ := ht hc
        rw [if_pos rfl, List.map_append, h1, ih1]
        refine ⟨?_, fun m hm => ?_, ih3⟩
        · simp only [true_and]
        · rcases List.mem_append.mp hm with hm | hm
          · exact h2 m hm
          · exact ih2 m hm

/-- **C48** In every history the words a decoder transmits in channel 2 with dynamic data are exactly
those of the reference queue: at most two for every cutout, oldest first. -/
theorem C48_dynamic (e : Env) (ops : List RxOp) :
    (sent (inChannel2 .dynamic) e {} ops).map (fun m => (triples m).map read) =
      dueDynamic e {} {} ops :=
  (dyn_due e ops {} .start (DynInv.nil e)).1

/-- **C48** The messages consist of whole datagrams, and of two at most. -/
theorem C48_whole (e : Env) (ops : List RxOp) :
    ∀ m ∈ sent (inChannel2 .dynamic) e {} ops, m = (triples m).flatten ∧ m.length ≤ 6 :=
  (dyn_due e ops {} .start (DynInv.nil e)).2.1

private theorem drop_prefix {α : Type} {a b : List α} (h : a <+: b) : a ++ b.drop a.length = b := by
  obtain ⟨c, rfl⟩ := h
  rw [List.drop_left]

private theorem add_prefix (cap : Nat) (q : DynQueue) (ws : List Nat) :
    q.words <+: (q.add cap ws).words := List.prefix_append ..

/-- Data is only ever added at the end. -/
private theorem datagram_prefix (cap : Nat) (en : Bool) (qos : Byte) (ds : List Dyn) (q : DynQueue) :
    q.words <+: (q.datagram cap en qos ds).words := by
  unfold DynQueue.datagram
  dsimp only
  split
  · exact List.prefix_rfl
  split
  · rename_i h; rw [h]; exact List.nil_prefix
  split
  · exact List.prefix_rfl
  · exact add_prefix ..

private theorem due_accepted (e : Env) (ops : List RxOp) : ∀ (s : Rx) (q : DynQueue),
    (dueDynamic e s q ops).flatten ++ (dynQueue e s q ops).words = q.words ++ accepted e s q ops := by
  induction ops with
  | nil => intro s q; exact (List.append_nil _).symm
  | cons op ops ih =>
    intro s q
    rw [dueDynamic, dynQueue, accepted]
    cases h : s.step e op with
    | error f => exact (List.append_nil _).symm
    | ok s' =>
      dsimp only
      rw [List.flatten_append, List.append_assoc, ih, ← List.append_assoc, ← List.append_assoc]
      congr 1
      cases op with
      | datagram ds => exact (drop_prefix (datagram_prefix ..)).symm
      | biDiChannel2 =>
        by_cases hc : cutout s = .dynamic
        · rw [show inChannel2 .dynamic s .biDiChannel2 = true from decide_eq_true hc,
            DynQueue.step, if_pos hc]
          by_cases hq : q.words = []
          · rw [hq]; rfl
          · rw [if_pos ⟨rfl, hq⟩]
            simp
        · rw [show inChannel2 .dynamic s .biDiChannel2 = false from decide_eq_false hc,
            DynQueue.step, if_neg hc]
          simp
      | _ => exact (List.append_nil _).symm

/-- **C48** Every word accepted by `datagram` is transmitted exactly once and in order: the words
transmitted so far, followed by those still waiting, are the words accepted. -/
theorem C48_exactly_once (e : Env) (ops : List RxOp) :
    ((sent (inChannel2 .dynamic) e {} ops).map (fun m => (triples m).map read)).flatten ++
      (dynQueue e {} {} ops).words = accepted e {} {} ops := by
  rw [C48_dynamic, due_accepted]
  rfl

private theorem add_room (cap : Nat) (q : DynQueue) (ws : List Nat) (h : q.words.length ≤ cap) :
    (q.add cap ws).words.length ≤ cap := by
  unfold DynQueue.add
  simp only [List.length_append, List.length_take]
  omega

/-- **C48** Never more words are waiting than the queue has room for. -/
theorem C48_bounded (e : Env) (ops : List RxOp) :
    (dynQueue e {} {} ops).words.length ≤ e.bidiDeque := by
  suffices ∀ (s : Rx) (q : DynQueue), q.words.length ≤ e.bidiDeque →
      (dynQueue e s q ops).words.length ≤ e.bidiDeque from this {} {} (Nat.zero_le _)
  induction ops with
  | nil => intro s q h; exact h
  | cons op ops ih =>
    intro s q hq
    rw [dynQueue]
    cases h : s.step e op with
    | error f => exact hq
    | ok s' =>
      refine ih s' _ ?_
      unfold DynQueue.step
      split
      · unfold DynQueue.datagram
        dsimp only
        split
        · exact hq
        split
        · exact add_room _ _ _ (Nat.zero_le _)
        split
        · exact hq
        · exact add_room _ _ _ hq
      · split
        · dsimp only; rw [List.length_drop]; omega
        · exact hq
      · exact hq

/-- **C48** The reference queue is the one the decoder keeps. -/
theorem C48_state (e : Env) (ops : List RxOp) (s : Rx) (h : Rx.run e {} ops = .ok s) :
    (dynQueue e {} {} ops).words = s.q.dyn.map read ∧ s.q.dyn.length ≤ e.bidiDeque := by
  obtain ⟨h1, h2⟩ := (dyn_due e ops {} .start (DynInv.nil e)).2.2 s h
  refine ⟨?_, h1.room⟩
  have h2 : dynQueue e {} {} ops = dynAbs s := h2
  rw [h2]
  rfl

/-- **C48** The first word accepted by an empty queue is the quality of service. -/
theorem C48_qos_first (cap : Nat) (qos : Byte) (ds : List Dyn) (q : DynQueue) (hq : q.words = [])
    (hc : 0 < cap) : (q.datagram cap true qos ds).words.head? = some (dynWord qos 7#8) := by
  unfold DynQueue.datagram DynQueue.add
  rw [hq]
  dsimp only
  rw [if_neg (by simp; omega), if_pos rfl]
  obtain ⟨n, rfl⟩ : ∃ n, cap = n + 1 := ⟨cap - 1, by omega⟩
  simp

/-- Three values given to a decoder with packets for address 3: QoS and the first one, then the other
ones. -/
example : (sent (inChannel2 .dynamic) exampleEnv {}
    (.init :: .datagram [.raw 10#16 1#8, .raw 20#16 2#8, .raw 30#16 3#8] ::
      (withCutout [3#8, 0x3F#8, 0x80#8, 0xBC#8] ++ withCutout [3#8, 0x3F#8, 0x80#8, 0xBC#8]))).map
      (fun m => (triples m).map read) =
    [[dynWord 0#8 7#8, dynWord 10#8 1#8], [dynWord 20#8 2#8, dynWord 30#8 3#8]] := by
  decide +kernel

end Dcc
