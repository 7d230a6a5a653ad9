import Verif.Spec.Preempt
import Verif.Spec.Memory
import Verif.Props.RxLink
/-! Interrupts between the steps of `execute`: C56. -/
namespace Dcc
open Spec (accepts executesPacket acceptedIn executedIn waiting stepsLeft exampleEnv recvOps)

/-! ### The steps of the thread -/

theorem adr_ref (s : Rx) : s.adr = match s.adrRef with
    | none => .ok s
    | some r => s.pushAdr (r.get s.addrs) := by
  unfold Rx.adr Rx.adrRef
  split
  · rfl
  split
  · rfl
  split
  · rfl
  split <;> rfl

theorem pushAdr_parts (s : Rx) (r : AdrRef) :
    s.pushAdr (r.get s.addrs) = (do (← s.pushHigh r).pushLow r) := by
  unfold Rx.pushAdr Rx.pushHigh Rx.pushLow
  simp only [bind_assoc, pure_eq_ok, ok_bind]
  rfl

theorem pushHigh_eq (s s' : Rx) (r : AdrRef) (h : s.pushHigh r = .ok s') :
    ∃ q, s' = { s with q := { s.q with adr := q } } := by
  unfold Rx.pushHigh at h
  simp only [bind_eq_ok] at h
  obtain ⟨_, _, q, _, h⟩ := h
  cases h
  exact ⟨q, rfl⟩

theorem pushLow_eq (s s' : Rx) (r : AdrRef) (h : s.pushLow r = .ok s') :
    ∃ q, s' = { s with q := { s.q with adr := q } } := by
  unfold Rx.pushLow at h
  simp only [bind_eq_ok] at h
  obtain ⟨_, _, q, _, h⟩ := h
  cases h
  exact ⟨q, rfl⟩

/-- What a step of the thread means for the link, the queue and the phase. -/
structure ThreadStep (x x' : Task) : Prop where
  link : x'.s.link = x.s.link
  deque : x'.s.deque = if x.phase = .pop then x.s.deque.drop 1 else x.s.deque
  begins : x.phase = .idle → x'.phase = .idle ∨
    x'.phase = .adr ∧ x.s.packetEnd = false ∧ x.s.deque ≠ []
  goesOn : x.phase ≠ .idle → stepsLeft x'.phase < stepsLeft x.phase
  exec : x'.phase = .pop ↔ x.phase = .exec

theorem updateQos_same (s : Rx) : s.updateQos.link = s.link ∧ s.updateQos.deque = s.deque := by
  unfold Rx.updateQos
  split <;> exact ⟨rfl, rfl⟩

theorem updateTimepoints_same (s : Rx) (now : Int) : (s.updateTimepoints now).link = s.link ∧
    (s.updateTimepoints now).deque = s.deque := by
  unfold Rx.updateTimepoints
  dsimp only
  split <;> exact ⟨rfl, rfl⟩

theorem logonStore_same (e : Env) (s : Rx) :
    (s.logonStore e).link = s.link ∧ (s.logonStore e).deque = s.deque := by
  obtain ⟨evs, h, -⟩ := logonStore_eq e s
  rw [h]
  dsimp only
  split <;> exact ⟨rfl, rfl⟩

theorem thread_step (e : Env) (x x' : Task) (now : Int) (rand : Nat)
    (h : x.thread e now rand = .ok x') : ThreadStep x x' := by
  obtain ⟨s, ph⟩ := x
  cases ph <;> simp only [Task.thread] at h
  · split at h
    · cases h
      exact ⟨rfl, rfl, fun _ => .inl rfl, fun h => absurd rfl h, by simp⟩
    · cases h
      rename_i hc
      simp only [Bool.or_eq_true, not_or, Bool.not_eq_true] at hc
      exact ⟨rfl, rfl, fun _ => .inr ⟨rfl, hc.1, fun h => by rw [show s.deque = [] from h] at hc; simp at hc⟩,
        fun h => absurd rfl h, by simp⟩
  · split at h
    · cases h
      exact ⟨rfl, rfl, nofun, fun _ => by simp [stepsLeft], by simp⟩
    · rw [bind_eq_ok] at h
      obtain ⟨s1, h1, h⟩ := h
      cases h
      obtain ⟨q, rfl⟩ := pushHigh_eq s s1 _ h1
      exact ⟨rfl, rfl, nofun, fun _ => by simp [stepsLeft], by simp⟩
  · rw [bind_eq_ok] at h
    obtain ⟨s1, h1, h⟩ := h
    cases h
    obtain ⟨q, rfl⟩ := pushLow_eq s s1 _ h1
    exact ⟨rfl, rfl, nofun, fun _ => by simp [stepsLeft], by simp⟩
  · cases h
    exact ⟨(logonStore_same e s).1, (logonStore_same e s).2, nofun, fun _ => by simp [stepsLeft],
      by simp⟩
  · cases h
    exact ⟨(updateQos_same s).1, (updateQos_same s).2, nofun, fun _ => by simp [stepsLeft], by simp⟩
  · cases h
    exact ⟨(updateTimepoints_same s now).1, (updateTimepoints_same s now).2, nofun,
      fun _ => by simp [stepsLeft], by simp⟩
  · rw [bind_eq_ok] at h
    obtain ⟨s1, h1, h⟩ := h
    cases h
    have hf := (frame_executeFront e s rand).out _ h1
    exact ⟨hf.link, hf.deque, nofun, fun _ => by simp [stepsLeft], by simp⟩
  · cases h
    exact ⟨rfl, rfl, nofun, fun _ => by simp [stepsLeft], by simp⟩

/-- A step either is one of the thread, or a call that leaves the phase alone, or none. -/
theorem micro_cases (e : Env) (x x' : Task) (m : Micro) (h : x.step e m = .ok x') :
    (∃ now rand, m = .thread now rand ∧ x.thread e now rand = .ok x') ∨
    (∃ op, m.call? x = some op ∧ x.s.step e op = .ok x'.s ∧ x'.phase = x.phase ∧
      (x.phase = .idle ∨ op.isExecute = false) ∧ ∀ now rand, m ≠ .thread now rand) ∨
    (m.call? x = none ∧ x' = x ∧ ∀ now rand, m ≠ .thread now rand) := by
  cases m with
  | thread now rand => exact .inl ⟨now, rand, rfl, h⟩
  | receive t r =>
    have h : (x.s.step e (.receive t r) >>= fun s => pure { x with s := s }) = .ok x' := h
    rw [bind_eq_ok] at h
    obtain ⟨s1, h1, h⟩ := h
    cases h
    exact .inr (.inl ⟨_, rfl, h1, rfl, .inr rfl, nofun⟩)
  | biDiChannel1 =>
    have h : (x.s.step e .biDiChannel1 >>= fun s => pure { x with s := s }) = .ok x' := h
    rw [bind_eq_ok] at h
    obtain ⟨s1, h1, h⟩ := h
    cases h
    exact .inr (.inl ⟨_, rfl, h1, rfl, .inr rfl, nofun⟩)
  | biDiChannel2 =>
    have h : (x.s.step e .biDiChannel2 >>= fun s => pure { x with s := s }) = .ok x' := h
    rw [bind_eq_ok] at h
    obtain ⟨s1, h1, h⟩ := h
    cases h
    exact .inr (.inl ⟨_, rfl, h1, rfl, .inr rfl, nofun⟩)
  | call op =>
    by_cases hp : x.phase = .idle
    · rw [Task.step, if_pos hp] at h
      rw [bind_eq_ok] at h
      obtain ⟨s1, h1, h⟩ := h
      cases h
      exact .inr (.inl ⟨op, if_pos hp, h1, rfl, .inl hp, nofun⟩)
    · rw [Task.step, if_neg hp] at h
      cases h
      exact .inr (.inr ⟨if_neg hp, rfl, nofun⟩)

/-- The queue is sound, and not empty while the thread is in `execute`. -/
structure TaskInv (e : Env) (x : Task) : Prop where
  recv : RecvInv e x.s
  front : x.phase ≠ .idle → x.s.deque ≠ []

/-- Calls other than `execute` only add to the queue. -/
theorem call_deque (e : Env) (s s' : Rx) (hi : RecvInv e s) (op : RxOp) (h : s.step e op = .ok s')
    (hx : op.isExecute = false) : s.deque <+: s'.deque := by
  have := step_queue e s s' hi op h
  rw [hx] at this
  simp only [Bool.false_and, Bool.false_eq_true, if_false, List.nil_append] at this
  exact ⟨_, this⟩

theorem TaskInv.start (e : Env) : TaskInv e {} := ⟨(Reachable.start (e := e)).recvInv, fun h => absurd rfl h⟩

theorem TaskInv.step {e : Env} {x x' : Task} (hi : TaskInv e x) (m : Micro) (h : x.step e m = .ok x') :
    TaskInv e x' := by
  rcases micro_cases e x x' m h with ⟨now, rand, rfl, h⟩ | ⟨op, -, h, hp, hx, -⟩ | ⟨-, rfl, -⟩
  · have ht := thread_step e x x' now rand h
    refine ⟨⟨?_, ?_, ?_⟩, fun hn => ?_⟩
    · rw [ht.link]; exact hi.recv.link
    · rw [ht.deque]
      intro p hp
      refine hi.recv.valid p ?_
      split at hp
      · exact List.mem_of_mem_drop hp
      · exact hp
    · rw [ht.deque]
      have := hi.recv.room
      split
      · simp only [List.length_drop]; omega
      · exact this
    · rw [ht.deque]
      by_cases h0 : x.phase = .idle
      · rw [if_neg (by rw [h0]; nofun)]
        rcases ht.begins h0 with h1 | ⟨-, -, h1⟩
        · exact absurd h1 hn
        · exact h1
      · split
        · rename_i h1
          have := ht.goesOn h0
          rw [h1] at this
          cases hx : x'.phase <;> rw [hx] at this <;> simp [stepsLeft] at this
          exact absurd hx hn
        · exact hi.front h0
  · refine ⟨hi.recv.step op h, fun hn => ?_⟩
    rw [hp] at hn
    rcases hx with hx | hx
    · exact absurd hx hn
    · obtain ⟨t, ht⟩ := call_deque e x.s x'.s hi.recv op h hx
      rw [← ht]
      simp [hi.front hn]
  · exact hi

theorem TaskInv.run {e : Env} (ms : List Micro) : ∀ {x x' : Task}, TaskInv e x → x.run e ms = .ok x' →
    TaskInv e x' := by
  induction ms with
  | nil => intro x x' hi h; cases h; exact hi
  | cons m ms ih =>
    intro x x' hi h
    rw [Task.run, bind_eq_ok] at h
    obtain ⟨x1, h1, h2⟩ := h
    exact ih (hi.step m h1) h2

/-! ### C56 -/

/-- The steps are those of `execute`: with nothing in between, at most eight of them are the call
`execute`, its result and its faults. -/
theorem C56_steps_are_execute (e : Env) (s : Rx) (now : Int) (rand : Nat) :
    ∃ n, 1 ≤ n ∧ n ≤ 8 ∧ Task.run e { s := s } (.replicate n (.thread now rand)) =
      (s.execute e now rand).map fun r => { s := r.1 } := by
  unfold Rx.execute
  by_cases hc : (s.packetEnd || s.deque.isEmpty) = true
  · refine ⟨1, by omega, by omega, ?_⟩
    rw [if_pos hc]
    simp only [List.replicate, Task.run, Task.step, Task.thread]
    rw [if_pos hc]
    rfl
  · rw [if_neg hc, adr_ref]
    have tail : ∀ s1 : Rx, Task.run e { s := s1, phase := .store }
        (.replicate 5 (.thread now rand)) =
        (do
          let (s, ret) ← (((s1.logonStore e).updateQos).updateTimepoints now).executeFront e rand
          return (s.popFront, ret) : R (Rx × Bool)).map fun r => { s := r.1 } := by
      intro s1
      simp only [List.replicate, Task.run, Task.step, Task.thread, ok_bind]
      cases (((s1.logonStore e).updateQos).updateTimepoints now).executeFront e rand <;> rfl
    cases hr : s.adrRef with
    | none =>
      refine ⟨7, by omega, by omega, ?_⟩
      have h2 : Task.run e { s := s } (.replicate 7 (.thread now rand)) =
          Task.run e { s := s, phase := .store } (.replicate 5 (.thread now rand)) := by
        rw [show List.replicate 7 (Micro.thread now rand) =
          .thread now rand :: .thread now rand :: .replicate 5 (.thread now rand) from rfl]
        rw [Task.run, Task.step, Task.thread]
        dsimp only
        rw [if_neg hc, ok_bind, Task.run, Task.step, Task.thread]
        dsimp only
        rw [hr]
        rfl
      rw [h2, tail]
      rfl
    | some r =>
      refine ⟨8, by omega, by omega, ?_⟩
      have h2 : Task.run e { s := s } (.replicate 8 (.thread now rand)) =
          (s.pushAdr (r.get s.addrs) >>= fun s1 =>
            Task.run e { s := s1, phase := .store } (.replicate 5 (.thread now rand))) := by
        rw [show List.replicate 8 (Micro.thread now rand) = .thread now rand ::
          .thread now rand :: .thread now rand :: .replicate 5 (.thread now rand) from rfl]
        rw [Task.run, Task.step, Task.thread]
        dsimp only
        rw [if_neg hc, ok_bind, Task.run, Task.step, Task.thread]
        dsimp only
        rw [hr, pushAdr_parts]
        dsimp only
        cases s.pushHigh r with
        | error _ => rfl
        | ok s1 =>
          simp only [ok_bind, pure_eq_ok]
          rw [Task.run, Task.step, Task.thread]
          dsimp only
          cases s1.pushLow r <;> rfl
      rw [h2]
      dsimp only
      cases s.pushAdr (r.get s.addrs) with
      | error _ => rfl
      | ok s1 => rw [ok_bind, tail]; rfl

/-- **C56** With interrupts between any two steps of `execute`, every packet accepted is executed
exactly once and in the order of acceptance: at every point the packets accepted so far are those
executed so far followed by those still waiting. -/
theorem C56_once_in_order (e : Env) (ms : List Micro) (x : Task)
    (h : Task.run e {} ms = .ok x) : acceptedIn e {} ms = executedIn e {} ms ++ waiting x := by
  have key : ∀ (ms : List Micro) (x0 x : Task), TaskInv e x0 → x0.run e ms = .ok x →
      waiting x0 ++ acceptedIn e x0 ms = executedIn e x0 ms ++ waiting x := by
    intro ms
    induction ms with
    | nil => intro x0 x _ h; cases h; simp [acceptedIn, executedIn]
    | cons m ms ih =>
      intro x0 x hi h
      rw [Task.run, bind_eq_ok] at h
      obtain ⟨x1, h1, h2⟩ := h
      have h3 := ih x1 x (hi.step m h1) h2
      have h4 : waiting x0 ++ accepts x0 x1 m = executesPacket x0 m ++ waiting x1 := by
        rcases micro_cases e x0 x1 m h1 with ⟨now, rand, rfl, ht⟩ | ⟨op, hc, hs, hp, hx, hm⟩ | ⟨hc, rfl, hm⟩
        · have ht := thread_step e x0 x1 now rand ht
          have : accepts x0 x1 (.thread now rand) = [] := by simp [accepts, Micro.call?]
          rw [this, List.append_nil]
          simp only [executesPacket, waiting, ht.exec, ht.deque]
          by_cases h5 : x0.phase = .exec
          · have h6 : x0.phase ≠ .pop := by rw [h5]; nofun
            rw [if_neg h6, if_pos h5, if_pos h5]
            exact (List.take_append_drop 1 _).symm
          · rw [if_neg h5, if_neg h5, List.nil_append]
        · have hex : executesPacket x0 m =
              if op.isExecute && !x0.s.packetEnd then x0.s.deque.take 1 else [] := by
            cases m with
            | thread now rand => exact absurd rfl (hm now rand)
            | _ => simp only [executesPacket, hc, Option.any_some]
          have hac : accepts x0 x1 m =
              if op.isReceive then x1.s.deque.drop x0.s.deque.length else [] := by
            simp only [accepts, hc, Option.any_some]
            cases op with
            | receive t r =>
              obtain ⟨hpe, hpn⟩ := receive_packetEnd e x0.s x1.s hi.recv t r hs
              simp only [RxOp.isReceive, Bool.true_and, if_true]
              cases hb : x1.s.packetEnd with
              | false => rw [(hpn hb).2]; simp
              | true =>
                obtain ⟨-, -, h5, h6⟩ := hpe hb
                cases hl : isLogon x1.s.link.packet with
                | false => rw [h5 hl]; simp
                | true => rw [h6 hl]; simp
            | _ => rfl
          have hq := step_queue e x0.s x1.s hi.recv op hs
          rw [hex, hac]
          simp only [waiting, hp]
          by_cases h5 : x0.phase = .pop
          · rw [if_pos h5, if_pos h5]
            have hxe : op.isExecute = false := by
              rcases hx with hx | hx
              · rw [h5] at hx; cases hx
              · exact hx
            rw [hxe] at hq ⊢
            simp only [Bool.false_and, Bool.false_eq_true, if_false, List.nil_append] at hq ⊢
            rw [← hq]
            have hne := hi.front (by rw [h5]; nofun)
            cases hd : x0.s.deque with
            | nil => exact absurd hd hne
            | cons p rest =>
              split <;> simp
          · rw [if_neg h5, if_neg h5]
            exact hq
        · have : accepts x1 x1 m = [] := by simp [accepts, hc]
          rw [this, List.append_nil]
          have : executesPacket x1 m = [] := by
            cases m with
            | thread now rand => exact absurd rfl (hm now rand)
            | _ => simp only [executesPacket, hc, Option.any_none, Bool.false_and, Bool.false_eq_true,
                if_false]
          rw [this, List.nil_append]
      simp only [acceptedIn, executedIn, h1]
      rw [← List.append_assoc, h4, List.append_assoc, h3, List.append_assoc]
  simpa [waiting] using key ms {} x (.start e) h

/-- **C56** At every point the queue holds no more than `DCC_RX_DEQUE_SIZE` packets, all of them are
valid, and the packet being assembled fits its array. -/
theorem C56_bounds (e : Env) (ms : List Micro) (x : Task) (h : Task.run e {} ms = .ok x) :
    x.s.deque.length ≤ e.rxDeque ∧ (∀ p ∈ x.s.deque, ValidPacket p) ∧
      x.s.link.packet.length ≤ maxPacketSize :=
  let hi := (TaskInv.start e).run ms h
  ⟨hi.recv.room, fun p hp => (hi.recv.valid p hp).1, hi.recv.link.len⟩

/-- **C56** While the thread is in `execute` the packet in front stays the same until the thread
removes it: what it executes and what it removes is the packet `execute` was called for. -/
theorem C56_front (e : Env) (ms : List Micro) (x x' : Task) (m : Micro)
    (h : Task.run e {} ms = .ok x) (hs : x.step e m = .ok x') (hp : x.phase ≠ .idle)
    (hp' : x'.phase ≠ .idle) :
    ∃ p, x.s.deque.head? = some p ∧ x'.s.deque.head? = some p := by
  have hi := (TaskInv.start e).run ms h
  have hne := hi.front hp
  cases hd : x.s.deque with
  | nil => exact absurd hd hne
  | cons p rest =>
    refine ⟨p, rfl, ?_⟩
    rcases micro_cases e x x' m hs with ⟨now, rand, rfl, ht⟩ | ⟨op, -, ht, -, hx, -⟩ | ⟨-, rfl, -⟩
    · have ht := thread_step e x x' now rand ht
      rw [ht.deque, if_neg, hd]
      · rfl
      · intro h1
        have := ht.goesOn hp
        rw [h1] at this
        cases hx : x'.phase <;> rw [hx] at this <;> simp [stepsLeft] at this
        exact absurd hx hp'
    · rcases hx with hx | hx
      · exact absurd hx hp
      · obtain ⟨t, ht⟩ := call_deque e x.s x'.s hi.recv op ht hx
        rw [← ht, hd]
        rfl
    · rw [hd]; rfl

/-- **C56** `execute` comes to its end: each of its steps brings the thread closer to it, and nothing
else moves the thread. -/
theorem C56_progress (e : Env) (x x' : Task) (m : Micro) (hs : x.step e m = .ok x')
    (hp : x.phase ≠ .idle) :
    stepsLeft x'.phase < stepsLeft x.phase ∨ (x'.phase = x.phase ∧ ∀ now rand, m ≠ .thread now rand) := by
  rcases micro_cases e x x' m hs with ⟨now, rand, rfl, ht⟩ | ⟨op, -, -, h, -, hm⟩ | ⟨-, rfl, hm⟩
  · exact .inl ((thread_step e x x' now rand ht).goesOn hp)
  · exact .inr ⟨h, hm⟩
  · exact .inr ⟨rfl, hm⟩

/-- The half bits of a packet and one more, received in interrupts. -/
def interrupts (p : Packet) : List Micro := (Spec.packetWave {} p ++ [58]).map fun t => .receive t 0

/-- A second packet is received while the first is being executed, another one between its execution
and its removal. -/
def preempted : List Micro :=
  .call .init :: interrupts [0xFF#8, 0#8, 0xFF#8] ++ List.replicate 4 (.thread 0 0) ++
    interrupts [3#8, 0x3F#8, 0x80#8, 0xBC#8] ++ List.replicate 4 (.thread 0 0) ++
    [.biDiChannel1, .biDiChannel2] ++ List.replicate 7 (.thread 1 0)

example : acceptedIn exampleEnv {} preempted =
      [[0xFF#8, 0#8, 0xFF#8], [3#8, 0x3F#8, 0x80#8, 0xBC#8]] ∧
    executedIn exampleEnv {} preempted =
      [[0xFF#8, 0#8, 0xFF#8], [3#8, 0x3F#8, 0x80#8, 0xBC#8]] := by
  refine ⟨by decide +kernel, by decide +kernel⟩

end Dcc
