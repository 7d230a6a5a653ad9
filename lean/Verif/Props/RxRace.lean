import Verif.Props.RxThread
import Verif.Lemmas.RxOrderly
/-! What interrupts between two accesses of the thread can break: C72 and C73. -/
namespace Dcc
open Spec

variable {e : Env}

/-! ### C72: CV answers -/

/-- The answers waiting were queued since the packet changed, unless the thread is about to clear
them. -/
structure PomInv (x : Preempted) (answers : List (List Byte)) : Prop where
  orderly : Orderly x.prog
  fresh : (∃ k, x.prog = .atom 865 clearPom k) ∨ ∀ d ∈ x.s.q.pom, d ∈ answers

/-- The answers after a step. -/
def nextAnswers (x x' : Preempted) (m : Beat) (answers : List (List Byte)) : List (List Byte) :=
  if x'.s.lastOwnCvPacket ≠ x.s.lastOwnCvPacket then []
  else if m = .access ∧ x.line = some 895 then answers ++ x'.s.q.pom.drop x.s.q.pom.length
  else answers

theorem PomInv.access {x x' : Preempted} {answers : List (List Byte)} (hi : PomInv x answers)
    (h : x.access = .ok x') : PomInv x' (nextAnswers x x' .access answers) := by
  obtain ⟨s, p⟩ := x
  cases p with
  | ret a =>
    cases h
    refine ⟨trivial, .inr fun d hd => ?_⟩
    rcases hi.fresh with ⟨k, hk⟩ | hf
    · cases hk
    · rw [nextAnswers, if_neg (by simp), if_neg (by simp [Preempted.line])]
      exact hf d hd
  | atom l f k =>
    simp only [Preempted.access] at h
    split at h
    case h_2 => cases h
    case h_1 s1 b hb =>
    cases h
    obtain ⟨h1, h2⟩ := hi.orderly s s1 b hb
    refine ⟨h2, ?_⟩
    rcases hi.fresh with ⟨k', hk⟩ | hf
    · cases hk
      cases hb
      exact .inr nofun
    cases h1 with
    | same h =>
      refine .inr fun d hd => ?_
      have hd : d ∈ s1.q.pom := hd
      rw [h.pom] at hd
      unfold nextAnswers
      rw [if_neg (fun hn => hn h.own)]
      split
      · exact List.mem_append_left _ (hf d hd)
      · exact hf d hd
    | clear own pom =>
      refine .inr fun d hd => ?_
      have hd : d ∈ s1.q.pom := hd
      rw [pom] at hd
      cases hd
    | push d hl own pom =>
      subst hl
      refine .inr fun c hc => ?_
      have hc : c ∈ s1.q.pom := hc
      rw [nextAnswers, if_neg (fun hn => hn own), if_pos ⟨rfl, rfl⟩]
      show c ∈ answers ++ s1.q.pom.drop s.q.pom.length
      rw [pom] at hc ⊢
      rw [List.drop_left]
      rcases List.mem_append.mp hc with hc | hc
      · exact List.mem_append_left _ (hf c hc)
      · exact List.mem_append_right _ hc
    | own pom k' hk => exact .inl ⟨k', hk⟩

theorem interrupt_pom {x : Preempted} {s' : Rx} {st : Stage} {op : RxOp} (hi : ThreadInv e x st)
    (hop : op.inInterrupt = true) (hr : st.resets = true → op.isReceive = false)
    (h : x.s.step e op = .ok s') :
    s'.lastOwnCvPacket = x.s.lastOwnCvPacket ∧ ∀ d ∈ s'.q.pom, d ∈ x.s.q.pom := by
  cases op with
  | receive t r =>
    have hn : st.resets = false := by
      cases hs : st.resets
      · rfl
      · have := hr hs
        cases this
    have hrecv := hi.recv
    rw [st.settled_eq hn] at hrecv
    have f := (receive_frame e x.s hrecv.room t r).out _ h
    exact ⟨f.lastOwnCvPacket, fun d hd => f.pom ▸ hd⟩
  | biDiChannel1 =>
    simp only [Rx.step, Except.ok.injEq] at h
    rw [← h, Rx.biDiChannel1]
    unfold Rx.appAdr Rx.appLogon1
    repeat' split
    all_goals exact ⟨rfl, fun d hd => hd⟩
  | biDiChannel2 =>
    rw [channel2_cutout x.s s' h]
    cases cutout x.s with
    | nothing => exact ⟨rfl, fun d hd => hd⟩
    | tipOff =>
      show x.s.appTos.lastOwnCvPacket = _ ∧ ∀ d ∈ x.s.appTos.q.pom, _
      unfold Rx.appTos
      split <;> exact ⟨rfl, fun d hd => hd⟩
    | cv =>
      show x.s.appPom.lastOwnCvPacket = _ ∧ ∀ d ∈ x.s.appPom.q.pom, _
      unfold Rx.appPom
      split
      · exact ⟨rfl, fun d hd => hd⟩
      split
      · exact ⟨rfl, fun d hd => hd⟩
      split
      · exact ⟨rfl, fun d hd => hd⟩
      · rename_i hq
        exact ⟨rfl, fun d hd => by rw [hq]; exact List.mem_cons_of_mem _ hd⟩
    | dynamic =>
      show x.s.appDyn.lastOwnCvPacket = _ ∧ ∀ d ∈ x.s.appDyn.q.pom, _
      unfold Rx.appDyn
      split <;> exact ⟨rfl, fun d hd => hd⟩
    | logon =>
      show x.s.appLogon2.lastOwnCvPacket = _ ∧ ∀ d ∈ x.s.appLogon2.q.pom, _
      unfold Rx.appLogon2
      split <;> exact ⟨rfl, fun d hd => hd⟩
  | _ => cases hop

theorem PomInv.step {x x' : Preempted} {st : Stage} {m : Beat} {answers : List (List Byte)}
    (ht : ThreadInv e x st) (hi : PomInv x answers) (hm : resetAlone x m) (h : x.step e m = .ok x') :
    PomInv x' (nextAnswers x x' m answers) := by
  have int : ∀ op : RxOp, op.inInterrupt = true → op.isReceive = m.isReceive → m ≠ .access →
      x.interrupt e op = .ok x' → PomInv x' (nextAnswers x x' m answers) := by
    intro op ho hr hna h
    unfold Preempted.interrupt at h
    split at h
    case h_2 => cases h
    case h_1 s1 h1 =>
    cases h
    obtain ⟨h2, h3⟩ := interrupt_pom ht ho (fun h => hr ▸ hm (Stage.resets_line ht.fits h)) h1
    refine ⟨hi.orderly, hi.fresh.imp id fun hf d hd => ?_⟩
    rw [nextAnswers, if_neg (fun hn => hn h2), if_neg (fun h => hna h.1)]
    exact hf d (h3 d hd)
  cases m with
  | access => exact hi.access h
  | start op =>
    obtain ⟨s, p⟩ := x
    cases p with
    | ret a =>
      cases h
      refine ⟨tidy_thread op, .inr fun d hd => ?_⟩
      rcases hi.fresh with ⟨k, hk⟩ | hf
      · cases hk
      · rw [nextAnswers, if_neg (by simp), if_neg (by simp)]
        exact hf d hd
    | atom l f k =>
      cases h
      rw [nextAnswers, if_neg (by simp), if_neg (by simp)]
      exact hi
  | receive t r => exact int (.receive t r) rfl rfl nofun h
  | biDiChannel1 => exact int .biDiChannel1 rfl rfl nofun h
  | biDiChannel2 => exact int .biDiChannel2 rfl rfl nofun h

theorem PomInv.run (ms : List Beat) : ∀ {x x' : Preempted} {st : Stage} {answers : List (List Byte)},
    ThreadInv e x st → PomInv x answers → Always e resetAlone x ms → x.run e ms = .ok x' →
    PomInv x' (answersSince e x answers ms) := by
  induction ms with
  | nil => intro x x' st answers _ hi _ h; cases h; exact hi
  | cons m ms ih =>
    intro x x' st answers ht hi ha h
    rw [Preempted.run, bind_eq_ok] at h
    obtain ⟨x1, h1, h⟩ := h
    obtain ⟨st1, h2, -⟩ := ht.step ha.1 h1
    simp only [answersSince, h1]
    exact ih h2 (hi.step ht ha.1 h1) (ha.2 x1 h1) h

/-- **C72** (partial) Unless channel 2 comes between the two statements in which
`countOwnEqualCvPackets` takes over the packet and clears the answers, what is transmitted for a CV
packet is the acknowledge, if the thread has not come to this packet yet, or an answer queued since
it did. -/
theorem C72_fresh_partial (e : Env) (ms : List Beat) (x x' : Preempted) (ha : Always e resetAlone {} ms)
    (h : ({} : Preempted).run e ms = .ok x) (h' : x.step e .biDiChannel2 = .ok x')
    (hl : x.line ≠ some 865) (hc : cutout x.s = .cv) (d : List Byte)
    (hd : d ∈ transmitted (newCalls x.s x'.s)) :
    (x.s.link.packet ≠ x.s.lastOwnCvPacket ∧ d = [0x0F#8]) ∨
      (x.s.link.packet = x.s.lastOwnCvPacket ∧ d ∈ answersSince e {} [] ms) := by
  have hi := PomInv.run (answers := []) ms (ThreadInv.start e) ⟨trivial, .inr nofun⟩ ha h
  have hf : ∀ d ∈ x.s.q.pom, d ∈ answersSince e {} [] ms := by
    rcases hi.fresh with ⟨k, hk⟩ | hf
    · exact absurd (by rw [Preempted.line, hk]) hl
    · exact hf
  have h2 : x.s.biDiChannel2 = .ok x'.s := by
    simp only [Preempted.step, Preempted.interrupt] at h'
    split at h'
    case h_2 => cases h'
    case h_1 s1 h1 => cases h'; exact h1
  have h3 := channel2_cutout x.s x'.s h2
  rw [hc] at h3
  rw [h3] at hd
  have hd : d ∈ transmitted (newCalls x.s x.s.appPom) := hd
  unfold Rx.appPom at hd
  split at hd
  · rw [newCalls_self rfl] at hd; cases hd
  split at hd
  · rename_i hne
    rw [newCalls_append (s' := x.s.emit _) rfl] at hd
    exact .inl ⟨hne, List.mem_singleton.mp hd⟩
  · rename_i hne
    have heq : x.s.link.packet = x.s.lastOwnCvPacket := Decidable.not_not.mp hne
    split at hd
    · rw [newCalls_self rfl] at hd; cases hd
    · rename_i d' rest hq
      rw [newCalls_append (evs := [.transmitBiDi d']) rfl] at hd
      have : d = d' := List.mem_singleton.mp hd
      subst this
      exact .inr ⟨heq, hf d (by rw [hq]; exact .head _)⟩

/-- Read CV1, and then CV8 twice; channel 2 after the second of these comes while the thread is in
`countOwnEqualCvPackets` for the first. -/
def staleAnswer (n : Nat) : List Beat :=
  whole .init 40 ++ whole .enable 4 ++ beats [3#8, 0xE4#8, 0#8, 0#8, 0xE7#8] ++ whole (.execute 0 0) 80 ++
    beats [3#8, 0xE4#8, 7#8, 0#8, 0xE0#8] ++ .start (.execute 0 0) :: .replicate n .access ++
    beats [3#8, 0xE4#8, 7#8, 0#8, 0xE0#8]

/-- Whether something holds in a step of channel 2 after a history. -/
def inChannel2Then (e : Env) (ms : List Beat) (P : Preempted → List (List Byte) → Bool) : Bool :=
  match ({} : Preempted).run e ms with
  | .error _ => false
  | .ok x =>
    match x.step e .biDiChannel2 with
    | .error _ => false
    | .ok x' => P x (transmitted (newCalls x.s x'.s))

theorem inChannel2Then_ok {e : Env} {ms : List Beat} {P : Preempted → List (List Byte) → Bool}
    (h : inChannel2Then e ms P = true) : ∃ x x', ({} : Preempted).run e ms = .ok x ∧
      x.step e .biDiChannel2 = .ok x' ∧ P x (transmitted (newCalls x.s x'.s)) = true := by
  unfold inChannel2Then at h
  split at h
  · cases h
  · rename_i x hx
    split at h
    · cases h
    · rename_i x' hx'
      exact ⟨x, x', hx, hx', h⟩

/-- **C72** As stated the property does not hold: in this history the value 3 of CV1 is transmitted after
a packet that reads CV8, which is 0.  The decoder has no other address, there are no faults and every
packet is received between two calls. -/
theorem C72_fresh_false : ¬ ∀ (e : Env) (ms : List Beat) (x x' : Preempted),
    Always e resetAlone {} ms → ({} : Preempted).run e ms = .ok x → x.step e .biDiChannel2 = .ok x' →
    cutout x.s = .cv → ∀ d ∈ transmitted (newCalls x.s x'.s),
      (x.s.link.packet ≠ x.s.lastOwnCvPacket ∧ d = [0x0F#8]) ∨
        (x.s.link.packet = x.s.lastOwnCvPacket ∧ d ∈ answersSince e {} [] ms) := by
  intro h
  have key : inChannel2Then exampleEnv (staleAnswer 18) (fun x sent =>
      cutout x.s == .cv && x.s.link.packet == x.s.lastOwnCvPacket && sent == [idBytes .b12 0 3]) = true := by
    decide +kernel
  obtain ⟨x, x', h1, h2, h3⟩ := inChannel2Then_ok key
  simp only [Bool.and_eq_true, beq_iff_eq] at h3
  obtain ⟨⟨hc, hp⟩, hs⟩ := h3
  have ha : Always exampleEnv resetAlone {} (staleAnswer 18) := C71_without_disable _ _ (by decide +kernel)
  rcases h _ _ x x' ha h1 h2 hc (idBytes .b12 0 3) (by rw [hs]; exact .head _) with h | h
  · exact h.1 hp
  · have : answersSince exampleEnv {} [] (staleAnswer 18) = [] := by decide +kernel
    rw [this] at h
    exact nomatch h.2

/-- If the thread gets further before channel 2 comes, the right answer is transmitted. -/
example : inChannel2Then exampleEnv (staleAnswer 30) (fun x sent =>
    cutout x.s == .cv && x.s.link.packet == x.s.lastOwnCvPacket && x.line == some 281 &&
      sent == [idBytes .b12 0 0]) = true := by
  decide +kernel

/-- If it does not get there, the acknowledge. -/
example : inChannel2Then exampleEnv (staleAnswer 17) (fun x sent =>
    cutout x.s == .cv && x.s.link.packet != x.s.lastOwnCvPacket && x.line == some 864 &&
      sent == [[0x0F#8]]) = true := by
  decide +kernel

/-! ### C73: disabling the decoder -/

/-- **C73** (partial) Unless `receive` comes between the assignments of `reset`, which `disable()`
calls, no invalid packet ever waits to be executed. -/
theorem C73_valid_partial (e : Env) (ms : List Beat) (x : Preempted) (ha : Always e resetAlone {} ms)
    (h : ({} : Preempted).run e ms = .ok x) : ∀ p ∈ x.s.deque, ValidPacket p :=
  (C71_bounds e ms x ha h).2.1

/-- A speed packet with a wrong checksum, at the end of which the thread is in `disable()`. -/
def disableRace : List Beat :=
  let w := beats [3#8, 0x3F#8, 0x80#8, 0#8]
  whole .init 40 ++ whole .enable 4 ++ w.take (w.length - 2) ++ .start .disable :: .replicate 3 .access ++
    w.drop (w.length - 2)

/-- **C73** As stated the property does not hold: `disable()` clears the checksum first, and when the end
bit arrives right then the packet passes the test. -/
theorem C73_valid_false : ¬ ∀ (e : Env) (ms : List Beat) (x : Preempted),
    ({} : Preempted).run e ms = .ok x → ∀ p ∈ x.s.deque, ValidPacket p := by
  intro h
  have key : thenHolds (({} : Preempted).run exampleEnv disableRace)
      (fun x => x.s.deque == [[3#8, 0x3F#8, 0x80#8, 0#8]]) = true := by
    decide +kernel
  cases hx : ({} : Preempted).run exampleEnv disableRace with
  | error f => rw [hx] at key; cases key
  | ok x =>
    rw [hx] at key
    have hd : x.s.deque = [[3#8, 0x3F#8, 0x80#8, 0#8]] := by simpa [thenHolds] using key
    have := h _ _ x hx [3#8, 0x3F#8, 0x80#8, 0#8] (by rw [hd]; exact .head _)
    exact absurd this.sum (by decide +kernel)

/-- The packet is then executed, although the decoder is disabled. -/
example : thenHolds (({} : Preempted).run exampleEnv
      (disableRace ++ .replicate 5 .access ++ .receive 58 0 :: .receive 58 0 :: whole (.execute 0 0) 80))
    (fun x => x.s.enabled == false && x.s.trace.contains (.speed 3#16 0)) = true := by
  decide +kernel

end Dcc
