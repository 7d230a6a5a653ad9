import Verif.Lemmas.RxOverlong
import Verif.Lemmas.RxSync
import Verif.Spec.Memory
/-! Exactly the signals with more than eighteen bytes in a row overflow the packet buffer: C30. -/
namespace Dcc
open Spec

variable {e : Env} {s s' : Rx} {ops : List RxOp} {time rand : Nat}

theorem Link.run_last {ts : List Nat} {l l' : Link} {os : List LinkOut} (t : Nat) (h : l.run ts = .ok (l', os)) :
    l.run (ts ++ [t]) = (do
      let r ← l'.step t
      return (r.1, os ++ r.2.toList)) := by
  rw [Link.run_append ts [t] h, Link.run]
  cases l'.step t with
  | error => rfl
  | ok r => simp

/-- **C30** Whatever durations were measured so far, in whatever order, from any point between two packets, and
whatever else was called meanwhile except `disable`: if there are with the next one more than eighteen bytes in a
row behind a preamble, then the call of `receive` with it writes behind the packet buffer. -/
theorem C30_overlong (hwait : s.link.state = .preamble) (ho : s.run e ops = .ok s')
    (hd : .disable ∉ ops) (hf : NeverFull e s ops) (hroom : s'.deque.length < e.rxDeque)
    (h : Overlong s.link.bitCount (halves (recvTimes ops ++ [time]))) :
    s'.receive e time rand = .error .overflow := by
  obtain ⟨os, h1, -⟩ := run_interleaved e ops s s' ho hd hf
  have h2 := (Link.feed_overlong _ s.link _ (Nat.le_refl _) hwait).1 h
  rw [Link.feed_run, Link.run_last time h1] at h2
  refine receive_overflow e s' time rand ?_ hroom
  cases h3 : s'.link.step time with
  | error f => rw [h3] at h2; cases h2; rfl
  | ok r => rw [h3] at h2; cases h2

/-- **C30** And if there are not, then it does not, and nothing else goes wrong either, as long as there are no
logon packets (for these see C54). -/
theorem C30_short (hr : Reachable e s) (hwait : s.link.state = .preamble) (ho : s.run e ops = .ok s')
    (hd : .disable ∉ ops) (hf : NeverFull e s ops) (hroom : s'.deque.length < e.rxDeque)
    (h : ¬ Overlong s.link.bitCount (halves (recvTimes ops ++ [time])))
    (hl : ∀ p ∈ deframe s.link.bitCount (halves (recvTimes ops ++ [time])), isLogon p = false) :
    ∃ s'', s'.receive e time rand = .ok s'' := by
  obtain ⟨os, h1, -⟩ := run_interleaved e ops s s' ho hd hf
  obtain ⟨ps, h2⟩ := (Link.feed_overlong _ s.link _ (Nat.le_refl _) hwait).2 h
  have hs := hr.recvInv.link.synced hwait
  have h4 := Link.feed_deframe _ s.link _ _ (Nat.le_refl _) hwait hs.byte hs.checksum h2
  rw [← h4] at hl
  rw [Link.feed_run, Link.run_last time h1] at h2
  cases h3 : s'.link.step time with
  | error f => rw [h3] at h2; cases h2
  | ok r =>
    rw [h3] at h2
    cases h2
    obtain ⟨l3, o⟩ := r
    refine receive_total e s' time rand l3 o h3 ?_ hroom
    rintro p rfl
    exact hl p (by simp [packetsOf])

/-- **C30** So as long as there are no logon packets, a call of `receive` goes wrong exactly if there are more than
eighteen bytes in a row. -/
theorem C30_exact (hr : Reachable e s) (hwait : s.link.state = .preamble) (ho : s.run e ops = .ok s')
    (hd : .disable ∉ ops) (hf : NeverFull e s ops) (hroom : s'.deque.length < e.rxDeque)
    (hl : ∀ p ∈ deframe s.link.bitCount (halves (recvTimes ops ++ [time])), isLogon p = false) :
    (∃ s'', s'.receive e time rand = .ok s'') ↔ ¬ Overlong s.link.bitCount (halves (recvTimes ops ++ [time])) := by
  refine ⟨fun ⟨s'', h⟩ ho' => ?_, fun h => C30_short hr hwait ho hd hf hroom h hl⟩
  rw [C30_overlong hwait ho hd hf hroom ho'] at h
  cases h

theorem overlong_length (k : Nat) : ∀ (n : Nat) (h : List Bool), h.length ≤ k → Overlong n h →
    362 ≤ n + h.length := by
  induction k with
  | zero =>
    intro n h hk ho
    have : h = [] := List.eq_nil_of_length_eq_zero (by omega)
    subst this
    rw [Overlong] at ho
    exact ho.elim
  | succ k ih =>
    intro n h hk ho
    obtain _ | ⟨b, t⟩ := h
    · rw [Overlong] at ho
      exact ho.elim
    simp only [List.length_cons] at hk ⊢
    cases b
    · rw [Overlong] at ho
      split at ho
      · have := ih 0 t (by omega) ho
        omega
      next hn =>
        rcases ho with ho | ho
        · have := ho.1
          rw [List.length_tail] at this
          omega
        · split at ho
          · exact ho.elim
          next p t' hfr =>
            have hl := frame_length hfr
            simp only [List.length_tail] at hl
            have := ih 0 t' (by omega) ho
            omega
    · rw [Overlong] at ho
      have := ih (n + 1) t (by omega) ho
      omega

/-- **C30** At least 362 durations are measured before this happens, apart from the preamble counted before. -/
theorem C30_early (hr : Reachable e s) (hwait : s.link.state = .preamble) (ho : s.run e ops = .ok s')
    (hd : .disable ∉ ops) (hf : NeverFull e s ops) (hroom : s'.deque.length < e.rxDeque)
    (h : s'.receive e time rand = .error .overflow)
    (hl : ∀ p ∈ deframe s.link.bitCount (halves (recvTimes ops ++ [time])), isLogon p = false) :
    362 ≤ s.link.bitCount + (recvTimes ops).length + 1 := by
  by_cases hov : Overlong s.link.bitCount (halves (recvTimes ops ++ [time]))
  · have h1 := overlong_length _ _ _ (Nat.le_refl _) hov
    have h2 : (halves (recvTimes ops ++ [time])).length ≤ (recvTimes ops ++ [time]).length :=
      List.length_filterMap_le _ _
    rw [List.length_append, List.length_singleton] at h2
    omega
  · obtain ⟨s'', h1⟩ := C30_short (rand := rand) hr hwait ho hd hf hroom hov hl
    rw [h] at h1
    cases h1

/-! ### Examples -/

theorem overlong_ones (k : Nat) : ∀ (n : Nat) (h : List Bool), Overlong n (List.replicate k true ++ h) ↔ Overlong (n + k) h := by
  induction k with
  | zero => intro n h; rfl
  | succ k ih =>
    intro n h
    rw [List.replicate_succ, List.cons_append, Overlong, ih, Nat.add_assoc, Nat.add_comm 1]

/-- A preamble, a start bit and `n` further half bits, all zeros. -/
def zeros (n : Nat) : List Nat := List.replicate 24 58 ++ List.replicate (2 + n) 100

theorem halves_zeros (n : Nat) : halves (zeros n) = List.replicate 24 true ++ List.replicate (2 + n) false := by
  simp [halves, zeros]

/-- Eighteen bytes and the bits of another one are too much. -/
example : Overlong 0 (halves (zeros 340)) := by
  rw [halves_zeros, overlong_ones, show 2 + 340 = 341 + 1 from rfl, List.replicate_succ, Overlong, if_neg (by omega)]
  refine .inl ⟨by rw [List.length_tail, List.length_replicate]; omega, fun i hi => ?_⟩
  rw [List.tail_replicate, List.getElem?_replicate, if_pos (by omega)]

/-- One half bit less is not. -/
example : ¬ Overlong 0 (halves (zeros 339)) := by
  rw [halves_zeros, overlong_ones, show 2 + 339 = 340 + 1 from rfl, List.replicate_succ, Overlong, if_neg (by omega)]
  rintro (h | h)
  · have := h.1
    rw [List.length_tail, List.length_replicate] at this
    omega
  · have hn : frame (List.replicate 340 false).tail = none := by decide +kernel
    split at h
    · exact h
    next hs => rw [hn] at hs; cases hs

example : holdsAfter (({} : Rx).run exampleEnv [.init]) (fun s =>
    holdsAfter (s.run exampleEnv (recvOps ((zeros 339).map (·, 0)))) (fun s' =>
      decide (s.link.state = .preamble ∧ s.link.bitCount = 0 ∧ s'.deque.length < exampleEnv.rxDeque ∧
        deframe 0 (halves (zeros 340)) = []) &&
      (match s'.receive exampleEnv 100 0 with | .error .overflow => true | _ => false))) = true := by
  decide +kernel

end Dcc
