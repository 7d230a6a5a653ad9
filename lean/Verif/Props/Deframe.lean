import Verif.Lemmas.RxDeframe
import Verif.Spec.Disturb
import Verif.Spec.Memory
/-! Exactly the packets in the signal arrive: C92. -/
namespace Dcc
open Spec

variable {e : Env} {s s' : Rx} {ops : List RxOp}

/-- **C92** Whatever durations are measured, in whatever order, from any point between two packets, and
whatever else is called meanwhile except `disable`: exactly the packets found in them by `deframe` arrive,
in this order. -/
theorem C92_exact (hr : Reachable e s) (hwait : s.link.state = .preamble) (ho : s.run e ops = .ok s')
    (hd : .disable ∉ ops) (hf : NeverFull e s ops) :
    arrivals e s ops = (deframe s.link.bitCount (halves (recvTimes ops))).filter fun p => !isLogon p := by
  obtain ⟨os, h1, h2⟩ := run_interleaved e ops s s' ho hd hf
  have hs := hr.recvInv.link.synced hwait
  rw [h2, Link.feed_deframe _ s.link _ _ (Nat.le_refl _) hwait hs.byte hs.checksum (Link.run_feed _ _ _ _ h1)]

/-- **C92** So durations that are no half bits may come anywhere, and the others may vary within their
range: as long as the half bits are the same, the same packets arrive. -/
theorem C92_noise {ops2 : List RxOp} {s2 : Rx} (hr : Reachable e s) (hwait : s.link.state = .preamble)
    (ho : s.run e ops = .ok s') (hd : .disable ∉ ops) (hf : NeverFull e s ops) (ho2 : s.run e ops2 = .ok s2)
    (hd2 : .disable ∉ ops2) (hf2 : NeverFull e s ops2)
    (h : halves (recvTimes ops) = halves (recvTimes ops2)) : arrivals e s ops = arrivals e s ops2 := by
  rw [C92_exact hr hwait ho hd hf, C92_exact hr hwait ho2 hd2 hf2, h]

theorem deframe_rate (k : Nat) : ∀ (n : Nat) (h : List Bool), h.length ≤ k →
    76 * (deframe n h).length ≤ n + h.length := by
  induction k with
  | zero =>
    intro n h hk
    have : h = [] := List.eq_nil_of_length_eq_zero (by omega)
    subst this
    rw [deframe]
    simp
  | succ k ih =>
    intro n h hk
    obtain _ | ⟨b, t⟩ := h
    · rw [deframe]; simp
    simp only [List.length_cons] at hk ⊢
    cases b
    · rw [deframe]
      split
      · have := ih 0 t (by omega)
        omega
      next hn =>
        split
        · simp
        next p t' hfr =>
          have hl := frame_length hfr
          simp only [List.length_tail] at hl
          have := ih 0 t' (by omega)
          rw [List.length_append]
          split
          next hv => simp only [List.length_cons, List.length_nil]; omega
          · simp only [List.length_nil]; omega
    · rw [deframe]
      have := ih (n + 1) t (by omega)
      omega

/-- **C92** For every packet at least 76 durations are measured, apart from the preamble counted before. -/
theorem C92_rate (hr : Reachable e s) (hwait : s.link.state = .preamble) (ho : s.run e ops = .ok s')
    (hd : .disable ∉ ops) (hf : NeverFull e s ops) :
    76 * (arrivals e s ops).length ≤ s.link.bitCount + (recvTimes ops).length := by
  rw [C92_exact hr hwait ho hd hf]
  have h1 := deframe_rate _ s.link.bitCount (halves (recvTimes ops)) (Nat.le_refl _)
  have h2 := List.length_filter_le (fun p => !isLogon p) (deframe s.link.bitCount (halves (recvTimes ops)))
  have h3 : (halves (recvTimes ops)).length ≤ (recvTimes ops).length := List.length_filterMap_le _ _
  omega

/-- **C92** Any one bit of a packet is disturbed, also a late one of the preamble or the start bit: what
arrives is what is found in the disturbed bits and the packets behind. -/
theorem C92_disturbed {cfg : TxConfig} {p : Packet} {k : Nat} {rest : List (TxConfig × Packet)}
    (h : Disturbance e s s' ops cfg p k rest) :
    arrivals e s ops = (deframe s.link.bitCount (halves
      (wave cfg (disturbed cfg.numPreamble.toNat p k) ++ followed rest))).filter fun p => !isLogon p := by
  rw [C92_exact h.reachable h.waiting h.run h.enabled h.room, h.times]

/-! ### Examples -/

/-- A packet whose half bits vary, with durations in between that are no half bits. -/
def looseTimes : List Nat :=
  (List.range 12).flatMap (fun i => [53 + i, 20000, 64 - i]) ++
    ([3#8, 0x91#8, 0x92#8].flatMap fun b => [90, 10000] ++ [7, 70] ++ (byteBits b).flatMap fun x =>
      if x then [52, 64] else [90, 9999]) ++ [58, 58]

example : deframe 0 (halves looseTimes) = [[3#8, 0x91#8, 0x92#8]] := by decide +kernel

example : holdsAfter (({} : Rx).run exampleEnv [.init]) (fun s =>
    holdsAfter (s.run exampleEnv (recvOps (looseTimes.map (·, 0)))) (fun _ =>
      decide (s.link.state = .preamble ∧ arrivals exampleEnv s (recvOps (looseTimes.map (·, 0))) =
        [[3#8, 0x91#8, 0x92#8]]))) = true := by decide +kernel

/-- The last bit of the preamble is disturbed: the packet that C91 has. -/
example : deframe 0 (halves (wave {} (disturbed 17 [6#8, 0xDE#8, 0xD9#8, 0x01#8] 16) ++ [58, 58])) =
    [[3#8, 0x6F#8, 0x6C#8]] := by decide +kernel

end Dcc
