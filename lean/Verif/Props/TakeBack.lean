import Verif.Props.LogonAgain
/-! Taking an assigned address back: C128. -/
namespace Dcc
open Spec

/-- **C128** A LOGON_ASSIGN with the address 0 takes an assigned address back: it is executed without a fault and
acknowledged, the decoder keeps its own address, is in no consist, and listens to its own number, to 0 and to no other. -/
theorem C128_back (e : Env) (s : Rx) (t rand : Nat) (hr : Reachable e s) (hc : Completes e s t)
    (ha : logonAccepted s.link.packet) (hlen : 10 ≤ s.link.packet.length) (hen : s.cfg.logonEnabled = true)
    (hq : s.q.logon = []) (bs : List Byte) (hcmd : logonCommand s.link.packet = some (.assign s.cfg.did bs))
    (a : Address) (hA : AssignedAddress bs a) (h0 : a.value = 0#16) :
    ∃ s' m, s.receive e t rand = .ok s' ∧ s'.q.logon = [m] ∧ Spec.Carries m ackWord ∧
      s'.addrs.primary = s.addrs.primary ∧ s'.addrs.logon.value = 0#16 ∧ s'.addrs.consist.value = 0#16 ∧
      ∀ n, n ≠ 0 → (Active s' n ↔ s.addrs.primary.type.isLoco = true ∧ n = s.addrs.primary.value.toNat) := by
  obtain ⟨s', m, h1, h2, h3, h4, h5⟩ := C127_assign_answered e s t rand hr hc ha hlen hen hq bs hcmd a hA
  have hl : s'.addrs.logon.value = 0#16 := by rw [h4]; exact h0
  have hx : logonView s' ≠ logonView s := by
    intro h
    have : s'.q.logon = s.q.logon := congrArg LogonView.answer h
    rw [h2, hq] at this
    cases this
  have hg := (C127_first e s s' t rand hr h1 bs hcmd hx).1
  have hp : s'.addrs.primary = s.addrs.primary := by
    rcases receive_logon e s s' t rand hr h1 with h | ⟨c, -, hc2, h⟩
    · exact absurd h hx
    · rw [hcmd] at hc2
      cases hc2
      cases h with
      | assign bs hen he a' ha' m hm hv =>
        have hp := congrArg LogonView.primary hv
        dsimp only at hp
        rw [assigned_unique ha' hA, h0, if_neg (by simp)] at hp
        exact hp
  refine ⟨s', m, h1, h2, h3, hp, hl, hg.consist, fun n hn => ?_⟩
  unfold Active
  rw [if_pos hl, hp, hg.consist]
  constructor
  · rintro (h | ⟨-, h⟩)
    · exact h
    · exact absurd h hn
  · exact .inl

/-- **C128** A decoder that was selected and whose address was taken back answers neither SELECT nor LOGON_ENABLE from then
on: nothing changes but by LOGON_ASSIGN. -/
theorem C128_silent (e : Env) (s s' : Rx) (t rand : Nat) (hr : Reachable e s) (h : s.receive e t rand = .ok s')
    (ha : s.logon.assigned = true) (hs : s.logon.selected = true)
    (hc : ∀ bs, logonCommand s.link.packet ≠ some (.assign s.cfg.did bs)) : logonView s' = logonView s := by
  rcases receive_logon e s s' t rand hr h with h2 | ⟨c, -, hc2, h2⟩
  · exact h2
  · cases h2 with
    | fast g cid session hen hsel => rw [hs] at hsel; cases hsel
    | enable g cid session hen hsel => rw [hs] at hsel; cases hsel
    | select hen has => rw [ha] at has; cases has
    | assign bs => exact absurd hc2 (hc bs)

/-- LOGON_ASSIGN of the address 0 for the decoder of the examples of C52, and LOGON_ENABLE by another command station. -/
def takeBack : List RxOp := hears (checked [254#8, 0xE0#8, 145#8, 1#8, 2#8, 3#8, 4#8, 0xC0#8, 0#8, 0#8])
def enableAll : List RxOp := hears (checked [254#8, 0xFC#8, 0x77#8, 0x77#8, 7#8])

/-- **C128** fails: before it is selected the decoder answers LOGON_ENABLE and SELECT.  It is assigned the address 1000 and
the address is taken back.  Then it answers neither of them, only another LOGON_ASSIGN. -/
theorem C128_anew_false :
    answersTo logonEnv [.init :: enableAll, selectIt, assignIt, takeBack, enableAll, selectIt, assignIt] =
      some [1, 1, 1, 1, 0, 0, 1] := by
  decide +kernel

/-- The hypotheses of `C128_back`, before the duration that completes the packet, and of `C128_silent`. -/
example : holdsAfter (({} : Rx).run logonEnv (.init :: selectIt ++ [.biDiChannel1, .biDiChannel2] ++ assignIt ++
      [.biDiChannel1, .biDiChannel2] ++ takeBack.dropLast.dropLast))
      (fun s => decide (Completes logonEnv s 58 ∧ logonAccepted s.link.packet ∧ 10 ≤ s.link.packet.length ∧
        s.cfg.logonEnabled = true ∧ s.q.logon = [] ∧ s.logon.assigned = true ∧ s.logon.selected = true)) = true ∧
    AssignedAddress [0xC0#8, 0#8, 0#8] { value := 0#16, type := .long } :=
  ⟨by decide +kernel, ⟨0xC0#8, [0#8, 0#8], rfl, .inl ⟨by decide, by decide +kernel⟩⟩⟩

end Dcc
