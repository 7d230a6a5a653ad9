import Verif.Props.RxExec
import Verif.Props.RxLogon
/-! What becomes of an assigned address when automatic logon is switched off: C122. -/
namespace Dcc
open Spec

/-- Automatic logon is switched off. -/
def LogonOff (s : Rx) : Prop := s.cfg.logonEnabled = false

instance : DecidablePred LogonOff := fun s => inferInstanceAs (Decidable (s.cfg.logonEnabled = false))

theorem kept_step {e : Env} {s s1 : Rx} (hr : Reachable e s) (ho : LogonOff s) {op : RxOp} (h : s.step e op = .ok s1) :
    s1.addrs.logon = s.addrs.logon ∧ s1.logon.assigned = s.logon.assigned ∧ s1.logon.selected = s.logon.selected := by
  have ho : s.cfg.logonEnabled = false := ho
  by_cases hop : op.isReceive = true
  · cases op with
    | receive t r =>
      rcases receive_logon e s s1 t r hr h with h2 | ⟨c, -, -, h2⟩
      · exact ⟨congrArg LogonView.logon h2, congrArg LogonView.assigned h2, congrArg LogonView.selected h2⟩
      · cases h2 with
        | fast g cid session hen => rw [ho] at hen; cases hen
        | enable g cid session hen => rw [ho] at hen; cases hen
        | select hen => rw [ho] at hen; cases hen
        | assign bs hen => rw [ho] at hen; cases hen
    | _ => cases hop
  · obtain ⟨h1, h2, h3, -⟩ := other_logon e s s1 op h (by simpa using hop)
    exact ⟨h3, h2, h1⟩

/-- **C122** While automatic logon is switched off the assigned address stays as it is, whatever arrives and whatever
the program calls, `init` and `disable` included. -/
theorem C122_kept (e : Env) (ops : List RxOp) : ∀ (s s' : Rx), Reachable e s → Along LogonOff e s ops →
    s.run e ops = .ok s' →
    s'.addrs.logon = s.addrs.logon ∧ s'.logon.assigned = s.logon.assigned ∧ s'.logon.selected = s.logon.selected := by
  induction ops with
  | nil => intro s s' _ _ h; cases h; exact ⟨rfl, rfl, rfl⟩
  | cons op ops ih =>
    intro s s' hr ho h
    rw [Rx.run, bind_eq_ok] at h
    obtain ⟨s1, h1, h⟩ := h
    obtain ⟨ho1, ho2⟩ := ho
    rw [h1] at ho2
    obtain ⟨a1, a2, a3⟩ := kept_step hr ho1 h1
    obtain ⟨b1, b2, b3⟩ := ih s1 s' (hr.step op h1) ho2 h
    exact ⟨b1.trans a1, b2.trans a2, b3.trans a3⟩

/-- **C122** A decoder that has an assigned address when automatic logon is switched off ignores every packet for
another number from then on, its own included. -/
theorem C122_ignored (e : Env) (ops : List RxOp) (s s' : Rx) (hr : Reachable e s) (ho : Along LogonOff e s ops)
    (h : s.run e ops = .ok s') (hl : s.addrs.logon.value ≠ 0#16) (p : Packet) (n : Nat) (hf : front s' = some p)
    (hm : s'.serviceMode = false) (hn : locoNumber p = some n) (h0 : n ≠ 0) (hne : n ≠ s.addrs.logon.value.toNat)
    (now : Int) (rand : Nat) :
    ∃ s2 evs, s'.execute e now rand = .ok (s2, false) ∧ s2.trace = s'.trace ++ evs ∧ LogonStores s' evs ∧
      s2.addrs = s'.addrs ∧ s2.cfg = s'.cfg := by
  have hk := (C122_kept e ops s s' hr ho h).1
  obtain ⟨s2, evs, h1, h2, h3, h4, h5, -⟩ := C34_logon_replaces e s' (hr.run ops h) now rand p n
    (by rw [hk]; exact hl) hf hm hn h0 (by rw [hk]; exact hne)
  exact ⟨s2, evs, h1, h2, h3, h4, h5⟩

/-- **C122** (partial) A decoder that has no assigned address when automatic logon is switched off listens to its own
address and to that of its consist from then on, and to no other. -/
theorem C122_own_partial (e : Env) (ops : List RxOp) (s s' : Rx) (hr : Reachable e s) (ho : Along LogonOff e s ops)
    (h : s.run e ops = .ok s') (hl : s.addrs.logon.value = 0#16) (n : Nat) :
    Active s' n ↔ (s'.addrs.primary.type.isLoco = true ∧ n = s'.addrs.primary.value.toNat) ∨
      (s'.addrs.consist.type.isLoco = true ∧ n = s'.addrs.consist.value.toNat) := by
  unfold Active
  rw [(C122_kept e ops s s' hr ho h).1, if_pos hl]

/-- **C122** Once a decoder has been selected, only LOGON_ASSIGN changes the address assigned to it, whether automatic
logon is switched off or on. -/
theorem C122_only_assign (e : Env) (s s' : Rx) (hr : Reachable e s) (hs : s.logon.selected = true) (op : RxOp)
    (h : s.step e op = .ok s') : (s'.addrs.logon = s.addrs.logon ∧ s'.logon.assigned = s.logon.assigned) ∨
      ∃ bs, s.cfg.logonEnabled = true ∧ logonCommand s.link.packet = some (.assign s.cfg.did bs) ∧
        AssignedAddress bs s'.addrs.logon ∧ s'.logon.assigned = true := by
  by_cases hop : op.isReceive = true
  · cases op with
    | receive t r =>
      rcases receive_logon e s s' t r hr h with h2 | ⟨c, -, hc, h2⟩
      · exact .inl ⟨congrArg LogonView.logon h2, congrArg LogonView.assigned h2⟩
      · cases h2 with
        | fast g cid session hen hsel => rw [hs] at hsel; cases hsel
        | enable g cid session hen hsel => rw [hs] at hsel; cases hsel
        | select hen has he m hm hv => exact .inl ⟨congrArg LogonView.logon hv, congrArg LogonView.assigned hv⟩
        | assign bs hen he a ha m hm hv =>
          have e1 : s'.addrs.logon = a := congrArg LogonView.logon hv
          exact .inr ⟨bs, hen, hc, e1 ▸ ha, congrArg LogonView.assigned hv⟩
    | _ => cases hop
  · obtain ⟨-, h2, h3, -⟩ := other_logon e s s' op h (by simpa using hop)
    exact .inl ⟨h3, h2⟩

/-- Locomotive 1000 is told twice to write 3 into CV28, which switches automatic logon off. -/
def switchOff : List RxOp :=
  let p : Packet := [0xC3#8, 0xE8#8, 0xEC#8, 27#8, 3#8, 0xDF#8]
  hears p ++ [.execute 0 0] ++ hears p ++ [.execute 0 0]

/-- The speeds a decoder was given. -/
def speedsGiven (e : Env) (ops : List RxOp) : Option (List Int) :=
  match ({} : Rx).run e ops with
  | .ok s => some (s.trace.filterMap fun | .speed _ v => some v | _ => none)
  | .error _ => none

/-- **C122** fails: a decoder with the address 3 was assigned the address 1000, then automatic logon was switched off in
its CVs.  It still runs when locomotive 1000 is told to, and does not when locomotive 3 is. -/
theorem C122_own_false :
    holdsAfter (({} : Rx).run logonEnv (logonExample ++ switchOff)) (fun s =>
      decide (s.cfg.logonEnabled = false ∧ s.addrs.primary.value = 3#16 ∧ logonEnv.readCv s.trace 27#32 = 3#8)) = true ∧
    speedsGiven logonEnv (logonExample ++ switchOff ++ hears [3#8, 0x3F#8, 0x85#8, 0xB9#8] ++ [.execute 0 0]) = some [] ∧
    speedsGiven logonEnv (logonExample ++ switchOff ++ hears [0xC3#8, 0xE8#8, 0x3F#8, 0x85#8, 0x91#8] ++ [.execute 0 0]) =
      some [8] := by
  refine ⟨by decide +kernel, by decide +kernel, by decide +kernel⟩

/-- The hypotheses of `C122_ignored`: the decoder of `C122_own_false` hears a packet for locomotive 3. -/
example : holdsAfter (({} : Rx).run logonEnv (logonExample ++ switchOff)) (fun s =>
    decide (Along LogonOff logonEnv s (hears [3#8, 0x3F#8, 0x85#8, 0xB9#8])) &&
    decide (s.addrs.logon.value = 1000#16 ∧ s.logon.selected = true) &&
    holdsAfter (s.run logonEnv (hears [3#8, 0x3F#8, 0x85#8, 0xB9#8])) (fun s' =>
      decide (front s' = some [3#8, 0x3F#8, 0x85#8, 0xB9#8] ∧ s'.serviceMode = false ∧
        locoNumber [3#8, 0x3F#8, 0x85#8, 0xB9#8] = some 3))) = true := by decide +kernel

/-- Those of `C122_own_partial`: a decoder without automatic logon hears a LOGON_ASSIGN. -/
example : holdsAfter (({} : Rx).run exampleEnv [.init]) (fun s =>
    decide (Along LogonOff exampleEnv s (hears (checked [254#8, 0xE0#8, 145#8, 1#8, 2#8, 3#8, 4#8, 0xC3#8, 0xE8#8, 0#8])) ∧
      s.addrs.logon.value = 0#16) &&
    holdsAfter (s.run exampleEnv (hears (checked [254#8, 0xE0#8, 145#8, 1#8, 2#8, 3#8, 4#8, 0xC3#8, 0xE8#8, 0#8])))
      (fun s' => decide (Active s' 3 ∧ ¬ Active s' 1000))) = true := by decide +kernel

end Dcc
