import Verif.Lemmas.RxGuest
import Verif.Props.RxLogonExact
import Verif.Props.WrongWay
/-! Commands of automatic logon that are sent again because the answer was lost: C127. -/
namespace Dcc
open Spec

theorem assigned_unique {bs : List Byte} {a a' : Address} (h : AssignedAddress bs a) (h' : AssignedAddress bs a') :
    a = a' := by
  obtain ⟨b, r, rfl, h⟩ := h
  obtain ⟨b', r', he, h'⟩ := h'
  cases he
  rcases h with ⟨h1, h⟩ | ⟨h1, h⟩ <;> rcases h' with ⟨h2, h'⟩ | ⟨h2, h'⟩
  · rw [h] at h'; cases h'; rfl
  · omega
  · omega
  · rw [h] at h'; cases h'; rfl

/-- The decoder has the addresses a LOGON_ASSIGN with these bytes gave it. -/
structure GivenBy (bs : List Byte) (s : Rx) : Prop where
  assigned : s.logon.assigned = true
  logon : AssignedAddress bs s.addrs.logon
  consist : s.addrs.consist.value = 0#16
  own : ForItsOwn bs → s.addrs.primary = s.addrs.logon

/-- **C127** When a decoder has executed a LOGON_ASSIGN, it has the addresses of the packet. -/
theorem C127_first (e : Env) (s s' : Rx) (t rand : Nat) (hr : Reachable e s) (h : s.receive e t rand = .ok s')
    (bs : List Byte) (hc : logonCommand s.link.packet = some (.assign s.cfg.did bs))
    (hx : logonView s' ≠ logonView s) : GivenBy bs s' ∧ ∃ m, s'.q.logon = [m] ∧ Spec.Carries m ackWord := by
  rcases receive_logon e s s' t rand hr h with h2 | ⟨c, -, hc2, h2⟩
  · exact absurd h2 hx
  · rw [hc] at hc2
    cases hc2
    cases h2 with
    | assign bs hen he a ha m hm hv =>
      have e1 : s'.addrs.logon = a := congrArg LogonView.logon hv
      refine ⟨⟨congrArg LogonView.assigned hv, e1 ▸ ha, ?_, fun ho => ?_⟩, m, congrArg LogonView.answer hv, hm⟩
      · exact congrArg (fun v : LogonView => v.consist.value) hv
      · obtain ⟨h1, a', ha', hz⟩ := ho
        rw [e1]
        have hp := congrArg LogonView.primary hv
        dsimp only at hp
        rw [if_pos ⟨assigned_unique ha' ha ▸ hz, h1⟩] at hp
        exact hp

/-- **C127** If the same LOGON_ASSIGN is received again, the decoder keeps all its addresses. -/
theorem C127_again (e : Env) (s s' : Rx) (t rand : Nat) (hr : Reachable e s) (h : s.receive e t rand = .ok s')
    (bs : List Byte) (hg : GivenBy bs s) (hc : logonCommand s.link.packet = some (.assign s.cfg.did bs)) :
    s'.addrs.primary = s.addrs.primary ∧ s'.addrs.consist = s.addrs.consist ∧ s'.addrs.logon = s.addrs.logon ∧
      s'.logon.assigned = true ∧ s'.logon.selected = s.logon.selected ∧ GivenBy bs s' := by
  have key : s'.addrs.primary = s.addrs.primary ∧ s'.addrs.consist = s.addrs.consist ∧
      s'.addrs.logon = s.addrs.logon ∧ s'.logon.assigned = true ∧ s'.logon.selected = s.logon.selected := by
    rcases receive_logon e s s' t rand hr h with h2 | ⟨c, -, hc2, h2⟩
    · exact ⟨congrArg LogonView.primary h2, congrArg LogonView.consist h2, congrArg LogonView.logon h2,
        (congrArg LogonView.assigned h2).trans hg.assigned, congrArg LogonView.selected h2⟩
    · rw [hc] at hc2
      cases hc2
      cases h2 with
      | assign bs hen he a ha m hm hv =>
        have hq := assigned_unique ha hg.logon
        refine ⟨?_, ?_, ?_, congrArg LogonView.assigned hv, congrArg LogonView.selected hv⟩
        · have hp := congrArg LogonView.primary hv
          dsimp only at hp
          split at hp
          · rename_i hx
            rw [hg.own ⟨hx.2, a, ha, hx.1⟩, ← hq]
            exact hp
          · exact hp
        · have hp : s'.addrs.consist = { s.addrs.consist with value := 0#16 } := congrArg LogonView.consist hv
          rw [hp, ← hg.consist]
        · exact (congrArg LogonView.logon hv).trans hq
  obtain ⟨h1, h2, h3, h4, h5⟩ := key
  exact ⟨h1, h2, h3, h4, h5, h4, h3 ▸ hg.logon, h2 ▸ hg.consist, fun ho => by rw [h1, h3]; exact hg.own ho⟩

/-- **C127** A SELECT received again before an address is assigned changes nothing: the decoder is selected, as before,
and the answer is the same one. -/
theorem C127_select (e : Env) (s s' : Rx) (t rand : Nat) (hr : Reachable e s) (h : s.receive e t rand = .ok s')
    (uid : List Byte) (hc : logonCommand s.link.packet = some (.select uid)) :
    logonView s' = logonView s ∨ ∃ m, Spec.Carries m (infoWord s) ∧
      logonView s' = { logonView s with selected := true, answer := [m] } := by
  rcases receive_logon e s s' t rand hr h with h2 | ⟨c, -, hc2, h2⟩
  · exact .inl h2
  · rw [hc] at hc2
    cases hc2
    cases h2 with
    | select hen has he m hm hv => exact .inr ⟨m, hm, hv⟩

/-- **C127** Once an address is assigned, SELECT is not answered any more. -/
theorem C127_silent (e : Env) (s s' : Rx) (t rand : Nat) (hr : Reachable e s) (h : s.receive e t rand = .ok s')
    (ha : s.logon.assigned = true) (uid : List Byte) (hc : logonCommand s.link.packet = some (.select uid)) :
    logonView s' = logonView s := by
  rcases receive_logon e s s' t rand hr h with h2 | ⟨c, -, hc2, h2⟩
  · exact h2
  · rw [hc] at hc2
    cases hc2
    cases h2 with
    | select hen has => rw [ha] at has; cases has

theorem logonAssign_answers (x : Rx) (a : Address) (o : Bool) (hen : x.cfg.logonEnabled = true) (hq : x.q.logon = []) :
    ∃ y, x.logonAssign x.cfg.did a o = .ok y ∧ ∃ m, y.q.logon = [m] ∧ Spec.Carries m ackWord ∧ y.addrs.logon = a ∧
      y.logon.assigned = true := by
  obtain ⟨m, hm, hme⟩ := six_fits (assignInfo ++ [crc8 assignInfo]) rfl
  rw [← bytesToNat_number] at hm hme
  rw [assignInfo_eq] at hm
  rw [Rx.logonAssign, if_neg (by simp [hen])]
  dsimp only
  rw [hme, ok_bind, pushLogon_ok _ _ (by exact hq)]
  exact ⟨_, rfl, m, rfl, hm, rfl, rfl⟩

theorem logonSelect_answers (x : Rx) (hen : x.cfg.logonEnabled = true) (hq : x.q.logon = [])
    (ha : x.logon.assigned = false) :
    ∃ y, x.logonSelect x.cfg.did = .ok y ∧ ∃ m, y.q.logon = [m] ∧ Spec.Carries m (infoWord x) ∧ y.logon.selected = true := by
  obtain ⟨m, hm, hme⟩ := six_fits (shortInfo x.addrs.primary ++ [crc8 (shortInfo x.addrs.primary)]) rfl
  rw [← bytesToNat_number] at hm hme
  rw [shortInfo_eq] at hm
  rw [Rx.logonSelect, if_neg (by simp [hen, ha])]
  dsimp only
  rw [hme, ok_bind, pushLogon_ok _ _ (by exact hq)]
  exact ⟨_, rfl, m, rfl, hm, rfl⟩

theorem low56 : ∀ b : Byte, b.toNat % 64 = 56 → ¬ b &&& 0x3F#8 < 0x38#8 := by decide +kernel

/-- **C127** Every LOGON_ASSIGN with an address, the first and those repeated, is executed without a fault and
acknowledged, if the answer before has been transmitted. -/
theorem C127_assign_answered (e : Env) (s : Rx) (t rand : Nat) (hr : Reachable e s) (hc : Completes e s t)
    (ha : logonAccepted s.link.packet) (hlen : 10 ≤ s.link.packet.length) (hen : s.cfg.logonEnabled = true)
    (hq : s.q.logon = []) (bs : List Byte) (hcmd : logonCommand s.link.packet = some (.assign s.cfg.did bs))
    (a : Address) (hA : AssignedAddress bs a) :
    ∃ s' m, s.receive e t rand = .ok s' ∧ s'.q.logon = [m] ∧ Spec.Carries m ackWord ∧ s'.addrs.logon = a ∧
      s'.logon.assigned = true := by
  obtain ⟨b, r, hp⟩ := packet_cons hcmd
  obtain ⟨l, -, hrec⟩ := receive_completes e s t rand hc hr b r hp ha
  rw [hp] at hlen hcmd
  obtain _ | ⟨c0, r⟩ := r
  · simp only [List.length_cons, List.length_nil] at hlen; omega
  obtain _ | ⟨c1, r⟩ := r
  · simp only [List.length_cons, List.length_nil] at hlen; omega
  obtain _ | ⟨c2, r⟩ := r
  · simp only [List.length_cons, List.length_nil] at hlen; omega
  obtain _ | ⟨c3, r⟩ := r
  · simp only [List.length_cons, List.length_nil] at hlen; omega
  obtain _ | ⟨c4, r⟩ := r
  · simp only [List.length_cons, List.length_nil] at hlen; omega
  obtain _ | ⟨c5, r⟩ := r
  · simp only [List.length_cons, List.length_nil] at hlen; omega
  obtain _ | ⟨c6, r⟩ := r
  · simp only [List.length_cons, List.length_nil] at hlen; omega
  have hs : b.toNat / 16 = 14 ∧ [c1, c2, c3, c4] = s.cfg.did ∧ c5 :: c6 :: r = bs := by
    rw [logonCommand, if_neg (by decide)] at hcmd
    split at hcmd
    · cases hcmd
    · split at hcmd
      · rename_i h
        simp only [Option.some.injEq, LogonCommand.assign.injEq] at hcmd
        exact ⟨h, hcmd⟩
      · split at hcmd
        · cases hcmd
        · cases hcmd
  obtain ⟨hs1, hs2, rfl⟩ := hs
  have d0 : didOf (b :: c0 :: c1 :: c2 :: c3 :: c4 :: c5 :: c6 :: r) = .ok s.cfg.did := by
    rw [← hs2]; unfold didOf; rw [if_pos (by simp)]; rfl
  have d1 : byteAt (b :: c0 :: c1 :: c2 :: c3 :: c4 :: c5 :: c6 :: r) 6 = .ok c5 := rfl
  obtain ⟨y, h1, m, h2, h3, h4, h5⟩ := logonAssign_answers (s.atLogon l { value := 254#16, type := .automaticLogon }) a
    (c5 &&& 0xC0#8 != 0xC0#8) hen hq
  have h1 : (s.atLogon l { value := 254#16, type := .automaticLogon }).logonAssign s.cfg.did a
    (c5 &&& 0xC0#8 != 0xC0#8) = .ok y := h1
  rw [Rx.executeAutomaticLogon, if_neg (by decide), byteAt_zero, ok_bind] at hrec
  dsimp only at hrec
  rw [if_neg (fun h => by have := (nib_d b).1.mp h; omega), if_pos ((nib_d b).2.1.mpr hs1), d0, ok_bind, d1, ok_bind] at hrec
  refine ⟨y.reset, m, ?_, h2, h3, h4, h5⟩
  obtain ⟨b', r', he, hA⟩ := hA
  cases he
  rcases hA with ⟨h6, hA⟩ | ⟨h6, hA⟩
  · rw [if_pos ((low6 c5).1.mpr h6), show decodeAddress ((b :: c0 :: c1 :: c2 :: c3 :: c4 :: c5 :: c6 :: r).drop 6) = .ok a from hA,
      ok_bind, h1] at hrec
    exact hrec
  · have n1 : ¬ c5 &&& 0x3F#8 < 0x28#8 := fun h => by have := (low6 c5).1.mp h; omega
    have n2 : ¬ c5 &&& 0x3F#8 < 0x38#8 := low56 c5 h6
    rw [if_neg n1, if_neg n2, if_pos (((low6 c5).2 n2).mpr h6),
      show decodeAddress ((b :: c0 :: c1 :: c2 :: c3 :: c4 :: c5 :: c6 :: r).drop 7) = .ok a from hA, ok_bind, h1] at hrec
    exact hrec

/-- **C127** (partial) Every SELECT, the first and those repeated, is executed without a fault and answered with the short
info, as long as no address is assigned, if the answer before has been transmitted. -/
theorem C127_select_answered_partial (e : Env) (s : Rx) (t rand : Nat) (hr : Reachable e s) (hc : Completes e s t)
    (ha : logonAccepted s.link.packet) (hlen : 7 ≤ s.link.packet.length) (hen : s.cfg.logonEnabled = true)
    (hq : s.q.logon = []) (hcmd : logonCommand s.link.packet = some (.select s.cfg.did))
    (hA : s.logon.assigned = false) :
    ∃ s' m, s.receive e t rand = .ok s' ∧ s'.q.logon = [m] ∧ Spec.Carries m (infoWord s) ∧ s'.logon.selected = true := by
  obtain ⟨b, r, hp⟩ := packet_cons hcmd
  obtain ⟨l, -, hrec⟩ := receive_completes e s t rand hc hr b r hp ha
  rw [hp] at hlen hcmd
  obtain _ | ⟨c0, r⟩ := r
  · simp only [List.length_cons, List.length_nil] at hlen; omega
  obtain _ | ⟨c1, r⟩ := r
  · simp only [List.length_cons, List.length_nil] at hlen; omega
  obtain _ | ⟨c2, r⟩ := r
  · simp only [List.length_cons, List.length_nil] at hlen; omega
  obtain _ | ⟨c3, r⟩ := r
  · simp only [List.length_cons, List.length_nil] at hlen; omega
  obtain _ | ⟨c4, r⟩ := r
  · simp only [List.length_cons, List.length_nil] at hlen; omega
  have hs : b.toNat / 16 = 13 ∧ [c1, c2, c3, c4] = s.cfg.did := by
    rw [logonCommand, if_neg (by decide)] at hcmd
    split at hcmd
    · rename_i h
      simp only [Option.some.injEq, LogonCommand.select.injEq] at hcmd
      exact ⟨h, hcmd⟩
    · split at hcmd
      · cases hcmd
      · split at hcmd
        · cases hcmd
        · cases hcmd
  obtain ⟨hs1, hs2⟩ := hs
  have d0 : didOf (b :: c0 :: c1 :: c2 :: c3 :: c4 :: r) = .ok s.cfg.did := by
    rw [← hs2]; unfold didOf; rw [if_pos (by simp)]; rfl
  obtain ⟨y, h1, m, h2, h3, h4⟩ := logonSelect_answers (s.atLogon l { value := 254#16, type := .automaticLogon }) hen hq hA
  have h1 : (s.atLogon l { value := 254#16, type := .automaticLogon }).logonSelect s.cfg.did = .ok y := h1
  rw [Rx.executeAutomaticLogon, if_neg (by decide), byteAt_zero, ok_bind] at hrec
  dsimp only at hrec
  rw [if_pos ((nib_d b).1.mpr hs1), d0, ok_bind, h1] at hrec
  exact ⟨y.reset, m, hrec, h2, h3, h4⟩

/-- SELECT and LOGON_ASSIGN for the decoder of the examples of C52. -/
def selectIt : List RxOp := hears (checked [254#8, 0xD0#8, 145#8, 1#8, 2#8, 3#8, 4#8, 0xFF#8])
def assignIt : List RxOp := hears (checked [254#8, 0xE0#8, 145#8, 1#8, 2#8, 3#8, 4#8, 0xC3#8, 0xE8#8, 0#8])

/-- The number of answers transmitted in the cutouts, one behind each list of calls. -/
def answersTo (e : Env) (ls : List (List RxOp)) : Option (List Nat) :=
  let rec go (s : Rx) : List (List RxOp) → Option (List Nat)
    | [] => some []
    | l :: ls =>
      match s.run e l with
      | .ok s1 =>
        match s1.run e [.biDiChannel1, .biDiChannel2] with
        | .ok s2 => (go s2 ls).map (s1.q.logon.length :: ·)
        | .error _ => none
      | .error _ => none
  go {} ls

/-- **C127** fails for SELECT: it is answered as often as it is sent, as is LOGON_ASSIGN, but not once the address is
assigned. -/
theorem C127_select_false :
    answersTo logonEnv [.init :: selectIt, selectIt, assignIt, assignIt, selectIt] = some [1, 1, 1, 1, 0] := by
  decide +kernel

/-- The hypotheses of `C127_again`: the address 1000 for the session. -/
example : holdsAfter (({} : Rx).run logonEnv (.init :: assignIt)) (fun s =>
      decide (s.logon.assigned = true ∧ s.addrs.logon = { value := 1000#16, type := .long } ∧
        s.addrs.consist.value = 0#16)) = true ∧
    AssignedAddress [0xC3#8, 0xE8#8, 0#8] { value := 1000#16, type := .long } ∧
    logonCommand (checked [254#8, 0xE0#8, 145#8, 1#8, 2#8, 3#8, 4#8, 0xC3#8, 0xE8#8, 0#8]) =
      some (.assign [1#8, 2#8, 3#8, 4#8] ([0xC3#8, 0xE8#8, 0#8] ++
        (checked [254#8, 0xE0#8, 145#8, 1#8, 2#8, 3#8, 4#8, 0xC3#8, 0xE8#8, 0#8]).drop 10)) :=
  ⟨by decide +kernel, ⟨0xC3#8, [0xE8#8, 0#8], rfl, .inl ⟨by decide, by decide +kernel⟩⟩, by decide +kernel⟩

/-- Those of `C127_select` and `C127_silent`: the command before and after an address is assigned; the first changes the
decoder, as `C127_first` asks for LOGON_ASSIGN. -/
example : logonCommand (checked [254#8, 0xD0#8, 145#8, 1#8, 2#8, 3#8, 4#8, 0xFF#8]) = some (.select [1#8, 2#8, 3#8, 4#8]) ∧
    holdsAfter (({} : Rx).run logonEnv (.init :: selectIt)) (fun s =>
      decide (s.logon.selected = true ∧ s.logon.assigned = false ∧ s.cfg.did = [1#8, 2#8, 3#8, 4#8])) = true ∧
    holdsAfter (({} : Rx).run logonEnv (.init :: assignIt)) (fun s =>
      decide (s.logon.assigned = true ∧ s.q.logon.length = 1 ∧ s.cfg.did = [1#8, 2#8, 3#8, 4#8])) = true := by
  decide +kernel

/-- Those of `C127_assign_answered` for the second LOGON_ASSIGN, before the duration that completes it. -/
example : holdsAfter (({} : Rx).run logonEnv (.init :: assignIt ++ [.biDiChannel1, .biDiChannel2] ++ assignIt.dropLast.dropLast))
      (fun s => decide (Completes logonEnv s 58 ∧ logonAccepted s.link.packet ∧ 10 ≤ s.link.packet.length ∧
        s.cfg.logonEnabled = true ∧ s.q.logon = [] ∧ s.logon.assigned = true)) = true := by decide +kernel

/-- Those of `C127_select_answered_partial` for the second SELECT. -/
example : holdsAfter (({} : Rx).run logonEnv (.init :: selectIt ++ [.biDiChannel1, .biDiChannel2] ++ selectIt.dropLast.dropLast))
      (fun s => decide (Completes logonEnv s 58 ∧ logonAccepted s.link.packet ∧ 7 ≤ s.link.packet.length ∧
        s.cfg.logonEnabled = true ∧ s.q.logon = [] ∧ s.logon.assigned = false ∧ s.logon.selected = true ∧
        logonCommand s.link.packet = some (.select s.cfg.did))) = true := by decide +kernel

end Dcc
