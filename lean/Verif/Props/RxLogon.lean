import Verif.Lemmas.RxLogonCase
import Verif.Props.RxBidi
/-!
C52: automatic logon.
-/
namespace Dcc
open Spec

/-- **C52** A call of `receive` changes nothing about logon (being selected, having an address, the
addresses, the answer waiting), unless it completes a packet with right checksum and CRC that is a
logon command; what it then does is what `LogonStep` says: nothing unless logon is enabled, nothing
on SELECT and LOGON_ASSIGN with another unique ID, and the answers are the words of `LogonStep`. -/
theorem C52_protocol (e : Env) (s s' : Rx) (t rand : Nat) (hr : Reachable e s)
    (h : s.step e (.receive t rand) = .ok s') :
    logonView s' = logonView s ∨ ∃ c, logonAccepted s.link.packet ∧
      logonCommand s.link.packet = some c ∧ LogonStep e s (logonView s') c :=
  receive_logon e s s' t rand hr h

/-- **C52** While logon is disabled logon packets do nothing. -/
theorem C52_disabled (e : Env) (s s' : Rx) (t rand : Nat) (hr : Reachable e s)
    (h : s.step e (.receive t rand) = .ok s') (hd : s.cfg.logonEnabled = false) :
    logonView s' = logonView s := by
  rcases receive_logon e s s' t rand hr h with h | ⟨c, -, -, h⟩
  · exact h
  · cases h <;> simp_all

/-- **C52** SELECT and LOGON_ASSIGN for other decoders do nothing. -/
theorem C52_other_decoder (e : Env) (s s' : Rx) (t rand : Nat) (hr : Reachable e s)
    (h : s.step e (.receive t rand) = .ok s') (uid : List Byte) (hu : uid ≠ s.cfg.did)
    (hc : logonCommand s.link.packet = some (.select uid) ∨
      ∃ a, logonCommand s.link.packet = some (.assign uid a)) : logonView s' = logonView s := by
  rcases receive_logon e s s' t rand hr h with h | ⟨c, -, h1, h⟩
  · exact h
  · rcases hc with hc | ⟨a, hc⟩ <;> rw [hc] at h1 <;> cases h1 <;> cases h <;> exact absurd rfl hu

/-- **C52** Once selected, LOGON_ENABLE does nothing: there is no further answer to it. -/
theorem C52_selected (e : Env) (s s' : Rx) (t rand : Nat) (hr : Reachable e s)
    (h : s.step e (.receive t rand) = .ok s') (hs : s.logon.selected = true) (g cid session : Nat)
    (hc : logonCommand s.link.packet = some (.enable g cid session)) :
    logonView s' = logonView s := by
  rcases receive_logon e s s' t rand hr h with h | ⟨c, -, h1, h⟩
  · exact h
  · rw [hc] at h1
    cases h1
    cases h <;> simp_all

/-- What calls other than `receive` leave alone. -/
theorem other_logon (e : Env) (s s' : Rx) (op : RxOp) (h : s.step e op = .ok s')
    (hop : op.isReceive = false) : s'.logon.selected = s.logon.selected ∧
      s'.logon.assigned = s.logon.assigned ∧ s'.addrs.logon = s.addrs.logon ∧
      (s'.q.logon = s.q.logon ∨ op = .biDiChannel2 ∧ cutout s = .logon ∧ s'.q.logon = s.q.logon.drop 1) := by
  have ex : ∀ x y : Rx, ExecFrame x y → y.logon.selected = x.logon.selected ∧
      y.logon.assigned = x.logon.assigned ∧ y.addrs.logon = x.addrs.logon ∧
      (y.q.logon = x.q.logon ∨ op = .biDiChannel2 ∧ cutout x = .logon ∧ y.q.logon = x.q.logon.drop 1) :=
    fun x y h => ⟨h.selected, h.assigned, h.logonAddr, .inl h.qlogon⟩
  cases op with
  | init => exact ex _ _ ((frame_init e s).out _ h)
  | enable =>
    simp only [Rx.step, Rx.enable, Except.ok.injEq] at h
    subst h
    split <;> exact ⟨rfl, rfl, rfl, .inl rfl⟩
  | disable =>
    simp only [Rx.step, Rx.disable, Except.ok.injEq] at h
    subst h
    split <;> exact ⟨rfl, rfl, rfl, .inl rfl⟩
  | receive t r => cases hop
  | execute now rand =>
    simp only [Rx.step, bind_eq_ok, pure_eq_ok, Except.ok.injEq] at h
    obtain ⟨⟨s1, ret⟩, h1, rfl⟩ := h
    rcases execute_cases e s s1 now rand ret h1 with ⟨-, rfl, -⟩ | ⟨p, rest, s2, s3, -, -, -, f1, -, f2, rfl⟩
    · exact ⟨rfl, rfl, rfl, .inl rfl⟩
    · exact ⟨f2.selected.trans f1.selected, f2.assigned.trans f1.assigned,
        f2.logonAddr.trans (by rw [f1.addrs]), .inl (f2.qlogon.trans f1.qlogon)⟩
  | datagram ds =>
    obtain ⟨q, b, rfl⟩ := datagram_eq e s s' ds h
    exact ⟨rfl, rfl, rfl, .inl rfl⟩
  | biDiChannel1 =>
    simp only [Rx.step, Except.ok.injEq] at h
    obtain ⟨q, evs, h1⟩ := channel1_eq s
    subst h
    rw [h1]
    exact ⟨rfl, rfl, rfl, .inl rfl⟩
  | biDiChannel2 =>
    have hq : s'.q.logon = s.q.logon ∨ (cutout s = .logon ∧ s'.q.logon = s.q.logon.drop 1) := by
      have h : s.biDiChannel2 = .ok s' := h
      unfold Rx.biDiChannel2 at h
      have ht : s.appTos.q.logon = s.q.logon := by
        unfold Rx.appTos; split <;> rfl
      have hp : s.appPom.q.logon = s.q.logon := by
        unfold Rx.appPom; (repeat' split) <;> rfl
      have hd : s.appDyn.q.logon = s.q.logon := by
        unfold Rx.appDyn; (repeat' split) <;> rfl
      split at h
      · cases h; exact .inl ht
      · repeat' split at h
        all_goals first
          | (rw [bind_eq_ok] at h; obtain ⟨i, -, h⟩ := h; cases h; split <;> exact .inl (by assumption))
          | (cases h; exact .inl hd)
          | (cases h; exact .inl rfl)
      · repeat' split at h
        all_goals first
          | (rw [bind_eq_ok] at h; obtain ⟨i, -, h⟩ := h; cases h; split <;> exact .inl (by assumption))
          | (cases h; exact .inl hd)
          | (cases h; exact .inl rfl)
      · rename_i hty
        cases h
        refine .inr ⟨by unfold cutout; rw [hty], ?_⟩
        unfold Rx.appLogon2
        cases hl : s.q.logon with
        | nil => simp [hl]
        | cons d rest => rfl
      · cases h; exact .inl rfl
    obtain ⟨q, evs, rfl, -⟩ := channel2_eq s s' h
    refine ⟨rfl, rfl, rfl, hq.imp_right fun h => ⟨rfl, h⟩⟩
  | callbackByte i v =>
    simp only [Rx.step] at h
    split at h
    · exact ex _ _ ((frame_callbackByte s _ v).out _ h)
    · cases h; exact ⟨rfl, rfl, rfl, .inl rfl⟩
  | callbackBit i v =>
    simp only [Rx.step] at h
    split at h
    · exact ex _ _ ((frame_callbackBit s _ v).out _ h)
    · cases h; exact ⟨rfl, rfl, rfl, .inl rfl⟩

/-- **C52** Calls other than `receive` neither select the decoder nor assign it an address, and the
answer waiting is only taken by channel 2 after a logon packet. -/
theorem C52_only_packets (e : Env) (s s' : Rx) (op : RxOp) (h : s.step e op = .ok s')
    (hop : op.isReceive = false) : s'.logon.selected = s.logon.selected ∧
      s'.logon.assigned = s.logon.assigned ∧ s'.addrs.logon = s.addrs.logon ∧
      (s'.q.logon = s.q.logon ∨ op = .biDiChannel2 ∧ cutout s = .logon ∧ s'.q.logon = s.q.logon.drop 1) :=
  other_logon e s s' op h hop

/-- **C52** Once selected a decoder stays so until it is restarted. -/
theorem C52_stays_selected (e : Env) (s : Rx) (hr : Reachable e s) (hs : s.logon.selected = true)
    (ops : List RxOp) (s' : Rx) (h : s.run e ops = .ok s') : s'.logon.selected = true := by
  induction ops generalizing s with
  | nil => cases h; exact hs
  | cons op ops ih =>
    rw [Rx.run, bind_eq_ok] at h
    obtain ⟨s1, h1, h⟩ := h
    refine ih s1 (hr.step op h1) ?_ h
    by_cases hop : op.isReceive = true
    · cases op with
      | receive t r =>
        rcases receive_logon e s s1 t r hr h1 with h2 | ⟨c, -, -, h2⟩
        · exact (congrArg LogonView.selected h2).trans hs
        · cases h2 with
          | fast g cid session hen hsel => rw [hs] at hsel; cases hsel
          | enable g cid session hen hsel => rw [hs] at hsel; cases hsel
          | select hen has he m hm hv => exact congrArg LogonView.selected hv
          | assign bs hen he a ha m hm hv => exact (congrArg LogonView.selected hv).trans hs
      | _ => cases hop
    · exact (other_logon e s s1 op h1 (by simpa using hop)).1.trans hs

/-- The word a decoder answers a command with. -/
def answerWord (e : Env) (s : Rx) : LogonCommand → Nat
  | .enable _ _ _ => idWord e s
  | .select _ => infoWord s
  | .assign _ _ => ackWord

/-- The command is for the decoder. -/
def Concerns (s : Rx) : LogonCommand → Prop
  | .enable g _ _ => g ≠ 2 ∧ s.logon.selected = false
  | .select uid => uid = s.cfg.did ∧ s.logon.assigned = false
  | .assign uid _ => uid = s.cfg.did

/-- An answer made to a command that came in before. -/
def Answers (e : Env) (ops : List RxOp) (m : List Byte) : Prop :=
  ∃ pre t r post s c, ops = pre ++ .receive t r :: post ∧ ({} : Rx).run e pre = .ok s ∧
    logonAccepted s.link.packet ∧ logonCommand s.link.packet = some c ∧ s.cfg.logonEnabled = true ∧
    Concerns s c ∧ Carries m (answerWord e s c)

private theorem Answers.append {e : Env} {ops : List RxOp} {m : List Byte} (h : Answers e ops m)
    (more : List RxOp) : Answers e (ops ++ more) m := by
  obtain ⟨pre, t, r, post, s, c, h1, h2⟩ := h
  exact ⟨pre, t, r, post ++ more, s, c, by rw [h1, List.append_assoc]; rfl, h2⟩

private theorem answers_step (e : Env) (pre : List RxOp) (s s' : Rx) (op : RxOp)
    (hrun : ({} : Rx).run e pre = .ok s) (h : s.step e op = .ok s')
    (hi : s.q.logon.length ≤ 1 ∧ ∀ m ∈ s.q.logon, Answers e pre m) :
    s'.q.logon.length ≤ 1 ∧ ∀ m ∈ s'.q.logon, Answers e (pre ++ [op]) m := by
  have same : s'.q.logon = s.q.logon → s'.q.logon.length ≤ 1 ∧ ∀ m ∈ s'.q.logon, Answers e (pre ++ [op]) m := by
    intro hq
    rw [hq]
    exact ⟨hi.1, fun m hm => (hi.2 m hm).append _⟩
  by_cases hop : op.isReceive = true
  · cases op with
    | receive t r =>
      have mk : ∀ c m, logonAccepted s.link.packet → logonCommand s.link.packet = some c →
          s.cfg.logonEnabled = true → Concerns s c → Carries m (answerWord e s c) → s'.q.logon = [m] →
          s'.q.logon.length ≤ 1 ∧ ∀ m ∈ s'.q.logon, Answers e (pre ++ [.receive t r]) m := by
        intro c m h1 h2 h3 h4 h5 h6
        rw [h6]
        refine ⟨Nat.le_refl 1, fun m' hm => ?_⟩
        rw [List.mem_singleton] at hm
        subst hm
        exact ⟨pre, t, r, [], s, c, rfl, hrun, h1, h2, h3, h4, h5⟩
      rcases receive_logon e s s' t r (.of_run hrun) h with h2 | ⟨c, k1, k2, h2⟩
      · exact same (congrArg LogonView.answer h2)
      · cases h2 with
        | fast g cid session hen hsel hk c1 c2 tr i1 i2 a ha hv => exact same (congrArg LogonView.answer hv)
        | enable g cid session hen hsel hk v hv h =>
          have hva : v.answer = s.q.logon := by rw [hv]; split <;> rfl
          rcases h with h | ⟨h3, h4, m, h5, h6⟩
          · exact same ((congrArg LogonView.answer h).trans hva)
          · exact mk _ m k1 k2 hen ⟨h3, hsel⟩ h6 (congrArg LogonView.answer h5)
        | select hen has he m hm hv => exact mk _ m k1 k2 hen ⟨rfl, has⟩ hm (congrArg LogonView.answer hv)
        | assign bs hen he a ha m hm hv => exact mk _ m k1 k2 hen rfl hm (congrArg LogonView.answer hv)
    | _ => cases hop
  · rcases (other_logon e s s' op h (by simpa using hop)).2.2.2 with h | ⟨-, -, h⟩
    · exact same h
    · rw [h]
      exact ⟨by rw [List.length_drop]; omega,
        fun m hm => (hi.2 m (List.mem_of_mem_drop hm)).append _⟩

private theorem answers_run (e : Env) (ops : List RxOp) : ∀ (pre : List RxOp) (s s' : Rx),
    ({} : Rx).run e pre = .ok s → s.run e ops = .ok s' →
    (s.q.logon.length ≤ 1 ∧ ∀ m ∈ s.q.logon, Answers e pre m) →
    s'.q.logon.length ≤ 1 ∧ ∀ m ∈ s'.q.logon, Answers e (pre ++ ops) m := by
  induction ops with
  | nil =>
    intro pre s s' h1 h2 h3
    cases h2
    rw [List.append_nil]
    exact h3
  | cons op ops ih =>
    intro pre s s' h1 h2 h3
    rw [Rx.run, bind_eq_ok] at h2
    obtain ⟨s1, h4, h5⟩ := h2
    have := ih (pre ++ [op]) s1 s' (by rw [run_append e pre [op] {} s h1]; show (s.step e op >>= _) = _; rw [h4]; rfl) h5
      (answers_step e pre s s1 op h1 h4 h3)
    rwa [List.append_assoc] at this

/-- **C52** In every history at most one answer is waiting, and it is the answer to a command received
before, correctly and for this decoder: to LOGON_ENABLE the ID15 datagram with manufacturer and
unique ID, to SELECT the short info with CRC, to LOGON_ASSIGN the ID13 datagram with CRC. -/
theorem C52_answers (e : Env) (ops : List RxOp) (s : Rx) (h : ({} : Rx).run e ops = .ok s) :
    s.q.logon.length ≤ 1 ∧ ∀ m ∈ s.q.logon, Answers e ops m := by
  have := answers_run e ops [] {} s rfl h ⟨by decide, nofun⟩
  exact this

/-- **C52** After a logon packet channel 1 transmits the first two bytes of the answer waiting, channel
2 the other six; then it waits no more. -/
theorem C52_transmission (e : Env) (s s1 s2 : Rx) (h0 : cutout s = .logon)
    (h1 : s.step e .biDiChannel1 = .ok s1) (h2 : s1.step e .biDiChannel2 = .ok s2) (m : List Byte)
    (hm : s.q.logon = [m]) :
    transmitted (newCalls s s1) = [m.take 2] ∧ transmitted (newCalls s1 s2) = [m.drop 2] ∧
      s2.q.logon = [] := by
  have hty : s.addrs.received.type = .automaticLogon := by
    unfold cutout at h0
    split at h0 <;> first | assumption | ((repeat' split at h0) <;> cases h0)
  have e1 : s1 = s.emit (.transmitBiDi (m.take 2)) := by
    have h1 : s.biDiChannel1 = s1 := Except.ok.inj h1
    rw [← h1, Rx.biDiChannel1, hty]
    dsimp only
    rw [Rx.appLogon1, hm]
  have ht1 : s1.addrs.received.type = .automaticLogon := by rw [e1]; exact hty
  have hq1 : s1.q.logon = [m] := by rw [e1]; exact hm
  have e2 : s2 = Rx.emit { s1 with q := { s1.q with logon := [] } } (.transmitBiDi (m.drop 2)) := by
    have h2 : s1.biDiChannel2 = .ok s2 := h2
    rw [Rx.biDiChannel2, ht1] at h2
    dsimp only at h2
    rw [Rx.appLogon2, hq1] at h2
    exact (Except.ok.inj h2).symm
  refine ⟨?_, ?_, by rw [e2]; rfl⟩
  · rw [newCalls_append (s := s) (s' := s1) (evs := [.transmitBiDi (m.take 2)]) (by rw [e1]; rfl)]; rfl
  · rw [newCalls_append (s := s1) (s' := s2) (evs := [.transmitBiDi (m.drop 2)]) (by rw [e2]; rfl)]; rfl

theorem receive_completes (e : Env) (s : Rx) (t rand : Nat) (hc : Completes e s t)
    (hr : Reachable e s) (b : Byte) (bs : List Byte) (hp : s.link.packet = 254#8 :: b :: bs)
    (ha : logonAccepted s.link.packet) :
    ∃ l, l.packet = s.link.packet ∧ s.receive e t rand =
      ((s.atLogon l { value := 254#16, type := .automaticLogon }).executeAutomaticLogon e
        { value := 254#16, type := .automaticLogon } (b :: bs) rand).map Rx.reset := by
  have hb : time2bit t = .b1 := if_pos hc.one
  have hsum := hr.recvInv.link.sum (by rw [hc.state]; rfl)
  have h3 := ha.1
  have hcrc : s.link.packet.length ≤ 7 ∨ crc8Packet s.link.packet = 0#8 := by
    by_cases h : 7 < s.link.packet.length
    · exact .inr ((crc8_eq_spec _).trans (ha.2.2 h))
    · exact .inl (by omega)
  have hd : decodeAddress s.link.packet = .ok { value := 254#16, type := .automaticLogon } := by
    rw [hp]; rfl
  refine ⟨{ s.link with packetEnd := true, isHalfbit := false }, rfl, ?_⟩
  rw [Rx.receive, hb]
  dsimp only
  have hh : s.link.state.halves = true := by rw [hc.state]; rfl
  rw [if_neg (by rw [hh, hc.second]; decide), if_pos hh]
  dsimp only
  rw [if_neg (Nat.ne_of_lt hc.room), Rx.receiveBit]
  dsimp only
  rw [hc.state]
  dsimp only
  rw [if_neg (by decide), Rx.endOfPacket, if_pos ⟨by rw [hsum]; exact ha.2.1, h3⟩]
  dsimp only
  rw [hd, ok_bind, Rx.executeHandlerMode]
  dsimp only
  rw [if_neg (by decide), if_pos hcrc]
  unfold Rx.atLogon
  simp only [hp, List.drop_succ_cons, List.drop_zero]
  generalize Rx.executeAutomaticLogon e _ _ (b :: bs) rand = x
  cases x <;> rfl

theorem pushLogon_ok (s : Rx) (m : List Byte) (h : s.q.logon = []) :
    s.pushLogon m = .ok { s with q := { s.q with logon := [m] } } := by
  rw [Rx.pushLogon, if_pos (by rw [h]; decide), h]; rfl

theorem six_fits (bs : List Byte) (h : bs.length = 6) : ∃ m, Carries m (number bs) ∧
    encodeData .b48 (number bs) = .ok m := by
  have hl := number_lt bs
  rw [h] at hl
  have := encodeData_ok .b48 (number bs) (show number bs < 2 ^ 48 by omega)
  exact ⟨_, carries_data _ _ this, this⟩

theorem id_fits (e : Env) (s : Rx) (h : s.cfg.did.length = 4) : ∃ m, Carries m (idWord e s) ∧
    encodeId .b48 15 (bytesToNat (e.manufacturerId :: s.cfg.did)) = .ok m := by
  have hl := number_lt (e.manufacturerId :: s.cfg.did)
  rw [List.length_cons, h] at hl
  have := encodeId_ok .b48 15 (bytesToNat (e.manufacturerId :: s.cfg.did)) (by decide)
    (show _ < 2 ^ 44 by rw [bytesToNat_number]; omega)
  refine ⟨_, ?_, this⟩
  rw [← idWord_eq e s h]
  exact carries_id _ _ this

theorem packet_cons {p : Packet} {c : LogonCommand} (h : logonCommand p = some c) :
    ∃ b bs, p = 254#8 :: b :: bs := by
  match p, h with
  | a :: b :: bs, h =>
    rw [logonCommand] at h
    split at h
    · cases h
    · rename_i ha
      exact ⟨b, bs, by rw [show a = 254#8 from BitVec.eq_of_toNat_eq (Decidable.not_not.mp ha)]⟩

/-- **C52** A decoder without an address and without an answer waiting is selected by SELECT with its
unique ID, and the short info waits to be transmitted. -/
theorem C52_select_answered (e : Env) (s : Rx) (t rand : Nat) (hr : Reachable e s)
    (hc : Completes e s t) (ha : logonAccepted s.link.packet) (hen : s.cfg.logonEnabled = true)
    (has : s.logon.assigned = false) (hq : s.q.logon = [])
    (hcmd : logonCommand s.link.packet = some (.select s.cfg.did)) :
    ∃ s' m, s.step e (.receive t rand) = .ok s' ∧ Carries m (infoWord s) ∧
      logonView s' = { logonView s with selected := true, answer := [m] } := by
  obtain ⟨b, bs, hp⟩ := packet_cons hcmd
  obtain ⟨l, -, hrec⟩ := receive_completes e s t rand hc hr b bs hp ha
  have hs : b.toNat / 16 = 13 ∧ (bs.drop 1).take 4 = s.cfg.did := by
    rw [hp, logonCommand, if_neg (by decide)] at hcmd
    split at hcmd
    · rename_i h
      simp only [Option.some.injEq, LogonCommand.select.injEq] at hcmd
      exact ⟨h, hcmd⟩
    · repeat' split at hcmd
      all_goals cases hcmd
  have hlen : 6 ≤ (b :: bs).length := by
    have := congrArg List.length hs.2
    rw [hr.did, List.length_take, List.length_drop] at this
    simp only [List.length_cons]
    omega
  obtain ⟨m, hm, hme⟩ := six_fits (shortInfo s.addrs.primary ++ [crc8 (shortInfo s.addrs.primary)]) rfl
  rw [← bytesToNat_number] at hm hme
  rw [shortInfo_eq] at hm
  generalize hx : s.atLogon l { value := 254#16, type := .automaticLogon } = x at hrec
  have hsel : x.logonSelect s.cfg.did =
      .ok { x with logon := { x.logon with selected := true }, q := { x.q with logon := [m] } } := by
    subst hx
    rw [Rx.logonSelect, if_neg (by simp [Rx.atLogon, hen, has])]
    dsimp only
    show (encodeData .b48 (bytesToNat (shortInfo s.addrs.primary ++ [crc8 (shortInfo s.addrs.primary)])) >>= _) = _
    rw [hme, ok_bind, pushLogon_ok _ _ (by exact hq)]
  rw [Rx.executeAutomaticLogon, if_neg (by decide), byteAt_zero, ok_bind] at hrec
  dsimp only at hrec
  rw [if_pos ((nib_d b).1.mpr hs.1), didOf, if_pos hlen, ok_bind] at hrec
  rw [show ((b :: bs).drop 2).take 4 = s.cfg.did from hs.2, hsel] at hrec
  refine ⟨_, m, hrec, hm, ?_⟩
  subst hx
  rfl

/-- **C52** Without an answer waiting LOGON_ASSIGN with the decoder's unique ID and an address gives the
decoder that address, and the acknowledgement waits to be transmitted. -/
theorem C52_assign_answered (e : Env) (s : Rx) (t rand : Nat) (hr : Reachable e s)
    (hc : Completes e s t) (ha : logonAccepted s.link.packet) (hen : s.cfg.logonEnabled = true)
    (hq : s.q.logon = []) (ad : List Byte) (a : Address) (haa : AssignedAddress ad a)
    (hcmd : logonCommand s.link.packet = some (.assign s.cfg.did ad)) :
    ∃ s' m, s.step e (.receive t rand) = .ok s' ∧ Carries m ackWord ∧ s'.q.logon = [m] ∧
      s'.logon.assigned = true ∧ s'.addrs.logon = a ∧ s'.addrs.consist.value = 0#16 := by
  obtain ⟨b, bs, hp⟩ := packet_cons hcmd
  obtain ⟨l, -, hrec⟩ := receive_completes e s t rand hc hr b bs hp ha
  have hs : b.toNat / 16 = 14 ∧ (bs.drop 1).take 4 = s.cfg.did ∧ bs.drop 5 = ad := by
    rw [hp, logonCommand, if_neg (by decide)] at hcmd
    split at hcmd
    · cases hcmd
    · split at hcmd
      · rename_i h
        simp only [Option.some.injEq, LogonCommand.assign.injEq] at hcmd
        exact ⟨h, hcmd⟩
      · split at hcmd <;> cases hcmd
  have hlen : 6 ≤ (b :: bs).length := by
    have := congrArg List.length hs.2.1
    rw [hr.did, List.length_take, List.length_drop] at this
    simp only [List.length_cons]
    omega
  obtain ⟨b6, rest, had, hcase⟩ := haa
  have hd6 : (b :: bs).drop 6 = b6 :: rest := hs.2.2.trans had
  have hb6 : byteAt (b :: bs) 6 = .ok b6 := by
    have h0 := congrArg (·[0]?) hd6
    simp only [List.getElem?_drop, List.getElem?_cons_zero] at h0
    rw [byteAt, h0]
  have hd7 : (b :: bs).drop 7 = rest := by
    have h0 := congrArg (List.drop 1) hd6
    rw [List.drop_drop] at h0
    exact h0
  obtain ⟨m, hm, hme⟩ := six_fits (assignInfo ++ [crc8 assignInfo]) rfl
  rw [← bytesToNat_number] at hm hme
  rw [assignInfo_eq] at hm
  generalize hx : s.atLogon l { value := 254#16, type := .automaticLogon } = x at hrec
  have hsel : ∀ o, ∃ s2, x.logonAssign s.cfg.did a o = .ok s2 ∧ s2.q.logon = [m] ∧
      s2.logon.assigned = true ∧ s2.addrs.logon = a ∧ s2.addrs.consist.value = 0#16 := by
    intro o
    subst hx
    rw [Rx.logonAssign, if_neg (by simp [Rx.atLogon, hen])]
    dsimp only
    rw [hme, ok_bind, pushLogon_ok _ _ (by exact hq)]
    exact ⟨_, rfl, rfl, rfl, rfl, rfl⟩
  rw [Rx.executeAutomaticLogon, if_neg (by decide), byteAt_zero, ok_bind] at hrec
  dsimp only at hrec
  rw [if_neg (fun h => by have := (nib_d b).1.mp h; omega), if_pos ((nib_d b).2.1.mpr hs.1), didOf,
    if_pos hlen, ok_bind, hb6, ok_bind] at hrec
  rw [show ((b :: bs).drop 2).take 4 = s.cfg.did from hs.2.1] at hrec
  obtain ⟨s2, h1, h2, h3, h4, h5⟩ := hsel (b6 &&& 0xC0#8 != 0xC0#8)
  obtain ⟨l1, l2⟩ := low6 b6
  rcases hcase with ⟨h6, h7⟩ | ⟨h6, h7⟩
  · rw [if_pos (l1.mpr h6), hd6, ← had, h7, ok_bind, h1] at hrec
    exact ⟨_, m, hrec, hm, h2, h3, h4, h5⟩
  · have k1 : ¬ b6 &&& 0x3F#8 < 0x28#8 := fun h => by have := l1.mp h; omega
    have k2 : ¬ b6 &&& 0x3F#8 < 0x38#8 := by
      clear l1 l2 hb6 hd6 had h1 k1 hrec
      revert b6
      decide +kernel
    rw [if_neg k1, if_neg k2, if_pos ((l2 k2).mpr h6), hd7, h7, ok_bind, h1] at hrec
    exact ⟨_, m, hrec, hm, h2, h3, h4, h5⟩

/-- **C52** LOGON_ENABLE with `11` (now) of an unknown session makes a decoder that is not selected,
without an answer waiting, answer with its ID. -/
theorem C52_enable_now_answered (e : Env) (s : Rx) (t rand : Nat) (hr : Reachable e s)
    (hc : Completes e s t) (ha : logonAccepted s.link.packet) (hen : s.cfg.logonEnabled = true)
    (hsel : s.logon.selected = false) (hq : s.q.logon = []) (cid session : Nat)
    (hk : ¬ KnownSession s cid session) (h6 : 6 ≤ s.link.packet.length)
    (hcmd : logonCommand s.link.packet = some (.enable 3 cid session)) :
    ∃ s' m, s.step e (.receive t rand) = .ok s' ∧ Carries m (idWord e s) ∧ s'.q.logon = [m] ∧
      s'.logon.selected = false := by
  obtain ⟨b, bs, hp⟩ := packet_cons hcmd
  obtain ⟨l, -, hrec⟩ := receive_completes e s t rand hc hr b bs hp ha
  rw [hp] at h6
  match bs, h6 with
  | c0 :: c1 :: se :: more, h6 =>
  have hs : b.toNat / 16 = 15 ∧ b.toNat % 4 = 3 ∧ c0.toNat * 256 + c1.toNat = cid ∧ se.toNat = session := by
    rw [hp, logonCommand, if_neg (by decide)] at hcmd
    split at hcmd
    · cases hcmd
    · split at hcmd
      · cases hcmd
      · split at hcmd
        · rename_i h
          simp only [Option.some.injEq, LogonCommand.enable.injEq] at hcmd
          exact ⟨h, hcmd⟩
        · cases hcmd
  obtain ⟨hs1, hs2, hs3, hs4⟩ := hs
  have hcid : (c0.setWidth 16 <<< 8 ||| c1.setWidth 16).toNat = cid := by
    have e0 := c0.isLt
    have e1 := c1.isLt
    rw [BitVec.toNat_or, BitVec.toNat_shiftLeft, BitVec.toNat_setWidth, BitVec.toNat_setWidth,
      Nat.mod_eq_of_lt (by omega : c0.toNat < 2 ^ 16), Nat.mod_eq_of_lt (by omega : c1.toNat < 2 ^ 16),
      Nat.shiftLeft_eq, Nat.mod_eq_of_lt (by omega), Nat.mul_comm c0.toNat,
      ← Nat.two_pow_add_eq_or_of_lt e1, ← hs3]
    omega
  obtain ⟨m, hm, hme⟩ := id_fits e s hr.did
  have hg : AddressGroup.ofByte b = .now := by
    have key : ∀ b : Byte, b.toNat % 4 = 3 → AddressGroup.ofByte b = .now := by decide +kernel
    exact key b hs2
  have hans : ∀ x : Rx, x.cfg = s.cfg → x.q.logon = [] → x.logon.selected = false →
      ∃ s2, x.logonAnswer e .now rand = .ok s2 ∧ s2.q.logon = [m] ∧ s2.logon.selected = false := by
    intro x h1 h2 h3
    have hb : ∃ y, x.logon.backoff.now.query rand = (y, false) := ⟨_, rfl⟩
    obtain ⟨y, hb⟩ := hb
    rw [Rx.logonAnswer, if_neg (by decide), if_pos rfl]
    dsimp only
    rw [hb]
    dsimp only
    rw [if_neg (by decide), h1, hme, ok_bind, pushLogon_ok _ _ (by exact h2)]
    exact ⟨_, rfl, rfl, h3⟩
  generalize hx : s.atLogon l { value := 254#16, type := .automaticLogon } = x at hrec
  have h0 : x.cfg = s.cfg ∧ x.q = s.q ∧ x.logon = s.logon := by subst hx; exact ⟨rfl, rfl, rfl⟩
  obtain ⟨x1, x2, x3⟩ := h0
  have : ∃ s2, x.logonEnable e .now (c0.setWidth 16 <<< 8 ||| c1.setWidth 16) se rand = .ok s2 ∧
      s2.q.logon = [m] ∧ s2.logon.selected = false := by
    rw [Rx.logonEnable, if_neg (by rw [x1, x3, hen, hsel]; decide)]
    dsimp only
    split
    · rename_i hcf
      rw [if_neg]
      · exact hans _ x1 (by rw [x2]; exact hq) rfl
      · intro hle
        refine hk ⟨?_, ?_⟩
        · rw [← hcid, hcf, x3]
        · rw [x3] at hle
          rw [← hs4]
          exact (sessionDiff_le ..).mp hle
    · exact hans _ x1 (by rw [x2]; exact hq) (by rw [x3]; exact hsel)
  obtain ⟨s2, h1, h2, h3⟩ := this
  have d0 : data2uint16 ((b :: c0 :: c1 :: se :: more).drop 1) = .ok (c0.setWidth 16 <<< 8 ||| c1.setWidth 16) := rfl
  have d1 : byteAt (b :: c0 :: c1 :: se :: more) 3 = .ok se := rfl
  rw [Rx.executeAutomaticLogon, if_neg (by decide), byteAt_zero, ok_bind] at hrec
  dsimp only at hrec
  rw [if_neg (fun h => by have := (nib_d b).1.mp h; omega),
    if_neg (fun h => by have := (nib_d b).2.1.mp h; omega), if_pos ((nib_d b).2.2.mpr hs1), d0, ok_bind,
    d1, ok_bind, hg, h1] at hrec
  exact ⟨_, m, hrec, hm, h2, h3⟩

/-- A decoder with automatic logon and the unique ID 1, 2, 3, 4 (for examples). -/
def logonEnv : Env := memEnv fun cv =>
  if cv = 27#32 then 0x83#8
  else if 249#32 ≤ cv ∧ cv ≤ 252#32 then (cv - 248#32).setWidth 8
  else exampleCvs cv

/-- A packet with CRC and checksum. -/
def checked (bs : List Byte) : Packet :=
  bs ++ [crcMsg bs] ++ [exor (bs ++ [crcMsg bs])]

/-- A logon: LOGON_ENABLE of command station 513 in session 7 and its answer, SELECT and its answer,
LOGON_ASSIGN of the long address 1000 and its acknowledgement. -/
def logonExample : List RxOp :=
  .init :: hears [254#8, 0xFF#8, 2#8, 1#8, 7#8, 5#8] ++ [.biDiChannel1, .biDiChannel2] ++
    hears (checked [254#8, 0xD0#8, 145#8, 1#8, 2#8, 3#8, 4#8, 0xFF#8]) ++ [.biDiChannel1, .biDiChannel2] ++
    hears (checked [254#8, 0xE0#8, 145#8, 1#8, 2#8, 3#8, 4#8, 0xC3#8, 0xE8#8, 0#8]) ++
    [.biDiChannel1, .biDiChannel2]

example : holdsAfter (({} : Rx).run logonEnv logonExample) (fun s =>
    s.logon.selected && s.logon.assigned && decide (s.addrs.logon = { value := 1000#16, type := .long }) &&
    decide (((transmitted s.trace).flatten.take 8, (transmitted s.trace).map List.length) =
      (idBytes .b48 15 (145 * 2 ^ 32 + 0x01020304), [2, 6, 2, 6, 2, 6]))) = true := by
  decide +kernel

/-- The state before the last half bit of a packet. -/
def lastHalf (p : Packet) : List RxOp := (hears p).take ((hears p).length - 2)

/-- The hypotheses of the theorems about answers, for SELECT, LOGON_ASSIGN and LOGON_ENABLE. -/
def completesNow (c : LogonCommand) (s : Rx) : Bool :=
  s.link.state = .endbit && s.link.isHalfbit && decide (s.deque.length < logonEnv.rxDeque) &&
    decide (3 ≤ s.link.packet.length ∧ exor s.link.packet = 0#8 ∧
      (7 < s.link.packet.length → crcMsg s.link.packet.dropLast = 0#8)) && s.cfg.logonEnabled &&
    !s.logon.assigned && !s.logon.selected && decide (s.q.logon = []) &&
    decide (logonCommand s.link.packet = some c) && decide (s.cfg.did = [1#8, 2#8, 3#8, 4#8])

example : holdsAfter (({} : Rx).run logonEnv (.init :: lastHalf (checked [254#8, 0xD0#8, 145#8, 1#8, 2#8, 3#8,
    4#8, 0xFF#8]))) (completesNow (.select [1#8, 2#8, 3#8, 4#8])) = true := by decide +kernel

example : holdsAfter (({} : Rx).run logonEnv (.init :: lastHalf (checked [254#8, 0xE0#8, 145#8, 1#8, 2#8, 3#8,
    4#8, 0xC3#8, 0xE8#8, 0#8]))) (fun s => completesNow (.assign [1#8, 2#8, 3#8, 4#8]
      (s.link.packet.drop 7)) s && decide (decodeAddress (s.link.packet.drop 7) =
        .ok { value := 1000#16, type := .long })) = true := by decide +kernel

example : holdsAfter (({} : Rx).run logonEnv (.init :: lastHalf [254#8, 0xFF#8, 2#8, 1#8, 7#8, 5#8]))
    (completesNow (.enable 3 513 7)) = true := by decide +kernel

end Dcc
