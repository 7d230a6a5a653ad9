import Verif.Props.RxLogon
import Verif.Lemmas.RxFault
/-!
C54: the queue for answers to logon packets.
-/
namespace Dcc
open Spec

/-- Calls other than `receive` do not change the address of the last packet. -/
theorem other_received (e : Env) (s s' : Rx) (op : RxOp) (h : s.step e op = .ok s')
    (hop : op.isReceive = false) : s'.addrs.received = s.addrs.received := by
  cases op with
  | init => exact ((frame_init e s).out _ h).received
  | enable =>
    simp only [Rx.step, Rx.enable, Except.ok.injEq] at h
    subst h
    split <;> rfl
  | disable =>
    simp only [Rx.step, Rx.disable, Except.ok.injEq] at h
    subst h
    split <;> rfl
  | receive t r => cases hop
  | execute now rand =>
    simp only [Rx.step, bind_eq_ok, pure_eq_ok, Except.ok.injEq] at h
    obtain ⟨⟨s1, ret⟩, h1, rfl⟩ := h
    rcases execute_cases e s s1 now rand ret h1 with ⟨-, rfl, -⟩ | ⟨p, rest, s2, s3, -, -, -, f1, -, f2, rfl⟩
    · rfl
    · exact f2.received.trans (by rw [f1.addrs])
  | datagram ds =>
    obtain ⟨q, b, rfl⟩ := datagram_eq e s s' ds h
    rfl
  | biDiChannel1 =>
    simp only [Rx.step, Except.ok.injEq] at h
    obtain ⟨q, evs, h1⟩ := channel1_eq s
    subst h
    rw [h1]
  | biDiChannel2 =>
    obtain ⟨q, evs, rfl, -⟩ := channel2_eq s s' h
    rfl
  | callbackByte i v =>
    simp only [Rx.step] at h
    split at h
    · exact ((frame_callbackByte s _ v).out _ h).received
    · cases h; rfl
  | callbackBit i v =>
    simp only [Rx.step] at h
    split at h
    · exact ((frame_callbackBit s _ v).out _ h).received
    · cases h; rfl

/-- **C54** fails: in every state in which an answer is waiting, SELECT for the decoder makes `receive`
queue a second one, which violates an assertion. -/
theorem C54_no_overflow_false (e : Env) (s : Rx) (t rand : Nat) (hr : Reachable e s)
    (hc : Completes e s t) (ha : logonAccepted s.link.packet) (hen : s.cfg.logonEnabled = true)
    (has : s.logon.assigned = false) (hq : s.q.logon ≠ [])
    (hcmd : logonCommand s.link.packet = some (.select s.cfg.did)) :
    s.step e (.receive t rand) = .error .assertion := by
  obtain ⟨b, bs, hp⟩ := packet_cons hcmd
  obtain ⟨l, -, hrec⟩ := receive_completes e s t rand hc hr b bs hp ha
  have hs : b.toNat / 16 = 13 ∧ (bs.drop 1).take 4 = s.cfg.did := by
    rw [hp, logonCommand, if_neg (by decide)] at hcmd
    split at hcmd
    · rename_i h
      simp only [Option.some.injEq, LogonCommand.select.injEq] at hcmd
      exact ⟨h, hcmd⟩
    · repeat' split at hcmd
      all_goals cases hcmd
  have hlen : 6 ≤ (b :: bs).length := by
    have := congrArg List.length hs.2
    rw [hr.did, List.length_take, List.length_drop] at this
    simp only [List.length_cons]
    omega
  generalize hx : s.atLogon l { value := 254#16, type := .automaticLogon } = x at hrec
  have hsel : x.logonSelect s.cfg.did = .error .assertion := by
    subst hx
    rw [Rx.logonSelect, if_neg (by simp [Rx.atLogon, hen, has])]
    dsimp only
    have hl := number_lt (shortInfo s.addrs.primary ++ [crc8 (shortInfo s.addrs.primary)])
    rw [show (shortInfo s.addrs.primary ++ [crc8 (shortInfo s.addrs.primary)]).length = 6 from rfl] at hl
    show (encodeData .b48 (bytesToNat (shortInfo s.addrs.primary ++ [crc8 (shortInfo s.addrs.primary)])) >>= _) = _
    rw [bytesToNat_number, encodeData_ok .b48 _ (show _ < 2 ^ 48 by omega), ok_bind, Rx.pushLogon, if_neg]
    intro h
    exact hq (List.eq_nil_of_length_eq_zero (by exact Nat.lt_one_iff.mp h))
  rw [Rx.executeAutomaticLogon, if_neg (by decide), byteAt_zero, ok_bind] at hrec
  dsimp only at hrec
  rw [if_pos ((nib_d b).1.mpr hs.1), didOf, if_pos hlen, ok_bind] at hrec
  rw [show ((b :: bs).drop 2).take 4 = s.cfg.did from hs.2, hsel] at hrec
  exact hrec

/-- LOGON_ENABLE and SELECT without a cutout between them. -/
def overflowExample : List RxOp :=
  .init :: hears [254#8, 0xFF#8, 2#8, 1#8, 7#8, 5#8] ++
    lastHalf (checked [254#8, 0xD0#8, 145#8, 1#8, 2#8, 3#8, 4#8, 0xFF#8])

/-- The state before the last half bit of SELECT meets the hypotheses. -/
example : holdsAfter (({} : Rx).run logonEnv overflowExample) (fun s =>
    s.link.state = .endbit && s.link.isHalfbit && decide (s.deque.length < logonEnv.rxDeque) &&
    decide (3 ≤ s.link.packet.length ∧ exor s.link.packet = 0#8 ∧
      (7 < s.link.packet.length → crcMsg s.link.packet.dropLast = 0#8)) && s.cfg.logonEnabled &&
    !s.logon.assigned && decide (s.q.logon ≠ []) &&
    decide (logonCommand s.link.packet = some (.select s.cfg.did))) = true := by decide +kernel

example : (match ({} : Rx).run logonEnv (overflowExample ++ [.receive 58 0]) with
    | .error .assertion => true
    | _ => false) = true := by decide +kernel

/-- **C54** The assertion is only violated if an answer is waiting and the packet just received is
another one the decoder has to answer. -/
theorem C54_assertion_partial (e : Env) (s : Rx) (hr : Reachable e s) (t rand : Nat)
    (h : s.step e (.receive t rand) = .error .assertion) :
    s.q.logon ≠ [] ∧ s.cfg.logonEnabled = true ∧ logonAccepted s.link.packet ∧
      ∃ c, logonCommand s.link.packet = some c ∧ AnswerDue s c := by
  rcases receive_faults e s hr t rand _ h with ⟨h, -⟩ | ⟨-, ha, c, hc, ⟨h, -⟩ | ⟨-, h1, h2, h3⟩⟩
  · cases h
  · cases h
  · exact ⟨h1, h2, ha, c, hc, h3⟩

/-- Channel 2 is called after every packet, before the next bit is received: `open` says that a packet
is complete and channel 2 was not called since. -/
def Spec.CutoutsUsed (e : Env) : Bool → Rx → List RxOp → Prop
  | _, _, [] => True
  | opened, s, op :: ops => (op.isReceive = true → opened = false) ∧
    ∀ s', s.step e op = .ok s' → CutoutsUsed e
      (if op.isReceive then s'.packetEnd else if op = .biDiChannel2 then false else opened) s' ops

/-- An answer is only waiting until the cutout. -/
private def Waiting (opened : Bool) (s : Rx) : Prop :=
  s.q.logon = [] ∨ (opened = true ∧ s.addrs.received.type = .automaticLogon ∧ s.q.logon.length ≤ 1)

private theorem waiting_step (e : Env) (s s' : Rx) (op : RxOp) (opened : Bool) (hr : Reachable e s)
    (hw : Waiting opened s) (h0 : op.isReceive = true → opened = false) (h : s.step e op = .ok s') :
    Waiting (if op.isReceive then s'.packetEnd else if op = .biDiChannel2 then false else opened) s' := by
  by_cases hop : op.isReceive = true
  · have hq : s.q.logon = [] := hw.resolve_right fun h => by rw [h0 hop] at h; cases h.1
    rw [if_pos hop]
    cases op <;> first | cases hop | skip
    rename_i t r
    have h : s.receive e t r = .ok s' := h
    cases receive_case e s s' t r h with
    | plain l d a pc prc h => subst h; exact .inl hq
    | logon l a s2 hp hd hst h3 hc ha ht hcrc h hs hk he =>
      have f := (logon_executeAutomaticLogon e _ a _ r).out _ h
      have g1 : s'.addrs.received = a := by rw [hs]; exact f.received
      have g2 : s'.link.packetEnd = true := by
        rw [hs]
        show s2.link.packetEnd = true
        rw [f.link]
        exact he
      rcases receive_logon e s s' t r hr (by assumption) with hv | ⟨c, -, -, hv⟩
      · exact .inl (by rw [← hq]; exact congrArg LogonView.answer hv)
      · refine .inr ⟨g2, by rw [g1]; exact ht, ?_⟩
        have g3 : s'.q.logon = (logonView s').answer := rfl
        have g4 : s.q.logon = (logonView s).answer := rfl
        rw [g3]
        cases hv with
        | fast g cid session hen hsel hk c1 c2 tr i1 i2 a ha hv => rw [hv]; simp [← g4, hq]
        | enable g cid session hen hsel hk v hv h =>
          rcases h with h | ⟨-, -, m, h, -⟩
          · rw [h, hv]; split <;> simp [← g4, hq]
          · rw [h]; simp
        | select hen has he m hm hv => rw [hv]; simp
        | assign bs hen he a ha m hm hv => rw [hv]; simp
  · rw [if_neg hop]
    have hop : op.isReceive = false := by simpa using hop
    obtain ⟨-, -, -, hq⟩ := other_logon e s s' op h hop
    have hrec := other_received e s s' op h hop
    by_cases h2 : op = .biDiChannel2
    · rw [if_pos h2]
      subst h2
      refine .inl ?_
      rcases hw with hw | ⟨-, h1, h2⟩
      · rcases hq with hq | ⟨-, -, hq⟩ <;> rw [hq, hw] <;> rfl
      · have : s.biDiChannel2 = .ok s.appLogon2 := by unfold Rx.biDiChannel2; rw [h1]
        have h : s.biDiChannel2 = .ok s' := h
        rw [this] at h
        cases h
        unfold Rx.appLogon2
        match hl : s.q.logon, h2 with
        | [], _ => exact hl
        | [d], _ => rfl
    · rw [if_neg h2]
      have hq : s'.q.logon = s.q.logon := hq.resolve_right fun h => h2 h.1
      unfold Waiting
      rw [hq, hrec]
      exact hw

private theorem waiting_run (e : Env) (t rand : Nat) (ops : List RxOp) : ∀ (s s' : Rx) (opened : Bool),
    Reachable e s → Waiting opened s → CutoutsUsed e opened s (ops ++ [.receive t rand]) →
    s.run e ops = .ok s' → s'.q.logon = [] := by
  induction ops with
  | nil =>
    intro s s' opened _ hw hc h
    cases h
    exact hw.resolve_right fun h => by rw [hc.1 rfl] at h; cases h.1
  | cons op ops ih =>
    intro s s' opened hr hw hc h
    have h : (s.step e op >>= fun s1 => s1.run e ops) = .ok s' := h
    rw [bind_eq_ok] at h
    obtain ⟨s1, h1, h2⟩ := h
    exact ih s1 s' _ (hr.step _ h1) (waiting_step e s s1 op opened hr hw hc.1 h1) (hc.2 s1 h1) h2

/-- **C54** If channel 2 is called after every packet, before the next bit is received, then no packet
finds the queue full, in any history of all calls. -/
theorem C54_cutouts_partial (e : Env) (ops : List RxOp) (t rand : Nat) (s : Rx)
    (hc : CutoutsUsed e false {} (ops ++ [.receive t rand])) (h : ({} : Rx).run e ops = .ok s) :
    s.step e (.receive t rand) ≠ .error .assertion := fun hx =>
  (C54_assertion_partial e s (Reachable.of_run h) t rand hx).1
    (waiting_run e t rand ops {} s false .start (.inl rfl) hc h)

/-- Calls with a check of `CutoutsUsed`. -/
def usesCutouts (e : Env) (opened : Bool) (s : Rx) : List RxOp → Bool
  | [] => true
  | op :: ops => (!op.isReceive || !opened) &&
    match s.step e op with
    | .ok s' => usesCutouts e
      (if op.isReceive then s'.packetEnd else if op = .biDiChannel2 then false else opened) s' ops
    | .error _ => true

theorem usesCutouts_spec (e : Env) (ops : List RxOp) : ∀ opened s, usesCutouts e opened s ops = true →
    CutoutsUsed e opened s ops := by
  induction ops with
  | nil => exact fun _ _ _ => trivial
  | cons op ops ih =>
    intro opened s h
    rw [usesCutouts, Bool.and_eq_true] at h
    refine ⟨fun hr => ?_, fun s' hs' => ih _ _ ?_⟩
    · have := h.1
      rw [hr] at this
      simpa using this
    · have := h.2
      rw [hs'] at this
      exact this

/-- A logon with the cutouts used: three answers are transmitted, and a further bit is received. -/
def servedExample : List RxOp :=
  .init :: (hears [254#8, 0xFF#8, 2#8, 1#8, 7#8, 5#8]).dropLast ++ [.biDiChannel1, .biDiChannel2] ++
    (hears (checked [254#8, 0xD0#8, 145#8, 1#8, 2#8, 3#8, 4#8, 0xFF#8])).dropLast ++
    [.biDiChannel1, .biDiChannel2] ++
    (hears (checked [254#8, 0xE0#8, 145#8, 1#8, 2#8, 3#8, 4#8, 0xC3#8, 0xE8#8, 0#8])).dropLast ++
    [.biDiChannel1, .biDiChannel2]

example : usesCutouts logonEnv false {} (servedExample ++ [.receive 58 0]) = true := by decide +kernel

example : holdsAfter (({} : Rx).run logonEnv servedExample) (fun s => s.logon.assigned &&
    decide ((transmitted s.trace).map List.length = [2, 6, 2, 6, 2, 6])) = true := by decide +kernel

end Dcc
