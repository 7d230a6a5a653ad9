import Verif.Props.RxLogon
import Verif.Lemmas.RxTosExact
/-!
C52: exactly which LOGON_ENABLE packets are answered.
-/
namespace Dcc
open Spec

/-- Unless the duration completes a packet, `receive` leaves logon alone. -/
theorem receive_incomplete (e : Env) (s s' : Rx) (t rand : Nat) (hr : Reachable e s)
    (h : s.receive e t rand = .ok s') (hc : ¬ Completes e s t) : s'.logon = s.logon := by
  have bit : ∀ (x : Rx) (b : Bool), x.logon = s.logon → x.link.state = s.link.state →
      (s.link.state = .endbit → b = false) → x.receiveBit e b rand = .ok s' → s'.logon = s.logon := by
    intro x b hx hst hb h
    unfold Rx.receiveBit at h
    dsimp only at h
    split at h
    · repeat' split at h
      all_goals (cases h; exact hx)
    · cases h; exact hx
    · split at h
      · cases h; exact hx
      · rw [bind_eq_ok] at h
        obtain ⟨q, -, h⟩ := h
        cases h; exact hx
    · rename_i hs
      rw [hb (by rw [← hst]; exact hs)] at h
      cases h; exact hx
  unfold Rx.receive at h
  dsimp only at h
  have key : ∀ b : Bool, (b = true → 52 ≤ t ∧ t ≤ 64) → (if s.link.state.halves && !s.link.isHalfbit then
      .ok { s with link := { s.link with packetEnd := false, isHalfbit := true } }
    else
      let s := if s.link.state.halves then
          { s with link := { s.link with packetEnd := false, isHalfbit := false } }
        else { s with link := { s.link with packetEnd := false } }
      if s.deque.length = e.rxDeque then .ok s.reset
      else s.receiveBit e b rand : R Rx) = .ok s' → s'.logon = s.logon := by
    intro b hb h
    split at h
    · cases h; rfl
    rename_i hh
    dsimp only at h
    have hd : ∀ x : Rx, x.deque = s.deque → (if x.deque.length = e.rxDeque then .ok x.reset
        else x.receiveBit e b rand : R Rx) = .ok s' → x.logon = s.logon → x.link.state = s.link.state →
        s'.logon = s.logon := by
      intro x hx h h1 h2
      split at h
      · cases h; exact h1
      rename_i hn
      rw [hx] at hn
      have hroom := hr.recvInv.room
      refine bit x b h1 h2 (fun he => ?_) h
      cases b with
      | false => rfl
      | true =>
        refine absurd ⟨he, ?_, hb rfl, by omega⟩ hc
        rw [he] at hh
        simpa [LinkState.halves] using hh
    split at h
    · exact hd { s with link := { s.link with packetEnd := false, isHalfbit := false } } rfl h rfl rfl
    · exact hd { s with link := { s.link with packetEnd := false } } rfl h rfl rfl
  cases hb : time2bit t <;> rw [hb] at h <;> dsimp only at h
  · exact key _ (by simp) h
  · refine key _ (fun _ => ?_) h
    unfold time2bit at hb
    split at hb
    · assumption
    · split at hb <;> cases hb
  · cases h; rfl

private theorem groups (b : Byte) : (AddressGroup.ofByte b = .acc ↔ b.toNat % 4 = 2) ∧
    (AddressGroup.ofByte b = .now ↔ b.toNat % 4 = 3) := by
  revert b
  decide +kernel

private theorem word_toNat (c0 c1 : Byte) :
    (c0.setWidth 16 <<< 8 ||| c1.setWidth 16).toNat = c0.toNat * 256 + c1.toNat := by
  have e0 := c0.isLt
  have e1 := c1.isLt
  rw [BitVec.toNat_or, BitVec.toNat_shiftLeft, BitVec.toNat_setWidth, BitVec.toNat_setWidth,
    Nat.mod_eq_of_lt (by omega : c0.toNat < 2 ^ 16), Nat.mod_eq_of_lt (by omega : c1.toNat < 2 ^ 16),
    Nat.shiftLeft_eq, Nat.mod_eq_of_lt (by omega), Nat.mul_comm c0.toNat,
    ← Nat.two_pow_add_eq_or_of_lt e1]

/-- What `logonAnswer` does, with the backoff of the reference. -/
theorem logonAnswer_exact (e : Env) (s : Rx) (b : Byte) (rand : Nat) (p : Pause)
    (hd : s.cfg.did.length = 4) (hp : PauseIs p s.logon.backoff) (hq : s.q.logon = []) :
    ∃ s', s.logonAnswer e (AddressGroup.ofByte b) rand = .ok s' ∧
      PauseIs (p.enable (b.toNat % 4) rand).1 s'.logon.backoff ∧
      if (p.enable (b.toNat % 4) rand).2 = true then s'.q.logon = []
      else ∃ m, Carries m (idWord e s) ∧ s'.q.logon = [m] := by
  unfold Rx.logonAnswer Pause.enable
  by_cases h2 : b.toNat % 4 = 2
  · rw [if_pos ((groups b).1.mpr h2), if_pos h2]
    exact ⟨s, rfl, hp, by rw [if_pos rfl]; exact hq⟩
  rw [if_neg (fun h => h2 ((groups b).1.mp h)), if_neg h2]
  have key : ∀ (p : Pause) (bo : Backoff), PauseIs p bo → ∃ s',
      (let (b, back) := bo.query rand
      let s := { s with logon := { s.logon with backoff := b } }
      if back then .ok s
      else do
        s.pushLogon (← encodeId .b48 15 (bytesToNat (e.manufacturerId :: s.cfg.did))) : R Rx) = .ok s' ∧
      PauseIs (p.query rand).1 s'.logon.backoff ∧
      if (p.query rand).2 = true then s'.q.logon = []
      else ∃ m, Carries m (idWord e s) ∧ s'.q.logon = [m] := by
    intro p bo hp
    obtain ⟨h1, h3⟩ := hp.query rand
    rw [← h3]
    generalize bo.query rand = r at h1
    obtain ⟨bo', back⟩ := r
    dsimp only at h1 ⊢
    cases back with
    | true => exact ⟨_, rfl, h1, by rw [if_pos rfl]; exact hq⟩
    | false =>
      obtain ⟨m, hm, he⟩ := id_fits e s hd
      rw [if_neg (by decide), he, ok_bind, pushLogon_ok _ _ (by exact hq)]
      exact ⟨_, rfl, h1, by rw [if_neg (by decide)]; exact ⟨m, hm, rfl⟩⟩
  by_cases h3 : b.toNat % 4 = 3
  · rw [if_pos ((groups b).2.mpr h3), if_pos h3]
    exact key {} _ (.now _)
  · rw [if_neg (fun h => h3 ((groups b).2.mp h)), if_neg h3]
    exact key p _ hp

/-- The reference follows the backoff in `logonAnswer`. -/
theorem logonAnswer_pause (e : Env) (s s' : Rx) (b : Byte) (rand : Nat) (p : Pause)
    (hp : PauseIs p s.logon.backoff) (h : s.logonAnswer e (AddressGroup.ofByte b) rand = .ok s') :
    PauseIs (p.enable (b.toNat % 4) rand).1 s'.logon.backoff := by
  unfold Rx.logonAnswer at h
  unfold Pause.enable
  by_cases h2 : b.toNat % 4 = 2
  · rw [if_pos ((groups b).1.mpr h2)] at h
    cases h
    rw [if_pos h2]
    exact hp
  rw [if_neg (fun h => h2 ((groups b).1.mp h))] at h
  rw [if_neg h2]
  have hq : PauseIs (if b.toNat % 4 = 3 then {} else p)
      (if AddressGroup.ofByte b = .now then s.logon.backoff.now else s.logon.backoff) := by
    by_cases h3 : b.toNat % 4 = 3
    · rw [if_pos ((groups b).2.mpr h3), if_pos h3]; exact .now _
    · rw [if_neg (fun h => h3 ((groups b).2.mp h)), if_neg h3]; exact hp
  dsimp only at h
  generalize (if AddressGroup.ofByte b = .now then s.logon.backoff.now else s.logon.backoff) = bo at h hq
  have := (hq.query rand).1
  generalize bo.query rand = r at h this
  split at h
  · cases h; exact this
  · rw [bind_eq_ok] at h
    obtain ⟨m, -, h⟩ := h
    obtain ⟨-, rfl⟩ := pushLogon_inv _ _ _ h
    exact this

/-- A LOGON_ENABLE to be considered. -/
theorem enabling_iff {e : Env} {s : Rx} {t rand g : Nat} (h : enabling e s (.receive t rand) = some g) :
    Completes e s t ∧ logonAccepted s.link.packet ∧ 5 ≤ s.link.packet.length ∧
      s.cfg.logonEnabled = true ∧ s.logon.selected = false ∧ ∃ cid session,
        logonCommand s.link.packet = some (.enable g cid session) ∧ ¬ KnownSession s cid session := by
  unfold enabling at h
  dsimp only at h
  split at h
  · rename_i hc
    refine ⟨hc.1, hc.2.1, hc.2.2.1, hc.2.2.2.1, hc.2.2.2.2, ?_⟩
    split at h
    · rename_i g' cid session hcmd
      split at h
      · cases h
      · cases h
        exact ⟨cid, session, hcmd, by assumption⟩
    · cases h
  · cases h

/-- How `receive` comes to `logonAnswer`. -/
theorem receive_enabling (e : Env) (s : Rx) (t rand g : Nat) (hr : Reachable e s)
    (h : enabling e s (.receive t rand) = some g) : ∃ (b : Byte) (x : Rx), b.toNat % 4 = g ∧ x.cfg = s.cfg ∧
      x.q = s.q ∧ x.logon.backoff = s.logon.backoff ∧
      s.receive e t rand = (x.logonAnswer e (AddressGroup.ofByte b) rand).map Rx.reset := by
  obtain ⟨hc, ha, h5, hen, hsel, cid, session, hcmd, hk⟩ := enabling_iff h
  obtain ⟨b, bs, hp⟩ := packet_cons hcmd
  obtain ⟨l, -, hrec⟩ := receive_completes e s t rand hc hr b bs hp ha
  rw [hp] at h5
  match bs, h5 with
  | c0 :: c1 :: se :: more, h5 =>
  have hs : b.toNat / 16 = 15 ∧ b.toNat % 4 = g ∧ c0.toNat * 256 + c1.toNat = cid ∧ se.toNat = session := by
    rw [hp, logonCommand, if_neg (by decide)] at hcmd
    split at hcmd
    · cases hcmd
    · split at hcmd
      · cases hcmd
      · split at hcmd
        · rename_i h
          simp only [Option.some.injEq, LogonCommand.enable.injEq] at hcmd
          exact ⟨h, hcmd⟩
        · cases hcmd
  obtain ⟨hs1, hs2, hs3, hs4⟩ := hs
  have d0 : data2uint16 ((b :: c0 :: c1 :: se :: more).drop 1) = .ok (c0.setWidth 16 <<< 8 ||| c1.setWidth 16) := rfl
  have d1 : byteAt (b :: c0 :: c1 :: se :: more) 3 = .ok se := rfl
  rw [Rx.executeAutomaticLogon, if_neg (by decide), byteAt_zero, ok_bind] at hrec
  dsimp only at hrec
  rw [if_neg (fun h => by have := (nib_d b).1.mp h; omega),
    if_neg (fun h => by have := (nib_d b).2.1.mp h; omega), if_pos ((nib_d b).2.2.mpr hs1), d0, ok_bind,
    d1, ok_bind, Rx.logonEnable, if_neg (by simp [Rx.atLogon, hen, hsel])] at hrec
  dsimp only at hrec
  split at hrec
  · rename_i hcf
    rw [if_neg] at hrec
    · refine ⟨b, _, hs2, ?_, ?_, ?_, hrec⟩ <;> rfl
    · intro hle
      refine hk ⟨?_, ?_⟩
      · rw [← hs3, ← word_toNat, hcf]; rfl
      · rw [← hs4]
        exact (sessionDiff_le ..).mp hle
  · refine ⟨b, _, hs2, ?_, ?_, ?_, hrec⟩ <;> rfl

/-- Packets other than such LOGON_ENABLE leave the backoff alone. -/
theorem executeAutomaticLogon_backoff (e : Env) (s s' : Rx) (a : Address) (b : Byte) (bs : List Byte)
    (rand : Nat) (h : s.executeAutomaticLogon e a (b :: bs) rand = .ok s') :
    s'.logon.backoff = s.logon.backoff ∨ (s.cfg.logonEnabled = true ∧ s.logon.selected = false ∧
      3 ≤ bs.length ∧ ∃ g cid session, logonCommand (254#8 :: b :: bs) = some (.enable g cid session) ∧
        ¬ KnownSession s cid session) := by
  have sel : ∀ d, s.logonSelect d = .ok s' → s'.logon.backoff = s.logon.backoff := by
    intro d h
    unfold Rx.logonSelect at h
    split at h
    · cases h; rfl
    · rw [bind_eq_ok] at h
      obtain ⟨m, -, h⟩ := h
      obtain ⟨-, rfl⟩ := pushLogon_inv _ _ _ h
      rfl
  have asg : ∀ d a o, s.logonAssign d a o = .ok s' → s'.logon.backoff = s.logon.backoff := by
    intro d a o h
    unfold Rx.logonAssign at h
    split at h
    · cases h; rfl
    · rw [bind_eq_ok] at h
      obtain ⟨m, -, h⟩ := h
      obtain ⟨-, rfl⟩ := pushLogon_inv _ _ _ h
      rfl
  unfold Rx.executeAutomaticLogon at h
  split at h
  · cases h; exact .inl rfl
  rw [byteAt_zero, ok_bind] at h
  dsimp only at h
  split at h
  · rw [bind_eq_ok] at h
    obtain ⟨d, -, h⟩ := h
    exact .inl (sel d h)
  rename_i k1
  split at h
  · rw [bind_eq_ok] at h
    obtain ⟨d, -, h⟩ := h
    rw [bind_eq_ok] at h
    obtain ⟨b6, -, h⟩ := h
    left
    repeat' split at h
    all_goals first
      | (cases h; rfl)
      | (rw [bind_eq_ok] at h; obtain ⟨ad, -, h⟩ := h; exact asg _ _ _ h)
  rename_i k2
  split at h
  · rename_i k3
    rw [bind_eq_ok] at h
    obtain ⟨cid, h2, h⟩ := h
    rw [bind_eq_ok] at h
    obtain ⟨se, h3, h⟩ := h
    unfold data2uint16 at h2
    rw [bind_eq_ok] at h2
    obtain ⟨c0, hc0, h2⟩ := h2
    rw [bind_eq_ok] at h2
    obtain ⟨c1, hc1, h2⟩ := h2
    cases h2
    obtain ⟨-, g0, -⟩ := byteAt_inv hc0
    obtain ⟨-, g1, -⟩ := byteAt_inv hc1
    obtain ⟨g2, g3, -⟩ := byteAt_inv h3
    have e0 : bs.getD 0 0#8 = c0 := g0
    have e1 : bs.getD 1 0#8 = c1 := g1
    have e3 : bs.getD 2 0#8 = se := g3
    unfold Rx.logonEnable at h
    split at h
    · cases h; exact .inl rfl
    rename_i hg
    simp only [Bool.not_eq_true, Bool.or_eq_false_iff, Bool.not_eq_false'] at hg
    have hcmd : logonCommand (254#8 :: b :: bs) =
        some (.enable (b.toNat % 4) (c0.toNat * 256 + c1.toNat) se.toNat) := by
      rw [logonCommand, if_neg (by decide), if_neg (fun h => k1 ((nib_d b).1.mpr h)),
        if_neg (fun h => k2 ((nib_d b).2.1.mpr h)), if_pos ((nib_d b).2.2.mp k3), e0, e1, e3]
    dsimp only at h
    by_cases hk : KnownSession s (c0.toNat * 256 + c1.toNat) se.toNat
    · left
      rw [if_pos, if_pos, bind_eq_ok] at h
      · obtain ⟨a, -, h⟩ := h
        cases h; rfl
      · exact (sessionDiff_le ..).mpr hk.2
      · exact BitVec.eq_of_toNat_eq (by rw [word_toNat]; exact hk.1)
    · refine .inr ⟨hg.1, hg.2, ?_, _, _, _, hcmd, hk⟩
      simp only [List.length_cons] at g2
      omega
  · cases h; exact .inl rfl

/-- The reference follows the backoff of logon. -/
theorem logon_pause (e : Env) (s s' : Rx) (op : RxOp) (p : Pause) (hr : Reachable e s)
    (hp : PauseIs p s.logon.backoff) (h : s.step e op = .ok s') :
    PauseIs (p.logon e s op) s'.logon.backoff := by
  have same : enabling e s op = none → s'.logon.backoff = s.logon.backoff →
      PauseIs (p.logon e s op) s'.logon.backoff := by
    intro h1 h2
    unfold Pause.logon
    rw [h1, h2]
    exact hp
  cases op with
  | init => exact same rfl ((frame_init e s).out _ h).backoff
  | enable =>
    refine same rfl ?_
    simp only [Rx.step, Rx.enable, Except.ok.injEq] at h
    subst h
    split <;> rfl
  | disable =>
    refine same rfl ?_
    simp only [Rx.step, Rx.disable, Except.ok.injEq] at h
    subst h
    split <;> rfl
  | receive t rand =>
    have h : s.receive e t rand = .ok s' := h
    cases hen : enabling e s (.receive t rand) with
    | some g =>
      unfold Pause.logon
      rw [hen]
      dsimp only
      obtain ⟨b, x, hb, h1, h2, h3, h4⟩ := receive_enabling e s t rand g hr hen
      subst hb
      rw [h4] at h
      rw [← h3] at hp
      cases hx : x.logonAnswer e (AddressGroup.ofByte b) rand with
      | error f => rw [hx] at h; cases h
      | ok y =>
        rw [hx] at h
        cases h
        exact logonAnswer_pause e x y b rand p hp hx
    | none =>
      refine same hen ?_
      by_cases hc : Completes e s t
      · cases receive_case e s s' t rand h with
        | plain l d a pc prc h => subst h; rfl
        | logon l a s2 hp hd hst h3 hc' ha ht hcrc h hs hk =>
          have hsum : exor s.link.packet = 0#8 := by
            rw [← hr.recvInv.link.sum (by rw [hst]; rfl), ← hk]; exact hc'
          rw [hp] at h3 ha hcrc h
          match hpk : s.link.packet, h3 with
          | x :: b :: bs, h3 =>
            rw [hpk] at ha hcrc h hsum
            have hx : x = 254#8 := by
              have key : ∀ x : Byte, ∀ y z, decodeAddress (x :: b :: y) = .ok z → z.type = .automaticLogon →
                  x = 254#8 := by
                intro x y z h1 h2
                simp only [decodeAddress] at h1
                repeat' split at h1
                all_goals first
                  | assumption
                  | (cases h1; cases h2)
                  | (cases h1)
              exact key x _ a ha ht
            subst hx
            rcases executeAutomaticLogon_backoff e _ s2 a b bs rand h with h1 | ⟨h1, h2, h4, g, cid, se, h5, h6⟩
            · rw [hs]; exact h1
            · exfalso
              unfold enabling at hen
              dsimp only at hen
              rw [if_pos, hpk, h5] at hen
              · dsimp only at hen
                rw [if_neg (show ¬ KnownSession s cid se from h6)] at hen
                cases hen
              · refine ⟨hc, ?_, ?_, h1, h2⟩
                · rw [hpk]
                  refine ⟨h3, hsum, fun h7 => ?_⟩
                  rcases hcrc with h8 | h8
                  · omega
                  · rw [← crc8_eq_spec]; exact h8
                · rw [hpk]; simp only [List.length_cons]; omega
      · rw [receive_incomplete e s s' t rand hr h hc]
  | execute now rand =>
    refine same rfl ?_
    simp only [Rx.step, bind_eq_ok, pure_eq_ok, Except.ok.injEq] at h
    obtain ⟨⟨s1, ret⟩, h1, rfl⟩ := h
    rcases execute_cases e s s1 now rand ret h1 with ⟨-, rfl, -⟩ | ⟨p, rest, s2, s3, -, -, -, f1, -, f2, rfl⟩
    · rfl
    · exact f2.backoff.trans f1.backoff
  | datagram ds =>
    obtain ⟨q, b, rfl⟩ := datagram_eq e s s' ds h
    exact same rfl rfl
  | biDiChannel1 =>
    simp only [Rx.step, Except.ok.injEq] at h
    obtain ⟨q, evs, h1⟩ := channel1_eq s
    subst h
    exact same rfl (by rw [h1])
  | biDiChannel2 =>
    obtain ⟨q, evs, rfl, -⟩ := channel2_eq s s' h
    exact same rfl rfl
  | callbackByte i v =>
    refine same rfl ?_
    simp only [Rx.step] at h
    split at h
    · exact ((frame_callbackByte s _ v).out _ h).backoff
    · cases h; rfl
  | callbackBit i v =>
    refine same rfl ?_
    simp only [Rx.step] at h
    split at h
    · exact ((frame_callbackBit s _ v).out _ h).backoff
    · cases h; rfl

theorem logonPause_run (e : Env) (ops : List RxOp) : ∀ (s s' : Rx) (p : Pause), Reachable e s →
    PauseIs p s.logon.backoff → s.run e ops = .ok s' → PauseIs (logonPause e s p ops) s'.logon.backoff := by
  induction ops with
  | nil => intro s s' p _ hp h; cases h; exact hp
  | cons op ops ih =>
    intro s s' p hr hp h
    rw [Rx.run, bind_eq_ok] at h
    obtain ⟨s1, h1, h⟩ := h
    rw [logonPause, h1]
    exact ih s1 s' _ (hr.step op h1) (logon_pause e s s1 op p hr hp h1) h

/-- **C52** Exactly which LOGON_ENABLE packets are answered: in every history a LOGON_ENABLE the decoder
has to consider, without an answer waiting, is answered with the ID if and only if it is not for
accessory decoders and the reference backoff, that has been asked by all of them before, allows it. -/
theorem C52_enable_exact (e : Env) (ops : List RxOp) (s : Rx) (t rand g : Nat)
    (h : ({} : Rx).run e ops = .ok s) (hg : enabling e s (.receive t rand) = some g) (hq : s.q.logon = []) :
    ∃ s', s.step e (.receive t rand) = .ok s' ∧
      if ((logonPause e {} {} ops).enable g rand).2 = true then s'.q.logon = []
      else ∃ m, Carries m (idWord e s) ∧ s'.q.logon = [m] := by
  have hr : Reachable e s := Reachable.of_run h
  have hp := logonPause_run e ops {} s {} .start .fresh h
  obtain ⟨b, x, hb, h1, h2, h3, h4⟩ := receive_enabling e s t rand g hr hg
  subst hb
  obtain ⟨y, h5, -, h6⟩ := logonAnswer_exact e x b rand _ (by rw [h1]; exact hr.did) (by rw [h3]; exact hp)
    (by rw [h2]; exact hq)
  refine ⟨y.reset, ?_, ?_⟩
  · show s.receive e t rand = _
    rw [h4, h5]; rfl
  · have hw : idWord e x = idWord e s := by unfold idWord; rw [h1]
    rw [hw] at h6
    exact h6

/-- Three LOGON_ENABLE for all decoders: the first is answered and draws a pause of one packet, so the
second is not answered, the third is. -/
def pauseExample : List RxOp :=
  .init :: (hears [254#8, 0xFC#8, 2#8, 1#8, 7#8, 6#8]).map (fun
    | .receive t _ => .receive t 1
    | op => op) ++ [.biDiChannel1, .biDiChannel2] ++
    hears [254#8, 0xFC#8, 2#8, 1#8, 7#8, 6#8] ++ [.biDiChannel1, .biDiChannel2] ++
    lastHalf [254#8, 0xFC#8, 2#8, 1#8, 7#8, 6#8]

example : holdsAfter (({} : Rx).run logonEnv pauseExample) (fun s =>
    decide (enabling logonEnv s (.receive 58 0) = some 0) && decide (s.q.logon = []) &&
    decide (((logonPause logonEnv {} {} pauseExample).enable 0 0).2 = false) &&
    decide ((transmitted s.trace).map List.length = [2, 6])) = true := by decide +kernel

/-- The second LOGON_ENABLE has to be ignored. -/
example : let ops := .init :: (hears [254#8, 0xFC#8, 2#8, 1#8, 7#8, 6#8]).map (fun
      | .receive t _ => .receive t 1
      | op => op) ++ [.biDiChannel1, .biDiChannel2] ++ lastHalf [254#8, 0xFC#8, 2#8, 1#8, 7#8, 6#8]
    holdsAfter (({} : Rx).run logonEnv ops) (fun s =>
      decide (enabling logonEnv s (.receive 58 0) = some 0) && decide (s.q.logon = []) &&
      decide (((logonPause logonEnv {} {} ops).enable 0 0).2 = true)) = true := by decide +kernel

end Dcc
