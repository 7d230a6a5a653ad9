import Verif.Lemmas.RxTos
import Verif.Lemmas.RxRecvCase
import Verif.Spec.Logon
/-! What logon packets do. -/
namespace Dcc
open Spec

theorem Reachable.did {e : Env} {s : Rx} (h : Reachable e s) : s.cfg.did.length = 4 := by
  induction h with
  | start => rfl
  | @step s s' op hr hs ih =>
    cases op with
    | init => exact ((frame_init e s).out _ hs).did ih
    | enable =>
      simp only [Rx.step, Rx.enable, Except.ok.injEq] at hs
      subst hs
      split <;> exact ih
    | disable =>
      simp only [Rx.step, Rx.disable, Except.ok.injEq] at hs
      subst hs
      split <;> exact ih
    | receive t r =>
      rw [((receive_frame e s hr.recvInv.room t r).out _ hs).cfg]
      exact ih
    | execute now rand =>
      simp only [Rx.step, bind_eq_ok, pure_eq_ok, Except.ok.injEq] at hs
      obtain ⟨⟨s1, ret⟩, h1, rfl⟩ := hs
      rcases execute_cases e s s1 now rand ret h1 with ⟨-, rfl, -⟩ | ⟨p, rest, s2, s3, -, -, -, f1, -, f2, rfl⟩
      · exact ih
      · exact f2.did (by rw [f1.cfg]; exact ih)
    | datagram ds =>
      obtain ⟨q, b, rfl⟩ := datagram_eq e s s' ds hs
      exact ih
    | biDiChannel1 =>
      simp only [Rx.step, Except.ok.injEq] at hs
      obtain ⟨q, evs, h1⟩ := channel1_eq s
      subst hs
      rw [h1]
      exact ih
    | biDiChannel2 =>
      obtain ⟨q, evs, rfl, -⟩ := channel2_eq s s' hs
      exact ih
    | callbackByte i v =>
      simp only [Rx.step] at hs
      split at hs
      · exact ((frame_callbackByte s _ v).out _ hs).did ih
      · cases hs; exact ih
    | callbackBit i v =>
      simp only [Rx.step] at hs
      split at hs
      · exact ((frame_callbackBit s _ v).out _ hs).did ih
      · cases hs; exact ih

theorem bytesToNat_from (bs : List Byte) : ∀ n, bs.foldl (fun n b => n * 256 + b.toNat) n =
    n * 256 ^ bs.length + number bs := by
  induction bs with
  | nil => intro n; simp [number]
  | cons b bs ih =>
    intro n
    rw [List.foldl_cons, ih, number, List.length_cons, Nat.pow_succ, Nat.add_mul, Nat.mul_assoc,
      Nat.mul_comm 256, Nat.add_assoc]

theorem bytesToNat_number (bs : List Byte) : bytesToNat bs = number bs := by
  rw [bytesToNat, bytesToNat_from]; simp

theorem number_lt (bs : List Byte) : number bs < 256 ^ bs.length := by
  induction bs with
  | nil => simp [number]
  | cons b bs ih =>
    rw [number, List.length_cons, Nat.pow_succ]
    have := b.isLt
    have h : (b.toNat + 1) * 256 ^ bs.length ≤ 256 * 256 ^ bs.length := Nat.mul_le_mul_right _ this
    rw [Nat.add_mul] at h
    omega

theorem carries_id (data : Nat) (m : List Byte) (h : encodeId .b48 15 data = .ok m) :
    Carries m (15 * 2 ^ 44 + data) := by
  obtain ⟨h1, rfl⟩ := encodeId_inv (by decide) h
  exact idBytes_spec .b48 15 data (by decide) h1

theorem carries_data (data : Nat) (m : List Byte) (h : encodeData .b48 data = .ok m) :
    Carries m data := by
  obtain ⟨h1, rfl⟩ := encodeData_inv h
  exact dataBytes_spec .b48 data h1

theorem idWord_eq (e : Env) (s : Rx) (h : s.cfg.did.length = 4) :
    15 * 2 ^ 44 + bytesToNat (e.manufacturerId :: s.cfg.did) = idWord e s := by
  rw [bytesToNat_number, number, h, idWord]
  omega

theorem pushLogon_inv (s s' : Rx) (m : List Byte) (h : s.pushLogon m = .ok s') :
    s.q.logon = [] ∧ s' = { s with q := { s.q with logon := [m] } } := by
  unfold Rx.pushLogon at h
  split at h
  · rename_i hl
    have : s.q.logon = [] := List.eq_nil_of_length_eq_zero (by omega)
    cases h
    exact ⟨this, by rw [this]; rfl⟩
  · cases h

theorem sessionDiff_le (b f : Byte) : sessionDiff b f ≤ 4#32 ↔ f.toNat ≤ b.toNat ∧ b.toNat ≤ f.toNat + 4 := by
  have h1 := b.isLt
  have h2 := f.isLt
  rw [sessionDiff, BitVec.le_def, BitVec.toNat_sub, BitVec.toNat_setWidth, BitVec.toNat_setWidth]
  rw [Nat.mod_eq_of_lt (by omega : b.toNat < 2 ^ 32), Nat.mod_eq_of_lt (by omega : f.toNat < 2 ^ 32)]
  simp only [BitVec.toNat_ofNat]
  omega

/-- The states of logon without the answers. -/
theorem logonAnswer_case (e : Env) (s s' : Rx) (gg : AddressGroup) (rand : Nat)
    (hd : s.cfg.did.length = 4) (h : s.logonAnswer e gg rand = .ok s') :
    logonView s' = logonView s ∨ (gg ≠ .acc ∧ s.q.logon = [] ∧
      ∃ m, logonView s' = { logonView s with answer := [m] } ∧ Carries m (idWord e s)) := by
  unfold Rx.logonAnswer at h
  split at h
  · cases h; exact .inl rfl
  rename_i hg
  dsimp only at h
  generalize (if gg = .now then s.logon.backoff.now else s.logon.backoff).query rand = r at h
  split at h
  · cases h; exact .inl rfl
  rw [bind_eq_ok] at h
  obtain ⟨m, hm, h⟩ := h
  obtain ⟨h1, rfl⟩ := pushLogon_inv _ _ _ h
  refine .inr ⟨hg, h1, m, rfl, ?_⟩
  rw [← idWord_eq e s hd]
  exact carries_id _ m hm

theorem group_acc (b : Byte) : AddressGroup.ofByte b ≠ .acc ↔ b.toNat % 4 ≠ 2 := by
  revert b
  decide +kernel

theorem logonEnable_case (e : Env) (s s' : Rx) (b : Byte) (cid : BitVec 16)
    (session : Byte) (rand : Nat) (hd : s.cfg.did.length = 4)
    (h : s.logonEnable e (AddressGroup.ofByte b) cid session rand = .ok s') :
    logonView s' = logonView s ∨
      LogonStep e s (logonView s') (.enable (b.toNat % 4) cid.toNat session.toNat) := by
  unfold Rx.logonEnable at h
  split at h
  · cases h; exact .inl rfl
  rename_i hg
  simp only [Bool.not_eq_true, Bool.or_eq_false_iff, Bool.not_eq_false'] at hg
  right
  dsimp only at h
  by_cases hc : cid = s.logon.cidFront
  · rw [if_pos hc] at h
    by_cases hs : sessionDiff session s.logon.sessionFront ≤ 4#32
    · rw [if_pos hs, bind_eq_ok] at h
      obtain ⟨a, ha, h⟩ := h
      cases h
      exact .fast _ _ _ hg.1 hg.2 ⟨by rw [hc], (sessionDiff_le ..).mp hs⟩ _ _ _ rfl ⟨rfl, rfl⟩ a ha rfl
    · rw [if_neg hs] at h
      have := logonAnswer_case e _ s' _ rand (by exact hd) h
      refine .enable _ _ _ hg.1 hg.2 (fun hk => hs ((sessionDiff_le ..).mpr hk.2)) _ rfl ?_
      rw [if_pos (by rw [hc])]
      rcases this with h | ⟨h1, h2, h3⟩
      · exact .inl h
      · exact .inr ⟨(group_acc b).mp h1, h2, h3⟩
  · rw [if_neg hc] at h
    have hc' : cid.toNat ≠ s.logon.cidFront.toNat := fun hx => hc (BitVec.eq_of_toNat_eq hx)
    have := logonAnswer_case e _ s' _ rand (by exact hd) h
    refine .enable _ _ _ hg.1 hg.2 (fun hk => hc' hk.1) _ rfl ?_
    rw [if_neg hc']
    rcases this with h | ⟨h1, h2, h3⟩
    · exact .inl h
    · exact .inr ⟨(group_acc b).mp h1, h2, h3⟩

theorem shortInfo_eq (s : Rx) : bytesToNat (shortInfo s.addrs.primary ++ [crc8 (shortInfo s.addrs.primary)]) =
    infoWord s := by
  have h : shortInfo s.addrs.primary = [BitVec.ofNat 8 (128 + s.addrs.primary.value.toNat / 256 % 128),
    BitVec.ofNat 8 (s.addrs.primary.value.toNat % 256), 0#8, 0#8, 0#8] := by
    rw [shortInfo]
    generalize s.addrs.primary.value = v
    congr 1
    · have key : ∀ w : BitVec 8, 0x80#8 ||| w = BitVec.ofNat 8 (128 + w.toNat % 128) := by decide +kernel
      rw [key]
      congr 1
      rw [BitVec.toNat_setWidth, BitVec.toNat_ushiftRight, Nat.shiftRight_eq_div_pow]
      omega
    · congr 1
      apply BitVec.eq_of_toNat_eq
      simp
  rw [bytesToNat_number, infoWord, withCrc, crc8_eq_spec, h]

theorem logonSelect_case (s s' : Rx) (did : List Byte) (e : Env) (h : s.logonSelect did = .ok s') :
    logonView s' = logonView s ∨ LogonStep e s (logonView s') (.select did) := by
  unfold Rx.logonSelect at h
  split at h
  · cases h; exact .inl rfl
  rename_i hg
  simp only [Bool.or_eq_true, Bool.not_eq_true', decide_eq_true_eq, not_or, Bool.not_eq_false,
    Bool.not_eq_true, Decidable.not_not] at hg
  obtain ⟨⟨h1, h2⟩, rfl⟩ := hg
  rw [bind_eq_ok] at h
  obtain ⟨m, hm, h⟩ := h
  obtain ⟨h3, rfl⟩ := pushLogon_inv _ _ _ h
  refine .inr (.select h1 h2 h3 m ?_ rfl)
  rw [← shortInfo_eq]
  exact carries_data _ m hm

theorem assignInfo_eq : bytesToNat (assignInfo ++ [crc8 assignInfo]) = ackWord := by
  rw [bytesToNat_number, crc8_eq_spec]; rfl

theorem logonAssign_case (s s' : Rx) (did : List Byte) (a : Address) (o : Bool)
    (h : s.logonAssign did a o = .ok s') :
    logonView s' = logonView s ∨ (s.cfg.logonEnabled = true ∧ did = s.cfg.did ∧ s.q.logon = [] ∧
      ∃ m, Carries m ackWord ∧ logonView s' = { logonView s with
        assigned := true, store := true, answer := [m], logon := a,
        consist := { s.addrs.consist with value := 0#16 },
        primary := if a.value ≠ 0#16 ∧ o then a else s.addrs.primary }) := by
  unfold Rx.logonAssign at h
  split at h
  · cases h; exact .inl rfl
  rename_i hg
  simp only [Bool.or_eq_true, Bool.not_eq_true', decide_eq_true_eq, not_or, Bool.not_eq_false,
    Decidable.not_not] at hg
  rw [bind_eq_ok] at h
  obtain ⟨m, hm, h⟩ := h
  obtain ⟨h3, rfl⟩ := pushLogon_inv _ _ _ h
  refine .inr ⟨hg.1, hg.2, h3, m, ?_, rfl⟩
  rw [← assignInfo_eq]
  exact carries_data _ m hm

theorem logonAssign_step (s s' : Rx) (e : Env) (did : List Byte) (bs : List Byte) (b : Byte) (rest : List Byte)
    (hbs : bs = b :: rest) (a : Address) (ha : AssignedAddress bs a)
    (h : s.logonAssign did a (b &&& 0xC0#8 != 0xC0#8) = .ok s') :
    logonView s' = logonView s ∨ LogonStep e s (logonView s') (.assign did bs) := by
  rcases logonAssign_case s s' did a _ h with h | ⟨h1, rfl, h2, m, h3, h4⟩
  · exact .inl h
  refine .inr (.assign bs h1 h2 a ha m h3 ?_)
  rw [h4]
  congr 1
  have key : (b &&& 0xC0#8 != 0xC0#8) = true ↔ (bs.head?.any (fun b => b.toNat / 64 ≠ 3)) = true := by
    subst hbs
    clear ha h h4
    simp only [List.head?_cons, Option.any_some]
    revert b
    decide +kernel
  have h0 : a.value ≠ 0#16 ↔ a.value.toNat ≠ 0 :=
    not_congr ⟨fun h => by rw [h]; rfl, fun h => BitVec.eq_of_toNat_eq h⟩
  by_cases hx : a.value.toNat ≠ 0 ∧ (bs.head?.any (fun b => b.toNat / 64 ≠ 3)) = true
  · rw [if_pos hx, if_pos ⟨h0.mpr hx.1, key.mpr hx.2⟩]
  · rw [if_neg hx, if_neg fun hy => hx ⟨h0.mp hy.1, key.mp hy.2⟩]

theorem nib_d (b : Byte) : (b &&& 0xF0#8 = 0xD0#8 ↔ b.toNat / 16 = 13) ∧
    (b &&& 0xF0#8 = 0xE0#8 ↔ b.toNat / 16 = 14) ∧ (b &&& 0xF0#8 = 0xF0#8 ↔ b.toNat / 16 = 15) := by
  revert b
  decide +kernel

theorem low6 (b : Byte) : (b &&& 0x3F#8 < 0x28#8 ↔ b.toNat % 64 < 40) ∧
    (¬ b &&& 0x3F#8 < 0x38#8 → (b &&& 0x3F#8 < 0x39#8 ↔ b.toNat % 64 = 56)) := by
  revert b
  decide +kernel

theorem byteAt_inv {bs : List Byte} {i : Nat} {b : Byte} (h : byteAt bs i = .ok b) :
    i < bs.length ∧ bs.getD i 0#8 = b ∧ bs.drop i = b :: bs.drop (i + 1) := by
  unfold byteAt at h
  split at h
  · rename_i x hx
    cases h
    obtain ⟨h1, h2⟩ := List.getElem?_eq_some_iff.mp hx
    refine ⟨h1, by simp [hx], ?_⟩
    rw [← h2]
    exact List.drop_eq_getElem_cons h1
  · cases h

theorem executeAutomaticLogon_case (e : Env) (s s' : Rx) (a : Address) (b : Byte) (bs : List Byte)
    (rand : Nat) (hd : s.cfg.did.length = 4)
    (h : s.executeAutomaticLogon e a (b :: bs) rand = .ok s') :
    logonView s' = logonView s ∨
      (a.value = 254#16 ∧ ∃ c, logonCommand (254#8 :: b :: bs) = some c ∧ LogonStep e s (logonView s') c) := by
  unfold Rx.executeAutomaticLogon at h
  split at h
  · cases h; exact .inl rfl
  rename_i hv
  rw [Decidable.not_not] at hv
  rw [byteAt_zero, ok_bind] at h
  dsimp only at h
  obtain ⟨k1, k2, k3⟩ := nib_d b
  have hcmd : logonCommand (254#8 :: b :: bs) =
    if b.toNat / 16 = 13 then some (.select ((bs.drop 1).take 4))
    else if b.toNat / 16 = 14 then some (.assign ((bs.drop 1).take 4) (bs.drop 5))
    else if b.toNat / 16 = 15 then
      some (.enable (b.toNat % 4) ((bs.getD 0 0#8).toNat * 256 + (bs.getD 1 0#8).toNat)
        (bs.getD 2 0#8).toNat)
    else none := by
    rw [logonCommand]; exact if_neg (by decide)
  have hdid : ∀ did, didOf (b :: bs) = .ok did → did = (bs.drop 1).take 4 := by
    intro did hx
    unfold didOf at hx
    split at hx
    · cases hx; rfl
    · cases hx
  by_cases h1 : b &&& 0xF0#8 = 0xD0#8
  · rw [if_pos h1, bind_eq_ok] at h
    obtain ⟨did, h2, h⟩ := h
    rw [hcmd, if_pos (k1.mp h1)]
    have := hdid did h2
    subst this
    rcases logonSelect_case s s' _ e h with h | h
    · exact .inl h
    · exact .inr ⟨hv, _, rfl, h⟩
  rw [if_neg h1] at h
  rw [if_neg (fun x => h1 (k1.mpr x))] at hcmd
  by_cases h1 : b &&& 0xF0#8 = 0xE0#8
  · rw [if_pos h1, bind_eq_ok] at h
    obtain ⟨did, h2, h⟩ := h
    rw [bind_eq_ok] at h
    obtain ⟨b6, h3, h⟩ := h
    rw [hcmd, if_pos (k2.mp h1)]
    have := hdid did h2
    subst this
    obtain ⟨-, -, h3⟩ := byteAt_inv h3
    have h3 : bs.drop 5 = b6 :: bs.drop 6 := h3
    obtain ⟨l1, l2⟩ := low6 b6
    split at h
    · rename_i hx
      rw [bind_eq_ok] at h
      obtain ⟨ad, had, h⟩ := h
      rcases logonAssign_step s s' e _ (bs.drop 5) b6 _ h3 ad ⟨b6, _, h3, .inl ⟨l1.mp hx, had⟩⟩ h with h | h
      · exact .inl h
      · exact .inr ⟨hv, _, rfl, h⟩
    split at h
    · cases h; exact .inl rfl
    rename_i hy
    split at h
    · rename_i hx
      rw [bind_eq_ok] at h
      obtain ⟨ad, had, h⟩ := h
      rcases logonAssign_step s s' e _ (bs.drop 5) b6 _ h3 ad ⟨b6, _, h3, .inr ⟨(l2 hy).mp hx, had⟩⟩ h with h | h
      · exact .inl h
      · exact .inr ⟨hv, _, rfl, h⟩
    · cases h; exact .inl rfl
  rw [if_neg h1] at h
  rw [if_neg (fun x => h1 (k2.mpr x))] at hcmd
  by_cases h1 : b &&& 0xF0#8 = 0xF0#8
  · rw [if_pos h1, bind_eq_ok] at h
    obtain ⟨cid, h2, h⟩ := h
    rw [bind_eq_ok] at h
    obtain ⟨se, h3, h⟩ := h
    rw [hcmd, if_pos (k3.mp h1)]
    unfold data2uint16 at h2
    rw [bind_eq_ok] at h2
    obtain ⟨c0, hc0, h2⟩ := h2
    rw [bind_eq_ok] at h2
    obtain ⟨c1, hc1, h2⟩ := h2
    cases h2
    obtain ⟨-, g0, -⟩ := byteAt_inv hc0
    obtain ⟨-, g1, -⟩ := byteAt_inv hc1
    obtain ⟨-, g3, -⟩ := byteAt_inv h3
    have e0 : bs.getD 0 0#8 = c0 := g0
    have e1 : bs.getD 1 0#8 = c1 := g1
    have e3 : bs.getD 2 0#8 = se := g3
    have hcid : (c0.setWidth 16 <<< 8 ||| c1.setWidth 16).toNat = c0.toNat * 256 + c1.toNat := by
      have e0 := c0.isLt
      have e1 := c1.isLt
      rw [BitVec.toNat_or, BitVec.toNat_shiftLeft, BitVec.toNat_setWidth, BitVec.toNat_setWidth,
        Nat.mod_eq_of_lt (by omega : c0.toNat < 2 ^ 16), Nat.mod_eq_of_lt (by omega : c1.toNat < 2 ^ 16),
        Nat.shiftLeft_eq, Nat.mod_eq_of_lt (by omega), Nat.mul_comm c0.toNat,
        ← Nat.two_pow_add_eq_or_of_lt e1]
    rw [e0, e1, e3, ← hcid]
    rcases logonEnable_case e s s' b _ se rand hd h with h | h
    · exact .inl h
    · exact .inr ⟨hv, _, rfl, h⟩
  · rw [if_neg h1] at h
    cases h; exact .inl rfl

/-- What the calls need to know about the state; weaker than to be reachable by whole calls. -/
structure Sound (e : Env) (s : Rx) : Prop where
  recv : RecvInv e s
  did : s.cfg.did.length = 4

theorem Sound.lengths {e : Env} {s : Rx} (hr : Sound e s) : ∀ p ∈ s.deque, 2 ≤ p.length :=
  fun p hp => Nat.le_of_succ_le (hr.recv.valid p hp).1.min

theorem Reachable.sound {e : Env} {s : Rx} (h : Reachable e s) : Sound e s := ⟨h.recvInv, h.did⟩

/-- Any call of `receive`: nothing about logon changes, or a logon packet was complete. -/
theorem Sound.receive_logon (e : Env) (s s' : Rx) (t rand : Nat) (hr : Sound e s)
    (h : s.receive e t rand = .ok s') :
    logonView s' = logonView s ∨ ∃ c, logonAccepted s.link.packet ∧
      logonCommand s.link.packet = some c ∧ LogonStep e s (logonView s') c := by
  cases receive_case e s s' t rand h with
  | plain l d a pc prc h => subst h; exact .inl rfl
  | logon l a s2 hp hd hst h3 hc ha ht hcrc h hs hk =>
    have hl := hr.recv.link
    have hv : logonView s' = logonView s2 := by rw [hs]; rfl
    have h0 : logonView (s.atLogon l a) = logonView s := rfl
    have hsum : exor s.link.packet = 0#8 := by
      rw [← hl.sum (by rw [hst]; rfl), ← hk]; exact hc
    rw [hp] at h3 ha hcrc h
    match hpk : s.link.packet, h3 with
    | x :: b :: bs, h3 =>
      rw [hpk] at ha hcrc h hsum
      have hx : x = 254#8 := by
        have key : ∀ x : Byte, ∀ y z, decodeAddress (x :: b :: y) = .ok z → z.type = .automaticLogon → x = 254#8 := by
          intro x y z h1 h2
          simp only [decodeAddress] at h1
          repeat' split at h1
          all_goals first
            | assumption
            | (cases h1; cases h2)
            | (cases h1)
        exact key x _ a ha ht
      subst hx
      rcases executeAutomaticLogon_case e _ s2 a b bs rand (by exact hr.did) h with h | ⟨-, c, h1, h2⟩
      · exact .inl (hv.trans (h.trans h0))
      · refine .inr ⟨c, ⟨h3, hsum, fun h7 => ?_⟩, h1, ?_⟩
        · rcases hcrc with h8 | h8
          · omega
          · rw [← crc8_eq_spec]; exact h8
        · rw [hv]
          cases h2 with
          | fast g cid session hen hsel hk c1 c2 tr i1 i2 a ha hv =>
            exact .fast g cid session hen hsel hk c1 c2 tr i1 i2 a ha hv
          | enable g cid session hen hsel hk v hv h => exact .enable g cid session hen hsel hk v hv h
          | select hen has he m hm hv => exact .select hen has he m hm hv
          | assign bs hen he a ha m hm hv => exact .assign bs hen he a ha m hm hv

theorem receive_logon (e : Env) (s s' : Rx) (t rand : Nat) (hr : Reachable e s)
    (h : s.receive e t rand = .ok s') :
    logonView s' = logonView s ∨ ∃ c, logonAccepted s.link.packet ∧
      logonCommand s.link.packet = some c ∧ LogonStep e s (logonView s') c :=
  Sound.receive_logon e s s' t rand hr.sound h

end Dcc
