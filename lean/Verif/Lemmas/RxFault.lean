import Verif.Lemmas.RxLogonCase
import Verif.Props.Address
/-! The faults of `receive`. -/
namespace Dcc
open Spec

theorem bind_eq_error {α β} {x : R α} {f : α → R β} {g : Fault} :
    x >>= f = .error g ↔ x = .error g ∨ ∃ a, x = .ok a ∧ f a = .error g := by
  cases x with
  | ok a => simp [ok_bind]
  | error k => simp [error_bind]

/-- What the faults of `receive` can be: an overflow of the packet buffer, or a fault while executing a
logon packet. -/
inductive RecvFault (e : Env) (s : Rx) (rand : Nat) (f : Fault) : Prop
  | overflow (hst : s.link.state = .data) (hl : maxPacketSize ≤ s.link.packet.length)
      (hf : f = .overflow)
  | logon (l : Link) (a : Address) (hp : l.packet = s.link.packet) (hst : s.link.state = .endbit)
      (h3 : 3 ≤ l.packet.length) (hc : s.link.checksum = 0#8)
      (ha : decodeAddress l.packet = .ok a) (ht : a.type = .automaticLogon)
      (hcrc : l.packet.length ≤ 7 ∨ crc8Packet l.packet = 0#8)
      (h : (s.atLogon l a).executeAutomaticLogon e a (l.packet.drop 1) rand = .error f)

theorem pushBack_error {n : Nat} {α} {q : List α} {x : α} {f : Fault} (h : pushBack n q x = .error f) :
    n ≤ q.length ∧ f = .overflow := by
  unfold pushBack at h
  split at h
  · cases h
  · cases h; exact ⟨by omega, rfl⟩

theorem decode_long_enough (p : List Byte) (h : 2 ≤ p.length) : ∃ a, decodeAddress p = .ok a := by
  match p, h with
  | b :: c :: rest, _ =>
    obtain ⟨a, h, -⟩ := C03_decode_class b c rest
    exact ⟨a, h⟩

theorem endOfPacket_fault (e : Env) (s : Rx) (rand : Nat) (f : Fault) (hst : s.link.state = .endbit)
    (hd : s.deque.length < e.rxDeque) (h : s.endOfPacket e rand = .error f) :
    RecvFault e s rand f := by
  unfold Rx.endOfPacket at h
  split at h
  · rename_i hc
    rw [bind_eq_error] at h
    rcases h with h | ⟨a, ha, h⟩
    · obtain ⟨a, ha⟩ := decode_long_enough s.link.packet (by omega)
      dsimp only at h
      rw [ha] at h
      cases h
    dsimp only at ha h
    unfold Rx.executeHandlerMode at h
    dsimp only at h
    by_cases ht : a.type ≠ .automaticLogon
    · rw [if_pos ht, ok_bind] at h
      dsimp only at h
      rw [if_neg Bool.false_ne_true, bind_eq_error] at h
      rcases h with h | ⟨q, -, h⟩
      · have := (pushBack_error h).1
        omega
      · cases h
    · rw [if_neg ht] at h
      by_cases hcrc : s.link.packet.length ≤ 7 ∨ crc8Packet s.link.packet = 0#8
      · rw [if_pos hcrc, bind_assoc, bind_eq_error] at h
        rcases h with h | ⟨s2, h2, h⟩
        · exact .logon { s.link with packetEnd := true } a rfl hst hc.2 hc.1 ha (by simpa using ht) hcrc h
        · simp only [pure_eq_ok, ok_bind, if_pos] at h
          cases h
      · rw [if_neg hcrc, ok_bind] at h
        dsimp only at h
        rw [if_pos rfl] at h
        cases h
  · cases h

theorem receiveBit_fault (e : Env) (s : Rx) (bit : Bool) (rand : Nat) (f : Fault)
    (hd : s.deque.length < e.rxDeque) (h : s.receiveBit e bit rand = .error f) :
    RecvFault e s rand f := by
  unfold Rx.receiveBit at h
  dsimp only at h
  split at h
  · repeat' split at h
    all_goals cases h
  · cases h
  · rename_i hst
    split at h
    · cases h
    · rw [bind_eq_error] at h
      rcases h with h | ⟨q, -, h⟩
      · obtain ⟨h1, h2⟩ := pushBack_error h
        exact .overflow hst h1 h2
      · cases h
  · rename_i hst
    split at h
    · cases h
    · rw [bind_eq_error] at h
      rcases h with h | ⟨s2, -, h⟩
      · exact endOfPacket_fault e s rand f hst hd h
      · cases h

theorem RecvFault.link {e : Env} {s : Rx} {rand : Nat} {f : Fault} (l : Link)
    (hk : l.checksum = s.link.checksum) (hp : l.packet = s.link.packet) (hst : l.state = s.link.state)
    (h : RecvFault e { s with link := l } rand f) : RecvFault e s rand f := by
  cases h with
  | overflow h1 h2 h3 => exact .overflow (hst.symm.trans h1) (by rw [← hp]; exact h2) h3
  | logon l' a hp' hst' h3 hc ha ht hcrc h =>
    exact .logon l' a (hp'.trans hp) (hst.symm.trans hst') h3 (hk.symm.trans hc) ha ht hcrc h

theorem receive_fault (e : Env) (s : Rx) (t rand : Nat) (f : Fault) (hd : s.deque.length ≤ e.rxDeque)
    (h : s.receive e t rand = .error f) : RecvFault e s rand f := by
  have key : ∀ b : Bool, (if s.link.state.halves && !s.link.isHalfbit then
      .ok { s with link := { s.link with packetEnd := false, isHalfbit := true } }
    else
      let s := if s.link.state.halves then
          { s with link := { s.link with packetEnd := false, isHalfbit := false } }
        else { s with link := { s.link with packetEnd := false } }
      if s.deque.length = e.rxDeque then .ok s.reset
      else s.receiveBit e b rand : R Rx) = .error f → RecvFault e s rand f := by
    intro b h
    split at h
    · cases h
    · dsimp only at h
      by_cases hh : s.link.state.halves = true
      · rw [if_pos hh] at h
        dsimp only at h
        split at h
        · cases h
        · rename_i hd'
          refine RecvFault.link { s.link with packetEnd := false, isHalfbit := false } rfl rfl rfl ?_
          exact receiveBit_fault e _ b rand f (Nat.lt_of_le_of_ne hd hd') h
      · rw [if_neg hh] at h
        dsimp only at h
        split at h
        · cases h
        · rename_i hd'
          refine RecvFault.link { s.link with packetEnd := false } rfl rfl rfl ?_
          exact receiveBit_fault e _ b rand f (Nat.lt_of_le_of_ne hd hd') h
  unfold Rx.receive at h
  dsimp only at h
  cases hb : time2bit t <;> rw [hb] at h <;> dsimp only at h
  all_goals first
    | exact key _ h
    | cases h

/-! ### Faults of logon packets -/

theorem byteAt_error {bs : List Byte} {i : Nat} {f : Fault} (h : byteAt bs i = .error f) :
    bs.length ≤ i ∧ f = .oob := by
  unfold byteAt at h
  split at h
  · cases h
  · rename_i h1
    cases h
    exact ⟨List.getElem?_eq_none_iff.mp h1, rfl⟩

private theorem three_cons : ∀ bs : List Byte, ¬ bs.length < 3 →
    ∃ c0 c1 se more, bs = c0 :: c1 :: se :: more
  | c0 :: c1 :: se :: more, _ => ⟨c0, c1, se, more, rfl⟩
  | [], hb => absurd (by simp) hb
  | [_], hb => absurd (by simp) hb
  | [_, _], hb => absurd (by simp) hb

theorem data2uint16_error {bs : List Byte} {f : Fault} (h : data2uint16 bs = .error f) : f = .oob := by
  unfold data2uint16 at h
  rw [bind_eq_error] at h
  rcases h with h | ⟨_, -, h⟩
  · exact (byteAt_error h).2
  rw [bind_eq_error] at h
  rcases h with h | ⟨_, -, h⟩
  · exact (byteAt_error h).2
  · cases h

theorem decodeAddress_error {bs : List Byte} {f : Fault} (h : decodeAddress bs = .error f) :
    bs.length ≤ 1 ∧ f = .oob := by
  match bs, h with
  | [], h => cases h; exact ⟨by decide, rfl⟩
  | [b], h =>
    simp only [decodeAddress] at h
    repeat' split at h
    all_goals cases h
    exact ⟨by simp, rfl⟩
  | b :: c :: rest, h =>
    obtain ⟨a, ha⟩ := decode_long_enough (b :: c :: rest) (by simp)
    rw [ha] at h
    cases h

theorem pushLogon_error {s : Rx} {d : List Byte} {f : Fault} (h : s.pushLogon d = .error f) :
    s.q.logon ≠ [] ∧ f = .assertion := by
  unfold Rx.pushLogon at h
  split at h
  · cases h
  · rename_i h1
    cases h
    exact ⟨fun hx => h1 (by rw [hx]; decide), rfl⟩

private theorem logonAnswer_fault (e : Env) (s : Rx) (b : Byte) (rand : Nat) (f : Fault)
    (hd : s.cfg.did.length = 4) (h : s.logonAnswer e (AddressGroup.ofByte b) rand = .error f) :
    f = .assertion ∧ s.q.logon ≠ [] ∧ b.toNat % 4 ≠ 2 := by
  unfold Rx.logonAnswer at h
  split at h
  · cases h
  rename_i hg
  dsimp only at h
  generalize (if AddressGroup.ofByte b = .now then s.logon.backoff.now else s.logon.backoff).query rand = r at h
  split at h
  · cases h
  rw [bind_eq_error] at h
  rcases h with h | ⟨m, hm, h⟩
  · have hl := number_lt (e.manufacturerId :: s.cfg.did)
    rw [List.length_cons, hd] at hl
    have := encodeId_ok .b48 15 (bytesToNat (e.manufacturerId :: s.cfg.did)) (by decide)
      (show _ < 2 ^ 44 by rw [bytesToNat_number]; omega)
    rw [show encodeId .b48 15 (bytesToNat (e.manufacturerId :: s.cfg.did)) = _ from this] at h
    cases h
  · obtain ⟨h1, h2⟩ := pushLogon_error h
    exact ⟨h2, h1, (group_acc b).mp hg⟩

private theorem logonEnable_fault (e : Env) (s : Rx) (b : Byte) (cid : BitVec 16) (session : Byte)
    (rand : Nat) (f : Fault) (hd : s.cfg.did.length = 4)
    (h : s.logonEnable e (AddressGroup.ofByte b) cid session rand = .error f) :
    f = .assertion ∧ s.q.logon ≠ [] ∧ s.cfg.logonEnabled = true ∧
      AnswerDue s (.enable (b.toNat % 4) cid.toNat session.toNat) := by
  unfold Rx.logonEnable at h
  split at h
  · cases h
  rename_i hg
  simp only [Bool.not_eq_true, Bool.or_eq_false_iff, Bool.not_eq_false'] at hg
  dsimp only at h
  by_cases hc : cid = s.logon.cidFront
  · rw [if_pos hc] at h
    by_cases hs : sessionDiff session s.logon.sessionFront ≤ 4#32
    · rw [if_pos hs, bind_eq_error] at h
      rcases h with h | ⟨a, ha, h⟩
      · have := (decodeAddress_error h).1
        simp at this
      · cases h
    · rw [if_neg hs] at h
      obtain ⟨h1, h2, h3⟩ := logonAnswer_fault e _ b rand f (by exact hd) h
      exact ⟨h1, h2, hg.1, h3, hg.2, fun hk => hs ((sessionDiff_le ..).mpr hk.2)⟩
  · rw [if_neg hc] at h
    have hc' : cid.toNat ≠ s.logon.cidFront.toNat := fun hx => hc (BitVec.eq_of_toNat_eq hx)
    obtain ⟨h1, h2, h3⟩ := logonAnswer_fault e _ b rand f (by exact hd) h
    exact ⟨h1, h2, hg.1, h3, hg.2, fun hk => hc' hk.1⟩

private theorem encode48_six (bs : List Byte) (h : bs.length = 6) (f : Fault)
    (he : encodeData .b48 (bytesToNat bs) = .error f) : False := by
  have hl := number_lt bs
  rw [h] at hl
  rw [bytesToNat_number, encodeData_ok .b48 (number bs) (show number bs < 2 ^ 48 by omega)] at he
  cases he

private theorem logonSelect_fault (s : Rx) (did : List Byte) (f : Fault)
    (h : s.logonSelect did = .error f) :
    f = .assertion ∧ s.q.logon ≠ [] ∧ s.cfg.logonEnabled = true ∧ AnswerDue s (.select did) := by
  unfold Rx.logonSelect at h
  split at h
  · cases h
  rename_i hg
  simp only [Bool.or_eq_true, Bool.not_eq_true', decide_eq_true_eq, not_or, Bool.not_eq_false,
    Bool.not_eq_true, Decidable.not_not] at hg
  rw [bind_eq_error] at h
  rcases h with h | ⟨m, -, h⟩
  · exact (encode48_six _ rfl f h).elim
  · obtain ⟨h1, h2⟩ := pushLogon_error h
    exact ⟨h2, h1, hg.1.1, hg.2, hg.1.2⟩

private theorem logonAssign_fault (s : Rx) (did : List Byte) (a : Address) (o : Bool) (f : Fault)
    (bs : List Byte) (h : s.logonAssign did a o = .error f) :
    f = .assertion ∧ s.q.logon ≠ [] ∧ s.cfg.logonEnabled = true ∧ AnswerDue s (.assign did bs) := by
  unfold Rx.logonAssign at h
  split at h
  · cases h
  rename_i hg
  simp only [Bool.or_eq_true, Bool.not_eq_true', decide_eq_true_eq, not_or, Bool.not_eq_false,
    Decidable.not_not] at hg
  rw [bind_eq_error] at h
  rcases h with h | ⟨m, -, h⟩
  · exact (encode48_six _ rfl f h).elim
  · obtain ⟨h1, h2⟩ := pushLogon_error h
    exact ⟨h2, h1, hg.1, hg.2⟩

/-- The faults of a logon packet: it is too short for its command, or an answer is due while another
one is waiting. -/
theorem executeAutomaticLogon_fault (e : Env) (s : Rx) (a : Address) (b : Byte) (bs : List Byte)
    (rand : Nat) (f : Fault) (hd : s.cfg.did.length = 4)
    (h : s.executeAutomaticLogon e a (b :: bs) rand = .error f) :
    a.value = 254#16 ∧ ∃ c, logonCommand (254#8 :: b :: bs) = some c ∧
      ((f = .oob ∧ ¬ LogonLength (254#8 :: b :: bs) c) ∨
       (f = .assertion ∧ s.q.logon ≠ [] ∧ s.cfg.logonEnabled = true ∧ AnswerDue s c)) := by
  unfold Rx.executeAutomaticLogon at h
  split at h
  · cases h
  rename_i hv
  rw [Decidable.not_not] at hv
  refine ⟨hv, ?_⟩
  rw [byteAt_zero, ok_bind] at h
  dsimp only at h
  obtain ⟨k1, k2, k3⟩ := nib_d b
  have hcmd : logonCommand (254#8 :: b :: bs) =
    if b.toNat / 16 = 13 then some (.select ((bs.drop 1).take 4))
    else if b.toNat / 16 = 14 then some (.assign ((bs.drop 1).take 4) (bs.drop 5))
    else if b.toNat / 16 = 15 then
      some (.enable (b.toNat % 4) ((bs.getD 0 0#8).toNat * 256 + (bs.getD 1 0#8).toNat)
        (bs.getD 2 0#8).toNat)
    else none := by
    rw [logonCommand]; exact if_neg (by decide)
  have hdid : ∀ did, didOf (b :: bs) = .ok did → did = (bs.drop 1).take 4 := by
    intro did hx
    unfold didOf at hx
    split at hx
    · cases hx; rfl
    · cases hx
  have hdid' : ∀ f, didOf (b :: bs) = .error f → f = .oob ∧ bs.length < 5 := by
    intro f hx
    unfold didOf at hx
    split at hx
    · cases hx
    · rename_i h; cases hx
      simp only [List.length_cons] at h
      exact ⟨rfl, by omega⟩
  by_cases h1 : b &&& 0xF0#8 = 0xD0#8
  · rw [if_pos h1, bind_eq_error] at h
    rw [hcmd, if_pos (k1.mp h1)]
    refine ⟨_, rfl, ?_⟩
    rcases h with h | ⟨did, h2, h⟩
    · obtain ⟨rfl, h3⟩ := hdid' f h
      exact .inl ⟨rfl, fun hx => by simp only [LogonLength, List.length_cons] at hx; omega⟩
    · have := hdid did h2
      subst this
      exact .inr (logonSelect_fault s _ f h)
  rw [if_neg h1] at h
  rw [if_neg (fun x => h1 (k1.mpr x))] at hcmd
  by_cases h1 : b &&& 0xF0#8 = 0xE0#8
  · rw [if_pos h1, bind_eq_error] at h
    rw [hcmd, if_pos (k2.mp h1)]
    refine ⟨_, rfl, ?_⟩
    have short : bs.length < 8 → ¬ LogonLength (254#8 :: b :: bs) (.assign ((bs.drop 1).take 4) (bs.drop 5)) :=
      fun hl hx => by simp only [LogonLength, List.length_cons] at hx; omega
    rcases h with h | ⟨did, h2, h⟩
    · obtain ⟨rfl, h3⟩ := hdid' f h
      exact .inl ⟨rfl, short (by omega)⟩
    have := hdid did h2
    subst this
    rw [bind_eq_error] at h
    rcases h with h | ⟨b6, -, h⟩
    · obtain ⟨h3, rfl⟩ := byteAt_error h
      simp only [List.length_cons] at h3
      exact .inl ⟨rfl, short (by omega)⟩
    split at h
    · rw [bind_eq_error] at h
      rcases h with h | ⟨ad, -, h⟩
      · obtain ⟨h3, rfl⟩ := decodeAddress_error h
        simp only [List.length_drop, List.length_cons] at h3
        exact .inl ⟨rfl, short (by omega)⟩
      · exact .inr (logonAssign_fault s _ _ _ f _ h)
    split at h
    · cases h
    split at h
    · rw [bind_eq_error] at h
      rcases h with h | ⟨ad, -, h⟩
      · obtain ⟨h3, rfl⟩ := decodeAddress_error h
        simp only [List.length_drop, List.length_cons] at h3
        exact .inl ⟨rfl, short (by omega)⟩
      · exact .inr (logonAssign_fault s _ _ _ f _ h)
    · cases h
  rw [if_neg h1] at h
  rw [if_neg (fun x => h1 (k2.mpr x))] at hcmd
  by_cases h1 : b &&& 0xF0#8 = 0xF0#8
  · rw [if_pos h1, bind_eq_error] at h
    rw [hcmd, if_pos (k3.mp h1)]
    refine ⟨_, rfl, ?_⟩
    have short : bs.length < 3 → ¬ LogonLength (254#8 :: b :: bs) (.enable (b.toNat % 4)
        ((bs.getD 0 0#8).toNat * 256 + (bs.getD 1 0#8).toNat) (bs.getD 2 0#8).toNat) :=
      fun hl hx => by simp only [LogonLength, List.length_cons] at hx; omega
    by_cases hb : bs.length < 3
    · refine .inl ⟨?_, short hb⟩
      rcases h with h | ⟨cid, -, h⟩
      · exact data2uint16_error h
      · rw [bind_eq_error] at h
        rcases h with h | ⟨se, h3, h⟩
        · exact (byteAt_error h).2
        · have := (byteAt_inv h3).1
          simp only [List.length_cons] at this
          omega
    · clear short
      obtain ⟨c0, c1, se, more, rfl⟩ := three_cons bs hb
      have d0 : data2uint16 ((b :: c0 :: c1 :: se :: more).drop 1) =
        .ok (c0.setWidth 16 <<< 8 ||| c1.setWidth 16) := rfl
      have d1 : byteAt (b :: c0 :: c1 :: se :: more) 3 = .ok se := rfl
      have hcid : (c0.setWidth 16 <<< 8 ||| c1.setWidth 16).toNat = c0.toNat * 256 + c1.toNat := by
        have e0 := c0.isLt
        have e1 := c1.isLt
        rw [BitVec.toNat_or, BitVec.toNat_shiftLeft, BitVec.toNat_setWidth, BitVec.toNat_setWidth,
          Nat.mod_eq_of_lt (by omega : c0.toNat < 2 ^ 16), Nat.mod_eq_of_lt (by omega : c1.toNat < 2 ^ 16),
          Nat.shiftLeft_eq, Nat.mod_eq_of_lt (by omega), Nat.mul_comm c0.toNat,
          ← Nat.two_pow_add_eq_or_of_lt e1]
      rw [d0, ← bind_eq_error, ok_bind, d1, ok_bind] at h
      have := logonEnable_fault e s b _ se rand f hd h
      rw [hcid] at this
      exact .inr this
  · rw [if_neg h1] at h
    cases h

/-- The faults of `receive`. -/
theorem receive_faults (e : Env) (s : Rx) (hr : Reachable e s) (t rand : Nat) (f : Fault)
    (h : s.receive e t rand = .error f) :
    (f = .overflow ∧ s.link.state = .data ∧ s.link.packet.length = maxPacketSize) ∨
    (s.link.state = .endbit ∧ logonAccepted s.link.packet ∧ ∃ c, logonCommand s.link.packet = some c ∧
      ((f = .oob ∧ ¬ LogonLength s.link.packet c) ∨
       (f = .assertion ∧ s.q.logon ≠ [] ∧ s.cfg.logonEnabled = true ∧ AnswerDue s c))) := by
  have hl := hr.recvInv.link
  cases receive_fault e s t rand f hr.recvInv.room h with
  | overflow hst hp hf =>
    refine .inl ⟨hf, hst, Nat.le_antisymm hl.len hp⟩
  | logon l a hp hst h3 hc ha ht hcrc h =>
    have hsum : exor s.link.packet = 0#8 := by
      rw [← hl.sum (by rw [hst]; rfl)]; exact hc
    rw [hp] at h3 ha hcrc h
    refine .inr ⟨hst, ⟨h3, hsum, fun h7 => ?_⟩, ?_⟩
    · rcases hcrc with h8 | h8
      · omega
      · rw [← crc8_eq_spec]; exact h8
    match hpk : s.link.packet, h3 with
    | x :: b :: bs, h3 =>
      rw [hpk] at ha h
      have hx : x = 254#8 := by
        have key : ∀ x : Byte, ∀ y z, decodeAddress (x :: b :: y) = .ok z → z.type = .automaticLogon → x = 254#8 := by
          intro x y z h1 h2
          simp only [decodeAddress] at h1
          repeat' split at h1
          all_goals first
            | assumption
            | (cases h1; cases h2)
            | (cases h1)
        exact key x _ a ha ht
      subst hx
      obtain ⟨-, c, h1, h2⟩ := executeAutomaticLogon_fault e _ a b bs rand f (by exact hr.did) h
      refine ⟨c, h1, ?_⟩
      rcases h2 with h2 | ⟨i1, i2, i3, i4⟩
      · exact .inl h2
      · refine .inr ⟨i1, i2, i3, ?_⟩
        cases c <;> exact i4

end Dcc
