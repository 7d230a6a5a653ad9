import Verif.Lemmas.RxMain
import Verif.Props.RxFaults
import Verif.Props.RxLogonExact
import Verif.Props.RxLogonStore
import Verif.Props.Throttle
import Verif.Props.Utility
import Verif.Spec.Guest
/-! Decoders that log on: one packet after the other. -/
namespace Dcc
open Spec

/-! ### The packets -/

def logonAddr : Address := { value := 254#16, type := .automaticLogon }

theorem uint32ToData_injective {a b : BitVec 32} (h : uint32ToData a = uint32ToData b) : a = b := by
  have h1 := (C12_uint32_roundtrip a []).2
  rw [h, (C12_uint32_roundtrip b []).2] at h1
  exact (Except.ok.inj h1).symm

/-- Receiving a logon packet. -/
theorem recv_logon (e : Env) (s : Rx) (hr : Reachable e s) (cfg : TxConfig) (h : Spec.ValidConfig cfg)
    (b : Byte) (bs : List Byte) (hp : ValidPacket (254#8 :: b :: bs)) (ha : logonAccepted (254#8 :: b :: bs))
    (hs : s.link.state = .preamble) (hf : s.deque.length < e.rxDeque) (xs : List (Nat × Nat))
    (hx : xs.map (·.1) = Spec.packetWave cfg (254#8 :: b :: bs)) :
    ∃ l, s.run e (recvOps xs) =
      ((({ s with preambleCount := s.preambleCount + 1 } : Rx).atLogon l logonAddr).executeAutomaticLogon e
        logonAddr (b :: bs) ((xs.getLast?.map (·.2)).getD 0)).map Rx.reset := by
  obtain ⟨hb, hc⟩ := hr.recvInv.link.idle (by rw [hs]; rfl)
  obtain ⟨w, hw, h1⟩ := run_packet_init s.link cfg h _ hp hs hb hc
  rw [hw] at hx
  obtain ⟨ys, zs, rfl, hy, hz⟩ := List.map_eq_append_iff.mp hx
  obtain ⟨z, rfl, hz1⟩ := List.map_eq_singleton_iff.mp hz
  have h2 := recv_outs e ys s (Link.beforeEnd (254#8 :: b :: bs)) [.start] (by rw [hy]; exact h1)
    (by simp [packetsOf]) (by simpa [packetsOf] using hf)
  have h0 : recvOps (ys ++ [z]) = recvOps ys ++ [.receive z.1 z.2] := by simp [recvOps]
  have r1 := hr.run _ h2
  obtain ⟨l, -, h3⟩ := receive_completes e { s.outs [.start] with link := Link.beforeEnd (254#8 :: b :: bs) } z.1 z.2
    ⟨rfl, rfl, by rw [hz1]; unfold ValidConfig at h; omega, hf⟩ r1 b bs rfl ha
  rw [h0, run_append e _ _ s _ h2, Rx.run]
  refine ⟨l, ?_⟩
  show (Rx.receive e _ z.1 z.2 >>= _) = _
  rw [h3, List.getLast?_concat]
  have hret : ∀ x : R Rx, (x >>= fun s => Rx.run e s []) = x := by intro x; cases x <;> rfl
  exact hret _

theorem enable_packet (g : AddressGroup) (cid : BitVec 16) (session : Byte) :
    ∃ b x, makeLogonEnablePacket g cid session = .ok (254#8 :: b :: (uint16ToData cid ++ [session, x])) ∧
      b = 0xFC#8 ||| g.toByte ∧
      ValidPacket (254#8 :: b :: (uint16ToData cid ++ [session, x])) ∧
      logonAccepted (254#8 :: b :: (uint16ToData cid ++ [session, x])) := by
  obtain ⟨p, h1, h2, h3, h4, h5⟩ := C04_plain_builders (.logonEnable g cid session)
  have h0 := finish_ok ([254#8, 0xFC#8 ||| g.toByte] ++ uint16ToData cid ++ [session])
    (by simp [uint16ToData, maxPacketSize])
  have h6 : makeLogonEnablePacket g cid session = .ok p := h1
  rw [makeLogonEnablePacket, h0] at h6
  cases h6
  refine ⟨_, _, by rw [makeLogonEnablePacket, h0]; simp; rfl, rfl, ?_, ?_⟩
  all_goals
    simp only [List.cons_append, List.nil_append, List.append_assoc] at h3 h4 h5
  · exact ⟨h3, h4, h5⟩
  · exact ⟨h3, h5, fun h => by simp [uint16ToData] at h⟩

theorem select_packet (m : BitVec 16) (u : BitVec 32) (sub : Byte) :
    ∃ b c x y, makeLogonSelectPacket m u sub = .ok (254#8 :: b :: c :: (uint32ToData u ++ [sub, x, y])) ∧
      b = 0xD0#8 ||| (m >>> 8).setWidth 8 ∧
      ValidPacket (254#8 :: b :: c :: (uint32ToData u ++ [sub, x, y])) ∧
      logonAccepted (254#8 :: b :: c :: (uint32ToData u ++ [sub, x, y])) := by
  obtain ⟨p, h1, h2, h3, h4, h5⟩ := C04_plain_builders (.logonSelect m u sub)
  obtain ⟨p', h7, h8⟩ := (C08_logon_packets_pass_crc m u sub 0#16).1
  have h6 : makeLogonSelectPacket m u sub = .ok p := h1
  rw [h7] at h6
  cases h6
  have h0 := h7
  rw [makeLogonSelectPacket] at h0
  rw [finish_ok _ (by simp [uint32ToData, maxPacketSize])] at h0
  have h0 := Except.ok.inj h0
  simp only [List.cons_append, List.nil_append, List.append_assoc] at h0
  rw [← h0] at h3 h4 h5 h8 h7
  refine ⟨_, _, _, _, h7, rfl, ⟨h3, h4, h5⟩, ⟨h3, h5, fun _ => ?_⟩⟩
  rw [← crc8_eq_spec]
  exact h8

theorem assign_packet (m : BitVec 16) (u : BitVec 32) (a : BitVec 16) :
    ∃ b c x y, makeLogonAssignPacket m u a = .ok (254#8 :: b :: c :: (uint32ToData u ++ (uint16ToData a ++ [x, y]))) ∧
      b = 0xE0#8 ||| (m >>> 8).setWidth 8 ∧
      ValidPacket (254#8 :: b :: c :: (uint32ToData u ++ (uint16ToData a ++ [x, y]))) ∧
      logonAccepted (254#8 :: b :: c :: (uint32ToData u ++ (uint16ToData a ++ [x, y]))) := by
  obtain ⟨p, h1, h2, h3, h4, h5⟩ := C04_plain_builders (.logonAssign m u a)
  obtain ⟨p', h7, h8⟩ := (C08_logon_packets_pass_crc m u 0#8 a).2
  have h6 : makeLogonAssignPacket m u a = .ok p := h1
  rw [h7] at h6
  cases h6
  have h0 := h7
  rw [makeLogonAssignPacket] at h0
  rw [finish_ok _ (by simp [uint32ToData, uint16ToData, maxPacketSize])] at h0
  have h0 := Except.ok.inj h0
  simp only [List.cons_append, List.nil_append, List.append_assoc] at h0
  rw [← h0] at h3 h4 h5 h8 h7
  refine ⟨_, _, _, _, h7, rfl, ⟨h3, h4, h5⟩, ⟨h3, h5, fun _ => ?_⟩⟩
  rw [← crc8_eq_spec]
  exact h8

private theorem nibble (m : BitVec 16) (h : m.toNat < 4096) :
    (0xD0#8 ||| (m >>> 8).setWidth 8) &&& 0xF0#8 = 0xD0#8 ∧
    (0xE0#8 ||| (m >>> 8).setWidth 8) &&& 0xF0#8 = 0xE0#8 := by
  have h1 : ((m >>> 8).setWidth 8 : Byte).toNat < 16 := by
    rw [BitVec.toNat_setWidth, BitVec.toNat_ushiftRight, Nat.shiftRight_eq_div_pow]
    omega
  generalize ((m >>> 8).setWidth 8 : Byte) = b at h1
  revert b
  decide +kernel

theorem execute_enable (e : Env) (x : Rx) (g : AddressGroup) (cid : BitVec 16) (session y : Byte) (rand : Nat) :
    x.executeAutomaticLogon e logonAddr ((0xFC#8 ||| g.toByte) :: (uint16ToData cid ++ [session, y])) rand =
      x.logonEnable e (AddressGroup.ofByte (0xFC#8 ||| g.toByte)) cid session rand := by
  have h1 : data2uint16 (((0xFC#8 ||| g.toByte) :: (uint16ToData cid ++ [session, y])).drop 1) = .ok cid :=
    (C12_uint16_roundtrip cid [session, y]).2.1
  rw [Rx.executeAutomaticLogon, if_neg (by decide), byteAt_zero, ok_bind]
  dsimp only
  rw [if_neg (by cases g <;> decide), if_neg (by cases g <;> decide), if_pos (by cases g <;> decide), h1, ok_bind]
  rfl

theorem execute_select (e : Env) (x : Rx) (m : BitVec 16) (hm : m.toNat < 4096) (u : BitVec 32) (c sub y z : Byte)
    (rand : Nat) :
    x.executeAutomaticLogon e logonAddr
      ((0xD0#8 ||| (m >>> 8).setWidth 8) :: c :: (uint32ToData u ++ [sub, y, z])) rand =
      x.logonSelect (uint32ToData u) := by
  rw [Rx.executeAutomaticLogon, if_neg (by decide), byteAt_zero, ok_bind]
  dsimp only
  rw [if_pos (nibble m hm).1]
  rfl

/-- The address assigned. -/
private theorem assigned_address (n : Nat) (h1 : n < 10240) (x y : Byte) : ∃ b6 rest,
    uint16ToData (BitVec.ofNat 16 (0xC000 + n)) ++ [x, y] = b6 :: rest ∧ b6 &&& 0xC0#8 = 0xC0#8 ∧
      b6 &&& 0x3F#8 < 0x28#8 ∧ decodeAddress (b6 :: rest) = .ok { value := BitVec.ofNat 16 n, type := .long } := by
  obtain ⟨hi, lo, h2, h3⟩ := (C12_uint16_roundtrip (BitVec.ofNat 16 (0xC000 + n)) []).2.2
  rw [BitVec.toNat_ofNat, Nat.mod_eq_of_lt (by omega)] at h3
  have h4 := lo.isLt
  have h5 : 192 ≤ hi.toNat ∧ hi.toNat ≤ 231 := by omega
  have key : ∀ hi : Byte, 192 ≤ hi.toNat ∧ hi.toNat ≤ 231 → hi &&& 0xC0#8 = 0xC0#8 ∧ hi &&& 0x3F#8 < 0x28#8 ∧
      ¬ hi = 0#8 ∧ ¬ hi ≤ 127#8 ∧ ¬ hi ≤ 191#8 ∧ hi ≤ 231#8 := by decide +kernel
  obtain ⟨k1, k2, k3, k4, k5, k6⟩ := key hi h5
  refine ⟨hi, [lo, x, y], by rw [h2]; rfl, k1, k2, ?_⟩
  rw [decodeAddress, if_neg k3, if_neg k4, if_neg k5, if_pos k6]
  congr 2
  apply BitVec.eq_of_toNat_eq
  have hn : (BitVec.ofNat 16 n).toNat = n := by rw [BitVec.toNat_ofNat, Nat.mod_eq_of_lt (by omega)]
  rw [hn, BitVec.toNat_and, BitVec.toNat_or, BitVec.toNat_shiftLeft, BitVec.toNat_setWidth, BitVec.toNat_setWidth,
    Nat.mod_eq_of_lt (by omega : hi.toNat < 2 ^ 16), Nat.mod_eq_of_lt (by omega : lo.toNat < 2 ^ 16),
    Nat.shiftLeft_eq, Nat.mod_eq_of_lt (by omega), Nat.mul_comm hi.toNat, ← Nat.two_pow_add_eq_or_of_lt h4]
  show _ &&& (2 ^ 14 - 1) = n
  rw [Nat.and_two_pow_sub_one_eq_mod]
  omega

theorem execute_assign (e : Env) (x : Rx) (m : BitVec 16) (hm : m.toNat < 4096) (u : BitVec 32) (c y z : Byte)
    (n : Nat) (hn : n < 10240) (rand : Nat) :
    x.executeAutomaticLogon e logonAddr
      ((0xE0#8 ||| (m >>> 8).setWidth 8) :: c ::
        (uint32ToData u ++ (uint16ToData (BitVec.ofNat 16 (0xC000 + n)) ++ [y, z]))) rand =
      x.logonAssign (uint32ToData u) { value := BitVec.ofNat 16 n, type := .long } false := by
  obtain ⟨b6, rest, h1, h2, h3, h4⟩ := assigned_address n hn y z
  have hne : ¬ (0xE0#8 ||| (m >>> 8).setWidth 8) &&& 0xF0#8 = 0xD0#8 := by rw [(nibble m hm).2]; decide
  have hd : ((0xE0#8 ||| (m >>> 8).setWidth 8) :: c :: (uint32ToData u ++ (b6 :: rest))).drop 6 = b6 :: rest := rfl
  rw [Rx.executeAutomaticLogon, if_neg (by decide), byteAt_zero, ok_bind, h1]
  dsimp only
  rw [if_neg hne, if_pos (nibble m hm).2]
  have hdid : didOf ((0xE0#8 ||| (m >>> 8).setWidth 8) :: c :: (uint32ToData u ++ b6 :: rest)) = .ok (uint32ToData u) := rfl
  have hb6 : byteAt ((0xE0#8 ||| (m >>> 8).setWidth 8) :: c :: (uint32ToData u ++ b6 :: rest)) 6 = .ok b6 := rfl
  rw [hdid, ok_bind, hb6, ok_bind, if_pos h3, hd, h4, ok_bind, h2]
  rfl

/-! ### What the decoder is -/

/-- The state is that of the guest; `s0` is the decoder before. -/
structure GuestIs (s0 : Rx) (g : Guest) (s : Rx) : Prop where
  cfg : s.cfg = s0.cfg
  uid : s.cfg.did = uint32ToData g.uid
  enabled : s.cfg.logonEnabled = true
  primary : s.addrs.primary = s0.addrs.primary
  reversed : s.addrs.consist.reversed = s0.addrs.consist.reversed
  selected : s.logon.selected = g.selected
  assigned : s.logon.assigned = g.number.isSome
  pause : PauseIs g.pause s.logon.backoff
  order : g.number ≠ none → g.selected = true
  before : g.number = none → s.addrs.logon = s0.addrs.logon ∧ s.addrs.consist = s0.addrs.consist ∧
    s.logon.store = false ∧ s.logon.cidFront = s0.logon.cidFront ∧
      s.logon.sessionFront = s0.logon.sessionFront ∧ s0.addrs.logon.value = 0#16
  later : ∀ n, g.number = some n → s.addrs.logon.value = BitVec.ofNat 16 n ∧ s.addrs.logon.type.isLoco = true ∧
    1 ≤ n ∧ n < 10240
  station : ∀ c k, g.station = some (c, k) → s.logon.cidBack = c ∧ s.logon.sessionBack = k
  kept : ∀ n c k, g.number = some n → g.station = some (c, k) →
    s.logon.store = true ∨ ∀ m, StoredLogon (mem m s.trace) c.toNat k.toNat n

/-- The answer waiting. -/
def AnswerIs (e : Env) (s0 : Rx) (q : List (List Byte)) : Option Reply → Prop
  | none => q = []
  | some r => ∃ m, q = [m] ∧ Spec.Carries m (r.word e s0)

/-- What logon packets do not change. -/
structure LogonKeeps (x y : Rx) : Prop where
  link : y.link = x.link
  deque : y.deque = x.deque
  trace : ∃ evs, y.trace = x.trace ++ evs ∧ ∀ ev ∈ evs, ev.isQuiet = true
  mode : y.mode = x.mode
  received : y.addrs.received = x.addrs.received

theorem LogonKeeps.same {x y : Rx} (h1 : y.link = x.link) (h2 : y.deque = x.deque) (h3 : y.trace = x.trace)
    (h4 : y.mode = x.mode) (h5 : y.addrs.received = x.addrs.received) : LogonKeeps x y :=
  ⟨h1, h2, ⟨[], by simp [h3], by simp⟩, h4, h5⟩

theorem guest_select (e : Env) (s0 : Rx) (g : Guest) (x : Rx) (hg : GuestIs s0 g x) (hq : x.q.logon = [])
    (m : BitVec 16) (u : BitVec 32) (sub : Byte) (rand : Nat) :
    ∃ y, x.logonSelect (uint32ToData u) = .ok y ∧ GuestIs s0 (g.hear rand (.select m u sub)).1 y ∧
      AnswerIs e s0 y.q.logon (g.hear rand (.select m u sub)).2 ∧ LogonKeeps x y := by
  unfold Guest.hear
  dsimp only
  by_cases h : u = g.uid ∧ g.number = none
  · obtain ⟨m, hm, hme⟩ := six_fits (shortInfo x.addrs.primary ++ [crc8 (shortInfo x.addrs.primary)]) rfl
    rw [← bytesToNat_number] at hm hme
    rw [shortInfo_eq] at hm
    rw [if_pos h, Rx.logonSelect, if_neg (by simp [hg.enabled, hg.assigned, h.2, hg.uid, h.1])]
    dsimp only
    rw [hme, ok_bind, pushLogon_ok _ _ (by exact hq)]
    refine ⟨_, rfl, ?_, ⟨m, rfl, ?_⟩, LogonKeeps.same rfl rfl rfl rfl rfl⟩
    · exact { hg with selected := rfl, order := fun _ => rfl }
    · show Spec.Carries m (infoWord s0)
      unfold infoWord at hm ⊢
      rw [← hg.primary]; exact hm
  · rw [if_neg h, Rx.logonSelect, if_pos]
    · exact ⟨x, rfl, hg, hq, LogonKeeps.same rfl rfl rfl rfl rfl⟩
    · simp only [Bool.or_eq_true, Bool.not_eq_eq_eq_not, Bool.not_true, decide_eq_true_eq]
      rcases Decidable.not_and_iff_or_not.mp h with h | h
      · exact .inr fun hx => h (uint32ToData_injective (hx.trans hg.uid))
      · refine .inl (.inr ?_)
        rw [hg.assigned]
        cases hn : g.number with
        | none => exact absurd hn h
        | some n => rfl

theorem guest_assign (e : Env) (s0 : Rx) (g : Guest) (x : Rx) (hg : GuestIs s0 g x) (hq : x.q.logon = [])
    (m : BitVec 16) (u : BitVec 32) (n : Nat) (hn : 1 ≤ n ∧ n < 10240) (hsel : u = g.uid → g.selected = true)
    (rand : Nat) :
    ∃ y, x.logonAssign (uint32ToData u) { value := BitVec.ofNat 16 n, type := .long } false = .ok y ∧
      GuestIs s0 (g.hear rand (.assign m u n)).1 y ∧
      AnswerIs e s0 y.q.logon (g.hear rand (.assign m u n)).2 ∧ LogonKeeps x y := by
  unfold Guest.hear
  dsimp only
  by_cases h : u = g.uid
  · obtain ⟨m, hm, hme⟩ := six_fits (assignInfo ++ [crc8 assignInfo]) rfl
    rw [← bytesToNat_number] at hm hme
    rw [assignInfo_eq] at hm
    rw [if_pos h, Rx.logonAssign, if_neg (by simp [hg.enabled, hg.uid, h])]
    dsimp only
    rw [hme, ok_bind, pushLogon_ok _ _ (by exact hq)]
    refine ⟨_, rfl, ?_, ⟨m, rfl, hm⟩, LogonKeeps.same rfl rfl rfl rfl rfl⟩
    refine { hg with
      primary := by simpa using hg.primary
      assigned := rfl
      order := fun _ => hsel h
      before := fun hx => by cases hx
      later := fun k hk => ?_
      kept := fun _ _ _ _ _ => .inl rfl }
    · cases hk
      exact ⟨rfl, rfl, hn⟩
  · rw [if_neg h, Rx.logonAssign, if_pos]
    · exact ⟨x, rfl, hg, hq, LogonKeeps.same rfl rfl rfl rfl rfl⟩
    · simp only [Bool.or_eq_true, decide_eq_true_eq]
      exact .inr fun hx => h (uint32ToData_injective (hx.trans hg.uid))

theorem guest_enable (e : Env) (s0 : Rx) (g : Guest) (x : Rx) (hg : GuestIs s0 g x) (hq : x.q.logon = [])
    (group : AddressGroup) (cid : BitVec 16) (session : Byte)
    (hc : ¬ (cid = s0.logon.cidFront ∧ s0.logon.sessionFront.toNat ≤ session.toNat ∧
      session.toNat ≤ s0.logon.sessionFront.toNat + 4)) (rand : Nat) :
    ∃ y, x.logonEnable e (AddressGroup.ofByte (0xFC#8 ||| group.toByte)) cid session rand = .ok y ∧
      GuestIs s0 (g.hear rand (.enable group cid session)).1 y ∧
      AnswerIs e s0 y.q.logon (g.hear rand (.enable group cid session)).2 ∧ LogonKeeps x y := by
  unfold Guest.hear
  dsimp only
  by_cases h : g.selected = true
  · rw [if_pos h, Rx.logonEnable, if_pos (by simp [hg.selected, h])]
    exact ⟨x, rfl, hg, hq, LogonKeeps.same rfl rfl rfl rfl rfl⟩
  · have hnone : g.number = none := by
      cases hn : g.number with
      | none => rfl
      | some n => exact absurd (hg.order (by simp [hn])) h
    obtain ⟨b1, b2, b3, b4, b5, b6⟩ := hg.before hnone
    have hng : (0xFC#8 ||| group.toByte).toNat % 4 = groupNumber group := by cases group <;> rfl
    rw [if_neg h, Rx.logonEnable, if_neg (by simpa [hg.selected, hg.enabled] using h)]
    dsimp only
    have hsame : ({ x with
        logon := { x.logon with
          cidBack := cid, sessionBack := session, selected := false, assigned := false, store := false }
        addrs := { x.addrs with logon := x.addrs.logon.assignValue 0#16 } } : Rx) =
        { x with logon := { x.logon with cidBack := cid, sessionBack := session } } := by
      have d1 : x.addrs.logon.assignValue 0#16 = x.addrs.logon := by
        rw [b1, Address.assignValue, ← b6]
      have d2 := hg.selected
      have d3 := hg.assigned
      rw [hnone] at d3
      rw [d1]
      cases hs : g.selected with
      | true => exact absurd hs h
      | false =>
        rw [hs] at d2
        have d4 : ({ x.logon with
            cidBack := cid, sessionBack := session, selected := false, assigned := false, store := false } : Logon) =
            { x.logon with cidBack := cid, sessionBack := session } := by
          rw [Logon.mk.injEq]
          exact ⟨d2.symm, d3.symm, b3.symm, rfl, rfl, rfl, rfl, rfl⟩
        rw [d4]
    rw [hsame]
    have hbr : ∀ (v : R Rx), (if cid = x.logon.cidFront then
        if sessionDiff session x.logon.sessionFront ≤ 4#32 then v
        else Rx.logonAnswer e { x with logon := { x.logon with cidBack := cid, sessionBack := session } }
          (AddressGroup.ofByte (0xFC#8 ||| group.toByte)) rand
        else Rx.logonAnswer e { x with logon := { x.logon with cidBack := cid, sessionBack := session } }
          (AddressGroup.ofByte (0xFC#8 ||| group.toByte)) rand) =
        Rx.logonAnswer e { x with logon := { x.logon with cidBack := cid, sessionBack := session } }
          (AddressGroup.ofByte (0xFC#8 ||| group.toByte)) rand := by
      intro v
      split
      · rename_i hcid
        rw [if_neg]
        intro hse
        exact hc ⟨hcid.trans b4, by rw [sessionDiff_le, b5] at hse; exact hse⟩
      · rfl
    rw [hbr]
    generalize hz : ({ x with logon := { x.logon with cidBack := cid, sessionBack := session } } : Rx) = z
    have hgz : GuestIs s0 { g with station := some (cid, session) } z := by
      rw [← hz]
      exact { hg with
        station := fun c k hck => by cases hck; exact ⟨rfl, rfl⟩
        kept := fun n _ _ hn => by rw [show g.number = some n from hn] at hnone; cases hnone }
    have hqz : z.q.logon = [] := by rw [← hz]; exact hq
    have hkz : LogonKeeps x z := by rw [← hz]; exact .same rfl rfl rfl rfl rfl
    obtain ⟨y, h1, h2, h3⟩ := logonAnswer_exact e z (0xFC#8 ||| group.toByte) rand g.pause
      (by rw [hgz.uid]; rfl) hgz.pause hqz
    rw [hng] at h2 h3
    have hy : ∃ bo q, y = { z with logon := { z.logon with backoff := bo }, q := { z.q with logon := q } } := by
      unfold Rx.logonAnswer at h1
      dsimp only at h1
      repeat' split at h1
      all_goals first
        | (rw [bind_eq_ok] at h1
           obtain ⟨w, -, h1⟩ := h1
           rw [pushLogon_ok _ _ (by exact hqz)] at h1
           cases h1; exact ⟨_, _, rfl⟩)
        | (cases h1; exact ⟨_, _, rfl⟩)
    obtain ⟨bo, q, rfl⟩ := hy
    refine ⟨_, h1, { hgz with pause := h2 }, ?_, ⟨hkz.link, hkz.deque, hkz.trace, hkz.mode, hkz.received⟩⟩
    by_cases hp : (g.pause.enable (groupNumber group) rand).2 = true
    · rw [if_pos hp] at h3 ⊢
      exact h3
    · rw [if_neg hp] at h3 ⊢
      obtain ⟨m, hm, h4⟩ := h3
      refine ⟨m, h4, ?_⟩
      show Spec.Carries m (idWord e s0)
      unfold idWord at hm ⊢
      rw [← hgz.cfg]; exact hm

/-! ### Rounds -/

theorem sent_recv_logon (e : Env) : ∀ (xs : List (Nat × Nat)) (s : Rx), sent inLogon e s (recvOps xs) = [] := by
  intro xs
  induction xs with
  | nil => intro s; rfl
  | cons x xs ih =>
    intro s
    show sent _ e s (.receive x.1 x.2 :: recvOps xs) = []
    unfold sent
    split
    · rfl
    · rw [ih]; rfl

/-- What one round does. -/
structure GuestRound (e : Env) (s0 : Rx) (g g' : Guest) (s s' : Rx) (ops : List RxOp) (calls : List Event)
    (reply : Option Reply) : Prop where
  run : s.run e ops = .ok s'
  ready : Ready e s'
  guest : GuestIs s0 g' s'
  silent : s'.q.logon = []
  calls : drivingCalls s s' = calls
  trace : s.trace <+: s'.trace
  reply : inCutout (sent inLogon e s ops).flatten = some (reply.map (Reply.word e s0))

theorem inCutout_carries {m : List Byte} {w : Nat} (h : Spec.Carries m w) : inCutout m = some (some w) := by
  obtain ⟨h1, h2, h3⟩ := h
  unfold inCutout
  rw [if_neg (by intro hx; rw [hx] at h1; cases h1), if_pos ⟨h1, by simpa using h2⟩, h3]

theorem GuestIs.congr {s0 s t : Rx} {g : Guest} (h : GuestIs s0 g s) (h1 : t.cfg = s.cfg)
    (h2 : t.addrs.primary = s.addrs.primary) (h3 : t.addrs.consist = s.addrs.consist)
    (h4 : t.addrs.logon = s.addrs.logon) (h5 : t.logon = s.logon) (h6 : ∀ m, mem m t.trace = mem m s.trace) :
    GuestIs s0 g t where
  cfg := h1.trans h.cfg
  uid := by rw [h1]; exact h.uid
  enabled := by rw [h1]; exact h.enabled
  primary := h2.trans h.primary
  reversed := by rw [h3]; exact h.reversed
  selected := by rw [h5]; exact h.selected
  assigned := by rw [h5]; exact h.assigned
  pause := by rw [h5]; exact h.pause
  order := h.order
  before hn := by rw [h3, h4, h5]; exact h.before hn
  later n hn := by rw [h4]; exact h.later n hn
  station c k hck := by rw [h5]; exact h.station c k hck
  kept n c k hn hck := by
    rw [h5]
    refine (h.kept n c k hn hck).imp id fun hx m => ?_
    rw [h6]; exact hx m

/-- The cutout after a logon packet and what follows. -/
theorem guest_tail (e : Env) (s0 : Rx) (g : Guest) (y : Rx) (hg : GuestIs s0 g y) (reply : Option Reply)
    (hq : AnswerIs e s0 y.q.logon reply) (hd : y.deque = []) (ht : y.addrs.received.type = .automaticLogon)
    (hm : y.serviceMode = false) (hroom : 0 < e.rxDeque) (hs : y.link.state = .preamble) (hb : y.link.bitCount < 20)
    (t r : Nat) (now : Int) (rand : Nat) :
    ∃ s', GuestRound e s0 g g y s' [.biDiChannel1, .biDiChannel2, .receive t r, .execute now rand] [] reply := by
  -- the channels
  have chans : ∃ y1 y2 q evs, y.step e .biDiChannel1 = .ok y1 ∧ y1.step e .biDiChannel2 = .ok y2 ∧
      y2 = { y with q := q, trace := y.trace ++ evs } ∧ q.logon = [] ∧
      (∀ ev ∈ evs, ∃ bs, ev = .transmitBiDi bs) ∧
      inCutout ((if inLogon y .biDiChannel1 then transmitted (newCalls y y1) else []) ++
        (if inLogon y1 .biDiChannel2 then transmitted (newCalls y1 y2) else [])).flatten =
          some (reply.map (Reply.word e s0)) := by
    have hcut : cutout y = .logon := by unfold cutout; rw [ht]
    cases reply with
    | none =>
      have hq : y.q.logon = [] := hq
      have c1 : y.step e .biDiChannel1 = .ok y := by
        show Except.ok y.biDiChannel1 = _
        rw [Rx.biDiChannel1, ht]
        dsimp only
        rw [Rx.appLogon1, hq]
      have c2 : y.step e .biDiChannel2 = .ok y := by
        show y.biDiChannel2 = _
        rw [Rx.biDiChannel2, ht]
        dsimp only
        rw [Rx.appLogon2, hq]
      refine ⟨y, y, y.q, [], c1, c2, by simp, hq, by simp, ?_⟩
      have : newCalls y y = [] := by unfold newCalls; simp
      simp [this, transmitted, inCutout]
    | some r =>
      obtain ⟨m, hq, hm⟩ := hq
      have c1 : y.step e .biDiChannel1 = .ok (y.emit (.transmitBiDi (m.take 2))) := by
        show Except.ok y.biDiChannel1 = _
        rw [Rx.biDiChannel1, ht]
        dsimp only
        rw [Rx.appLogon1, hq]
      have c2 : (y.emit (.transmitBiDi (m.take 2))).step e .biDiChannel2 =
          .ok (Rx.emit { y.emit (.transmitBiDi (m.take 2)) with q := { y.q with logon := [] } }
            (.transmitBiDi (m.drop 2))) := by
        show Rx.biDiChannel2 _ = _
        rw [Rx.biDiChannel2, show (y.emit (.transmitBiDi (m.take 2))).addrs.received.type = .automaticLogon from ht]
        dsimp only
        rw [Rx.appLogon2, show (y.emit (.transmitBiDi (m.take 2))).q.logon = [m] from hq]
        rfl
      obtain ⟨x1, x2, -⟩ := C52_transmission e y _ _ hcut c1 c2 m hq
      refine ⟨_, _, { y.q with logon := [] }, [.transmitBiDi (m.take 2), .transmitBiDi (m.drop 2)], c1, c2,
        by simp [Rx.emit], rfl, by simp, ?_⟩
      have i1 : inLogon y .biDiChannel1 = true := by simp [inLogon, hcut]
      have i2 : inLogon (y.emit (.transmitBiDi (m.take 2))) .biDiChannel2 = true := by
        show decide (cutout (y.emit _) = .logon) = true
        have : cutout (y.emit (.transmitBiDi (m.take 2))) = .logon := by
          unfold cutout
          rw [show (y.emit (.transmitBiDi (m.take 2))).addrs.received.type = .automaticLogon from ht]
        simp [this]
      rw [i1, i2, if_pos rfl, if_pos rfl, x1, x2]
      simp only [List.cons_append, List.nil_append, List.flatten_cons, List.flatten_nil, List.append_nil,
        List.take_append_drop, Option.map_some]
      exact inCutout_carries hm
  obtain ⟨y1, y2, q, evs, c1, c2, c3, c4, c5, c6⟩ := chans
  obtain ⟨l, b1, b2, b3⟩ := receive_waiting' e y2 t r (by rw [c3]; exact hs) (by rw [c3]; exact hb)
  have c7 : y2.step e (.receive t r) = .ok { y2 with link := l } := b1
  have c8 : ({ y2 with link := l } : Rx).step e (.execute now rand) = .ok { y2 with link := l } := by
    show (Rx.execute e _ now rand >>= _) = _
    rw [execute_front_none e _ now rand (.inr (by rw [c3]; exact hd)), ok_bind]
    rfl
  have htr : ({ y2 with link := l } : Rx).trace = y.trace ++ evs := by rw [c3]
  refine ⟨{ y2 with link := l }, ?_, ⟨?_, ?_, hroom, b3⟩, ?_, ?_, ?_, ?_, ?_⟩
  · simp only [Rx.run, c1, c2, c7, c8, ok_bind]
  · rw [c3]; exact hm
  · rw [c3]; exact hd
  · rw [c3]
    exact hg.congr rfl rfl rfl rfl rfl fun m =>
      mem_append_quiet _ _ _ fun ev hev => by obtain ⟨_, rfl⟩ := c5 ev hev; rfl
  · rw [c3]; exact c4
  · exact driving_nil (P := fun ev => ∃ bs, ev = .transmitBiDi bs) ⟨evs, htr, c5⟩ (by rintro _ ⟨_, rfl⟩; rfl)
  · rw [htr]; exact List.prefix_append _ _
  · have : sent inLogon e y [.biDiChannel1, .biDiChannel2, .receive t r, .execute now rand] =
        (if inLogon y .biDiChannel1 then transmitted (newCalls y y1) else []) ++
        (if inLogon y1 .biDiChannel2 then transmitted (newCalls y1 y2) else []) := by
      simp only [sent, c1, c2, c7, c8]
      simp [inLogon]
    rw [this]
    exact c6

/-- A round with a logon packet. -/
theorem guest_logon_round (e : Env) (s0 : Rx) (g g' : Guest) (s : Rx) (hr : Reachable e s) (hready : Ready e s)
    (hg : GuestIs s0 g s) (hq : s.q.logon = []) (r : Round) (hsent : r.Sent) (b : Byte) (bs : List Byte)
    (hp : r.packet = 254#8 :: b :: bs) (hv : ValidPacket (254#8 :: b :: bs)) (ha : logonAccepted (254#8 :: b :: bs))
    (reply : Option Reply)
    (hx : ∀ x : Rx, x.logon = s.logon → x.trace = s.trace → GuestIs s0 g x → x.q.logon = [] → ∃ y,
      x.executeAutomaticLogon e logonAddr (b :: bs) r.drawn = .ok y ∧ GuestIs s0 g' y ∧
        AnswerIs e s0 y.q.logon reply ∧ LogonKeeps x y) :
    ∃ s', GuestRound e s0 g g' s s' r.ops [] reply := by
  obtain ⟨cfg, hcfg, hw⟩ := hsent
  rw [hp] at hw
  have hw : r.wave.map (·.1) = packetWave cfg (254#8 :: b :: bs) := by
    rw [bytes2timings_ok _ cfg hv.max] at hw
    exact (Except.ok.inj hw).symm
  obtain ⟨l, h1⟩ := recv_logon e s hr cfg ((accepted_iff cfg).mp hcfg) b bs hv ha hready.waiting
    (by rw [hready.deque]; exact hready.room) r.wave hw
  obtain ⟨y, h2, h3, h4, h5⟩ := hx (({ s with preambleCount := s.preambleCount + 1 } : Rx).atLogon l logonAddr)
    rfl rfl (hg.congr rfl rfl rfl rfl rfl fun _ => rfl) hq
  unfold Round.drawn at h2
  rw [h2] at h1
  have h1 : s.run e (recvOps r.wave) = .ok y.reset := h1
  have hmode : y.reset.mode = s.mode := h5.mode
  obtain ⟨s', h6⟩ := guest_tail e s0 g' y.reset (h3.congr rfl rfl rfl rfl rfl fun _ => rfl) reply h4
    (h5.deque.trans hready.deque) (congrArg Address.type h5.received)
    (by unfold Rx.serviceMode; rw [hmode]; exact hready.mode) hready.room rfl (show 0 < 20 by omega)
    r.after.1 r.after.2 r.now r.rand
  obtain ⟨evs, htr, hev⟩ := h5.trace
  have htr : y.reset.trace = s.trace ++ evs := htr
  have hpre : s.trace <+: y.reset.trace := by rw [htr]; exact List.prefix_append _ _
  refine ⟨s', ?_, h6.ready, h6.guest, h6.silent, ?_, hpre.trans h6.trace, ?_⟩
  · unfold Round.ops
    rw [run_append e _ _ s _ h1]
    exact h6.run
  · rw [drivingCalls_trans hpre h6.trace, h6.calls,
      driving_nil ⟨evs, htr, hev⟩ (fun ev h => driving_cv ev (Event.isCv_of_quiet h))]
    rfl
  · unfold Round.ops
    rw [sent_append _ _ _ _ _ _ h1, sent_recv_logon, List.nil_append]
    exact h6.reply

/-- Executing an idle packet or a command: the state afterwards. -/
theorem item_executes (e : Env) (s : Rx) (now : Int) (rand : Nat) (i : Item) (hi : i.Legal)
    (p : Packet) (hp : i.packet = .ok p) (hf : front s = some p) (hm : s.serviceMode = false) :
    ∃ ret, s.execute e now rand =
      .ok (({ s.prepared e now with trace := (s.prepared e now).trace ++ i.calls s } : Rx).popFront, ret) := by
  obtain ⟨hpe, rest, hd⟩ := front_some hf
  have foreign : 2 ≤ p.length → ¬ ForDecoder s p → i.calls s = [] → ∃ ret, s.execute e now rand =
      .ok (({ s.prepared e now with trace := (s.prepared e now).trace ++ i.calls s } : Rx).popFront, ret) := by
    intro hl hfd hc
    refine ⟨false, ?_⟩
    rw [execute_foreign e s now rand p rest hpe hd hm hl hfd, hc, List.append_nil]
  cases i with
  | none =>
    cases hp
    refine foreign (by simp [idleBytes]) ?_ rfl
    rintro ⟨n, hn, _⟩
    simp [idleBytes, locoNumber] at hn
  | some c =>
    have hc := hi c rfl
    obtain ⟨hn, ⟨y, hy⟩, hv, _⟩ := built_packet c.addr hc.1 c.call p hp
    by_cases hact : c.addr.value.toNat = 0 ∨ Active s c.addr.value.toNat
    · have f := (prepare_total e s now).2
      refine ⟨true, ?_⟩
      rw [execute_for e s now rand _ p rest hpe hd hm hn hact, hy,
        command_instr e s rand c hc p hact _ y f.cfg f.addrs, ok_bind]
      rfl
    · refine foreign (Nat.le_of_succ_le hv.min) ?_ ?_
      · rintro ⟨n, hn', hf'⟩
        rw [hn] at hn'
        cases hn'
        exact hact hf'
      · unfold Item.calls Command.calls
        dsimp only
        rw [if_neg hact]

/-- Channel 2 after a whole packet. -/
theorem channel2_total (s : Rx) (h3 : 3 ≤ s.link.packet.length) : ∃ s', s.biDiChannel2 = .ok s' := by
  cases hx : s.biDiChannel2 with
  | ok s'' => exact ⟨s'', rfl⟩
  | error f =>
    obtain ⟨-, -, -, h4⟩ := (C29_channel2_exact s f).mp hx
    exfalso
    unfold instructionByte at h4
    split at h4
    · rename_i h; rw [h] at h3; simp at h3
    · rename_i b rest h
      rw [h] at h3
      simp only [List.length_cons] at h3
      split at h4
      · rw [List.getElem?_eq_none_iff] at h4; omega
      · rw [List.getElem?_eq_none_iff] at h4; omega

/-- The item as one of the queue. -/
def asItem : GuestItem → Item
  | .drive c => some c
  | _ => none

/-- What a command asks for depends on the addresses only. -/
theorem guest_calls (s0 : Rx) (g : Guest) (x : Rx) (hg : GuestIs s0 g x) (c : Command) :
    c.calls x = g.calls s0 (.drive c) := by
  have hrev : ∀ a, reversedAt x a = reversedAt s0 a := by
    intro a; unfold reversedAt; rw [hg.primary, hg.reversed]
  unfold Guest.calls
  dsimp only
  cases hn : g.number with
  | none =>
    obtain ⟨h1, h2, -, -, -, -⟩ := hg.before hn
    have ha : ∀ n, Active x n ↔ Active s0 n := by
      intro n; unfold Active; rw [h1, h2, hg.primary]
    have ht : ∀ n, target x n = target s0 n := by
      intro n; unfold target; rw [h1, hg.primary]
    unfold Command.calls
    simp only [ha, ht, hrev, hg.cfg]
  | some n =>
    obtain ⟨h1, hl, h2, h3⟩ := hg.later n hn
    have hv : (BitVec.ofNat 16 n).toNat = n := by rw [BitVec.toNat_ofNat]; omega
    have hz : ¬ x.addrs.logon.value = 0#16 := by
      rw [h1]
      intro h
      have := congrArg BitVec.toNat h
      simp only [hv, BitVec.toNat_ofNat] at this
      omega
    have ha : ∀ k, Active x k ↔ k = n := by
      intro k
      unfold Active
      rw [if_neg hz, h1]
      simp only [hv]
      exact ⟨fun h => h.2, fun h => ⟨hl, h⟩⟩
    dsimp only
    unfold Command.calls
    simp only [ha, hrev, hg.cfg]
    by_cases h0 : c.addr.value.toNat = 0
    · rw [if_pos (.inl h0), if_pos h0, if_pos (.inl h0)]
      have : ∀ s : Rx, target s c.addr.value.toNat = BitVec.ofNat 16 c.addr.value.toNat := by
        intro s; unfold target; rw [if_pos (.inl h0)]
      rw [this, this]
    · rw [if_neg h0]
      by_cases h4 : c.addr.value.toNat = n
      · rw [if_pos (.inr h4), if_pos h4]
        have : target x c.addr.value.toNat = s0.addrs.primary.value := by
          unfold target
          rw [if_neg (fun h => h.elim h0 hz), hg.primary]
        rw [this]
        have : reversedAt s0 s0.addrs.primary.value = s0.addrs.primary.reversed := by
          unfold reversedAt; rw [if_pos rfl]
        rw [this]
      · rw [if_neg (fun h => h.elim h0 h4), if_neg h4]

/-- A round with a command or an idle packet. -/
theorem guest_drive_round (e : Env) (s0 : Rx) (g : Guest) (s : Rx) (hr : Reachable e s) (hready : Ready e s)
    (hg : GuestIs s0 g s) (hq : s.q.logon = []) (r : Round) (hsent : r.Sent) (i : Item) (hi : i.Legal)
    (hip : i.packet = .ok r.packet) (hv : ValidPacket r.packet) (hlog : isLogon r.packet = false) :
    ∃ s', GuestRound e s0 g g s s' r.ops (i.calls s) none ∧ s'.logon.store = false := by
  obtain ⟨p, wave, after, now, rand⟩ := r
  obtain ⟨cfg, hcfg, hw⟩ := hsent
  dsimp only at hip hv hlog hw
  have hw : wave.map (·.1) = packetWave cfg p := by
    rw [bytes2timings_ok p cfg hv.max] at hw
    exact (Except.ok.inj hw).symm
  have h1 := recv_packet e s cfg ((accepted_iff cfg).mp hcfg) p hv hlog hready.waiting hr.recvInv.link
    (by rw [hready.deque]; exact hready.room) wave hw
  rw [hready.deque, List.nil_append] at h1
  generalize hs1 : ({ s with
      link := Link.after p
      preambleCount := s.preambleCount + 1
      packetCount := s.packetCount + 1
      deque := [p]
      addrs := { s.addrs with received := addrOf p } } : Rx) = s1 at h1
  have hty : (addrOf p).type ≠ .automaticLogon := by
    obtain ⟨a, ha, hb⟩ := decodeAddress_three p hv.min
    rw [addrOf_ok ha]
    intro hc
    have := hb.mp hc
    rw [hlog] at this
    cases this
  have hcut : ∀ x : Rx, x.addrs.received = addrOf p → cutout x ≠ .logon := by
    intro x hx
    unfold cutout
    rw [hx]
    cases ht : (addrOf p).type <;> dsimp only <;> first
      | exact absurd ht hty
      | (intro h; cases h)
      | (repeat' split) <;> (intro h; cases h)
  -- channel 1
  obtain ⟨q1, evs1, k1, k2⟩ := channel1_adds s1
  have c1 : s1.step e .biDiChannel1 = .ok s1.biDiChannel1 := rfl
  generalize hs2 : s1.biDiChannel1 = s2 at c1 k1
  -- channel 2
  have e2 : s2.link = Link.after p := by rw [k1, ← hs1]
  obtain ⟨s3, c2⟩ := channel2_total s2 (by rw [e2]; exact hv.min)
  obtain ⟨q2, evs2, l1, l2⟩ := (channel2_adds s2).out _ c2
  have c2 : s2.step e .biDiChannel2 = .ok s3 := c2
  have a2 : s2.addrs.received = addrOf p := by rw [k1, ← hs1]
  have q3 : s3.q.logon = [] := by
    obtain ⟨-, -, -, h | ⟨-, h, -⟩⟩ := other_logon e s2 s3 .biDiChannel2 c2 rfl
    · rw [h, k1, ← hs1]; exact hq
    · exact absurd h (hcut s2 a2)
  -- waiting
  have e3 : s3.link = Link.after p := by rw [l1]; exact e2
  obtain ⟨l, b1, b2, b3⟩ := receive_waiting' e s3 after.1 after.2 (by rw [e3]; rfl) (by rw [e3]; show 0 < 20; omega)
  have c3 : s3.step e (.receive after.1 after.2) = .ok { s3 with link := l } := b1
  generalize hs4 : ({ s3 with link := l } : Rx) = s4 at c3
  have t4 : s4.trace = s.trace ++ (evs1 ++ evs2) := by
    rw [← hs4, l1, k1, ← hs1]; exact List.append_assoc _ _ _
  have g4 : GuestIs s0 g s4 := by
    refine hg.congr (by rw [← hs4, l1, k1, ← hs1]) (by rw [← hs4, l1, k1, ← hs1]) (by rw [← hs4, l1, k1, ← hs1])
      (by rw [← hs4, l1, k1, ← hs1]) (by rw [← hs4, l1, k1, ← hs1]) fun m => ?_
    rw [t4]
    refine mem_append_quiet _ _ _ fun ev hev => ?_
    rcases List.mem_append.mp hev with hev | hev
    · obtain ⟨_, rfl⟩ := k2 ev hev; rfl
    · obtain ⟨_, rfl⟩ := l2 ev hev; rfl
  have d4 : s4.deque = [p] := by rw [← hs4, l1, k1, ← hs1]
  have m4 : s4.serviceMode = false := by rw [← hs4, l1, k1, ← hs1]; exact hready.mode
  have i4 : i.calls s4 = i.calls s := by
    cases i with
    | none => rfl
    | some c =>
      show c.calls s4 = c.calls s
      rw [guest_calls s0 g s4 g4 c, guest_calls s0 g s hg c]
  have fr : front s4 = some p := by
    rw [← hs4]; unfold front Rx.packetEnd; dsimp only; rw [b2, l1, k1, ← hs1]; rfl
  -- executing
  obtain ⟨ret, h5⟩ := item_executes e s4 now rand i hi p hip fr m4
  have f := (prepare_total e s4 now).2
  obtain ⟨evs3, t5, hst⟩ := prepared_trace e s4 now
  rw [i4] at h5
  generalize hs5 : ({ s4.prepared e now with trace := (s4.prepared e now).trace ++ i.calls s } : Rx).popFront = s5
    at h5
  have c4 : s4.step e (.execute now rand) = .ok s5 := by
    show (Rx.execute e s4 now rand >>= _) = _
    rw [h5, ok_bind]
    rfl
  have t6 : s5.trace = s.trace ++ ((evs1 ++ evs2) ++ evs3 ++ i.calls s) := by
    rw [← hs5]
    show (s4.prepared e now).trace ++ i.calls s = _
    rw [t5, t4]; simp only [List.append_assoc]
  have hz : ∀ ev ∈ i.calls s, ev.stores = false := by
    have hc : (i.calls s).filter Event.isDriving = i.calls s := by
      cases i with
      | none => rfl
      | some c => exact calls_driving s c
    intro ev hev
    rw [← hc] at hev
    have := (List.mem_filter.mp hev).2
    cases ev <;> first | rfl | cases this
  refine ⟨s5, ⟨?_, ⟨?_, ?_, hready.room, ?_⟩, ?_, ?_, ?_, ?_, ?_⟩, by rw [← hs5]; exact f.stored⟩
  · unfold Round.ops
    rw [run_append e _ _ s _ h1]
    simp only [Rx.run, c1, c2, c3, c4, ok_bind]
  · rw [← hs5]
    show (s4.prepared e now).serviceMode = false
    unfold Rx.serviceMode at m4 ⊢
    rw [f.mode]; exact m4
  · rw [← hs5]
    show (s4.prepared e now).deque.drop 1 = []
    rw [f.deque, d4]; rfl
  · rw [← hs5]
    show (s4.prepared e now).link.state = _
    rw [f.link, ← hs4]; exact b3
  · rw [← hs5]
    have fa := f.addrs
    refine ⟨f.cfg.trans g4.cfg, ?_, ?_, ?_, ?_, f.selected.trans g4.selected, f.assigned.trans g4.assigned,
      ?_, g4.order, ?_, ?_, ?_, ?_⟩
    · show (s4.prepared e now).cfg.did = _
      rw [f.cfg]; exact g4.uid
    · show (s4.prepared e now).cfg.logonEnabled = _
      rw [f.cfg]; exact g4.enabled
    · show (s4.prepared e now).addrs.primary = _
      rw [fa]; exact g4.primary
    · show (s4.prepared e now).addrs.consist.reversed = _
      rw [fa]; exact g4.reversed
    · show PauseIs g.pause (s4.prepared e now).logon.backoff
      rw [f.backoff]; exact g4.pause
    · intro hn
      show (s4.prepared e now).addrs.logon = _ ∧ (s4.prepared e now).addrs.consist = _ ∧
        (s4.prepared e now).logon.store = _ ∧ (s4.prepared e now).logon.cidFront = _ ∧
        (s4.prepared e now).logon.sessionFront = _ ∧ _
      have hb := g4.before hn
      rw [fa, (f.noStore hb.2.2.1).2]; exact hb
    · intro n hn
      show (s4.prepared e now).addrs.logon.value = _ ∧ (s4.prepared e now).addrs.logon.type.isLoco = true ∧ _
      rw [fa]; exact g4.later n hn
    · intro c k hck
      show (s4.prepared e now).logon.cidBack = c ∧ (s4.prepared e now).logon.sessionBack = k
      rw [f.cidBack, f.sessionBack]; exact g4.station c k hck
    · intro n c k hn hck
      refine .inr fun m => ?_
      show StoredLogon (mem m ((s4.prepared e now).trace ++ i.calls s)) _ _ _
      rw [mem_append_quiet _ _ _ hz]
      cases hst : s4.logon.store with
      | false =>
        rw [(f.noStore hst).1]
        rcases g4.kept n c k hn hck with h | h
        · rw [hst] at h; cases h
        · exact h m
      | true =>
        have := prepared_mem e s4 now m hst
        obtain ⟨h1, -, h2, h3⟩ := g4.later n hn
        obtain ⟨h4, h5⟩ := g4.station c k hck
        rw [h1, h4, h5, BitVec.toNat_ofNat, Nat.mod_eq_of_lt (by omega)] at this
        exact this
  · rw [← hs5]
    show (s4.prepared e now).q.logon = []
    rw [f.qlogon, ← hs4]; exact q3
  · have hz : ∀ evs : List Event, (∀ ev ∈ evs, Event.isDriving ev = false) → evs.filter Event.isDriving = [] := by
      intro evs h
      rw [List.filter_eq_nil_iff]
      intro ev hev
      rw [h ev hev]; exact Bool.false_ne_true
    have hc : (i.calls s).filter Event.isDriving = i.calls s := by
      cases i with
      | none => rfl
      | some c => exact calls_driving s c
    unfold drivingCalls
    rw [newCalls_append t6, List.filter_append, List.filter_append, List.filter_append, hc,
      hz evs1 (fun ev h => by obtain ⟨_, rfl⟩ := k2 ev h; rfl),
      hz evs2 (fun ev h => by obtain ⟨_, rfl⟩ := l2 ev h; rfl),
      hz evs3 (fun ev h => driving_write ev (hst.writes ev h))]
    rfl
  · rw [t6]; exact List.prefix_append _ _
  · unfold Round.ops
    rw [sent_append _ _ _ _ _ _ h1, sent_recv_logon, List.nil_append]
    have i1 : inLogon s1 .biDiChannel1 = false := by
      show decide (cutout s1 = .logon) = false
      rw [decide_eq_false_iff_not]; exact hcut s1 (by rw [← hs1])
    have i2 : inLogon s2 .biDiChannel2 = false := by
      show decide (cutout s2 = .logon) = false
      rw [decide_eq_false_iff_not]; exact hcut s2 a2
    have : sent inLogon e s1 [.biDiChannel1, .biDiChannel2, .receive after.1 after.2, .execute now rand] = [] := by
      simp only [sent, c1, c2, c3, c4, i1, i2]
      simp [inLogon]
    rw [this]
    rfl

/-- A round with any item. -/
theorem guest_round (e : Env) (s0 : Rx) (g : Guest) (s : Rx) (hr : Reachable e s) (hready : Ready e s)
    (hg : GuestIs s0 g s) (hq : s.q.logon = []) (r : Round) (hsent : r.Sent) (i : GuestItem)
    (hi : i.Legal s0.logon.cidFront s0.logon.sessionFront) (hip : i.packet = .ok r.packet)
    (hsel : ∀ m u n, i = .assign m u n → u = g.uid → g.selected = true) :
    ∃ s', GuestRound e s0 g (g.hear r.drawn i).1 s s' r.ops (g.calls s0 i) (g.hear r.drawn i).2 := by
  cases i with
  | enable group cid session =>
    obtain ⟨b, y, h1, rfl, h2, h3⟩ := enable_packet group cid session
    have hip : makeLogonEnablePacket group cid session = _ := hip
    rw [h1] at hip
    refine guest_logon_round e s0 g _ s hr hready hg hq r hsent _ _ (Except.ok.inj hip).symm h2 h3 _ ?_
    intro x _ _ hx hqx
    rw [execute_enable]
    exact guest_enable e s0 g x hx hqx group cid session hi r.drawn
  | select m u sub =>
    obtain ⟨b, c, y, z, h1, rfl, h2, h3⟩ := select_packet m u sub
    have hip : makeLogonSelectPacket m u sub = _ := hip
    rw [h1] at hip
    refine guest_logon_round e s0 g _ s hr hready hg hq r hsent _ _ (Except.ok.inj hip).symm h2 h3 _ ?_
    intro x _ _ hx hqx
    rw [execute_select e x m hi]
    exact guest_select e s0 g x hx hqx m u sub r.drawn
  | assign m u n =>
    obtain ⟨b, c, y, z, h1, rfl, h2, h3⟩ := assign_packet m u (BitVec.ofNat 16 (0xC000 + n))
    have hip : makeLogonAssignPacket m u (BitVec.ofNat 16 (0xC000 + n)) = _ := hip
    rw [h1] at hip
    refine guest_logon_round e s0 g _ s hr hready hg hq r hsent _ _ (Except.ok.inj hip).symm h2 h3 _ ?_
    intro x _ _ hx hqx
    rw [execute_assign e x m hi.1 u c y z n hi.2.2]
    exact guest_assign e s0 g x hx hqx m u n hi.2 (hsel m u n rfl) r.drawn
  | idle =>
    have hip : Except.ok idleBytes = Except.ok r.packet := hip
    have hp : r.packet = idleBytes := (Except.ok.inj hip).symm
    obtain ⟨s', h, -⟩ := guest_drive_round e s0 g s hr hready hg hq r hsent none (fun c hc => by cases hc) hip
      (by rw [hp]; exact ⟨by decide, by decide, by decide⟩) (by rw [hp]; decide)
    exact ⟨s', h⟩
  | drive c =>
    have hip : c.packet = .ok r.packet := hip
    obtain ⟨-, -, h1, h2⟩ := built_packet c.addr (show c.Legal from hi).1 c.call r.packet hip
    obtain ⟨s', this, -⟩ :=
      guest_drive_round e s0 g s hr hready hg hq r hsent (some c) (fun c' hc => by cases hc; exact hi) hip h1 h2
    rw [show Item.calls s (some c) = g.calls s0 (.drive c) from guest_calls s0 g s hg c] at this
    exact ⟨s', this⟩

theorem hear_selected (g : Guest) (k : Nat) (i : GuestItem) (h : g.selected = true) :
    (g.hear k i).1.selected = true := by
  cases i <;> simp only [Guest.hear] <;> (repeat' split) <;> first | exact h | rfl

theorem hear_uid (g : Guest) (k : Nat) (i : GuestItem) : (g.hear k i).1.uid = g.uid := by
  cases i <;> simp only [Guest.hear] <;> (repeat' split) <;> rfl

/-- Several rounds. -/
theorem guest_rounds (e : Env) (s0 : Rx) : ∀ (rs : List Round) (items : List GuestItem) (seen : List (BitVec 32))
    (g : Guest) (s : Rx), Reachable e s → Ready e s → GuestIs s0 g s → s.q.logon = [] →
    (∀ r ∈ rs, r.Sent) → items.map GuestItem.packet = rs.map (fun r => .ok r.packet) →
    (∀ i ∈ items, i.Legal s0.logon.cidFront s0.logon.sessionFront) → SelectedFirst seen items → (g.uid ∈ seen → g.selected = true) →
    ∃ s', s.run e (rs.flatMap Round.ops) = .ok s' ∧ Ready e s' ∧
      GuestIs s0 (g.after ((rs.map Round.drawn).zip items)) s' ∧ s'.q.logon = [] ∧ s.trace <+: s'.trace ∧
      drivingCalls s s' = g.allCalls s0 ((rs.map Round.drawn).zip items) ∧
      (heardRounds e s rs).map inCutout =
        (g.replies ((rs.map Round.drawn).zip items)).map (fun r => some (r.map (Reply.word e s0))) := by
  intro rs
  induction rs with
  | nil =>
    intro items seen g s _ h1 h2 h3 _ _ _ _ _
    exact ⟨s, rfl, h1, h2, h3, List.prefix_refl _, by simp [drivingCalls, newCalls]; rfl, rfl⟩
  | cons r rs ih =>
    intro items seen g s hr hready hg hq hsent hpk hleg hfirst hseen
    obtain _ | ⟨i, items⟩ := items
    · cases hpk
    simp only [List.map_cons, List.cons.injEq] at hpk
    obtain ⟨hp, hpk⟩ := hpk
    have hsel : ∀ m u n, i = .assign m u n → u = g.uid → g.selected = true := by
      rintro m u n rfl rfl
      exact hseen hfirst.1
    obtain ⟨s1, h1⟩ := guest_round e s0 g s hr hready hg hq r (hsent r (.head _)) i (hleg i (.head _)) hp hsel
    have next : ∃ seen', SelectedFirst seen' items ∧
        ((g.hear r.drawn i).1.uid ∈ seen' → (g.hear r.drawn i).1.selected = true) := by
      have keep : (g.uid ∈ seen → (g.hear r.drawn i).1.selected = true) :=
        fun h => hear_selected g _ i (hseen h)
      rw [hear_uid]
      cases i with
      | select m u sub =>
        refine ⟨u :: seen, hfirst, fun h => ?_⟩
        rcases List.mem_cons.mp h with h | h
        · simp only [Guest.hear]
          by_cases hn : g.number = none
          · rw [if_pos ⟨h.symm, hn⟩]
          · rw [if_neg (fun hx => hn hx.2)]; exact hg.order hn
        · exact keep h
      | assign m u n => exact ⟨seen, hfirst.2, keep⟩
      | enable => exact ⟨seen, hfirst, keep⟩
      | idle => exact ⟨seen, hfirst, keep⟩
      | drive => exact ⟨seen, hfirst, keep⟩
    obtain ⟨seen', hf', hs'⟩ := next
    obtain ⟨s2, i1, i2, i3, i4, i5, i6, i7⟩ := ih items seen' _ s1 (hr.run _ h1.run) h1.ready h1.guest h1.silent
      (fun r hr => hsent r (.tail _ hr)) hpk (fun i hi => hleg i (.tail _ hi)) hf' hs'
    refine ⟨s2, ?_, i2, i3, i4, h1.trace.trans i5, ?_, ?_⟩
    · rw [List.flatMap_cons, run_append e _ _ s _ h1.run]; exact i1
    · rw [drivingCalls_trans h1.trace i5, h1.calls, i6]; rfl
    · rw [heardRounds, h1.run]
      simp only [List.map_cons, List.zip_cons_cons, Guest.replies, h1.reply, i7]

end Dcc
