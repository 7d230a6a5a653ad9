import Verif.Lemmas.RxConfig
import Verif.Lemmas.RxCvExec
import Verif.Lemmas.RxCvShort
import Verif.Lemmas.RxFault
import Verif.Lemmas.RxThrottle
import Verif.Spec.Programming
/-! A decoder that only gets what a programmer sends. -/
namespace Dcc
open Spec

/-! ### The packets -/

private theorem cv_bytes : ∀ cv : Fin 1024,
    (cvHigh 0x74#8 (BitVec.ofNat 32 cv)).toNat = 0x74 + cv / 256 ∧
    (cvHigh 0x7C#8 (BitVec.ofNat 32 cv)).toNat = 0x7C + cv / 256 ∧
    (cvHigh 0x78#8 (BitVec.ofNat 32 cv)).toNat = 0x78 + cv / 256 ∧
    ((BitVec.ofNat 32 cv).setWidth 8).toNat = cv % 256 := by decide +kernel

private theorem bit_byte : ∀ (b : Bool) (pos : Fin 8),
    (cvBitByte 0xE0#8 b (BitVec.ofNat 32 pos)).getLsbD 4 = false ∧
    (cvBitByte 0xE0#8 b (BitVec.ofNat 32 pos)).getLsbD 3 = b ∧
    (cvBitByte 0xE0#8 b (BitVec.ofNat 32 pos)).toNat % 8 = pos ∧
    (cvBitByte 0xF0#8 b (BitVec.ofNat 32 pos)).getLsbD 4 = true ∧
    (cvBitByte 0xF0#8 b (BitVec.ofNat 32 pos)).getLsbD 3 = b ∧
    (cvBitByte 0xF0#8 b (BitVec.ofNat 32 pos)).toNat % 8 = pos := by decide +kernel

/-- The packet of a direct mode request asks for it. -/
theorem direct_packet (k : Kind) (a : Access) (ha : a.Legal) :
    ∃ b0 b1 b2, (ServiceItem.direct k a).packet = finish [b0, b1, b2] ∧
      112 ≤ b0.toNat ∧ b0.toNat ≤ 127 ∧ ∀ r, longRequest (b0 :: b1 :: b2 :: r) = some (k, a) := by
  cases a with
  | byte cv b =>
    have hcv : cv < 1024 := ha
    obtain ⟨h1, h2, h3, h4⟩ := cv_bytes ⟨cv, hcv⟩
    dsimp only at h1 h2 h3 h4
    cases k with
    | verify =>
      refine ⟨_, _, _, rfl, by omega, by omega, fun r => ?_⟩
      unfold longRequest
      dsimp only
      rw [h1, h4, if_pos (by omega)]
      congr 4
      omega
    | write =>
      refine ⟨_, _, _, rfl, by omega, by omega, fun r => ?_⟩
      unfold longRequest
      dsimp only
      rw [h2, h4, if_neg (by omega), if_pos (by omega)]
      congr 4
      omega
  | bit cv b pos =>
    obtain ⟨hcv, hpos⟩ : cv < 1024 ∧ pos < 8 := ha
    obtain ⟨h1, h2, h3, h4⟩ := cv_bytes ⟨cv, hcv⟩
    obtain ⟨g1, g2, g3, g4, g5, g6⟩ := bit_byte b ⟨pos, hpos⟩
    dsimp only at h1 h2 h3 h4 g1 g2 g3 g4 g5 g6
    have hc : (120 + cv / 256) % 4 * 256 + cv % 256 = cv := by omega
    cases k with
    | verify =>
      refine ⟨_, _, _, rfl, by omega, by omega, fun r => ?_⟩
      unfold longRequest
      dsimp only
      rw [h3, h4, if_neg (by omega), if_neg (by omega), if_pos (by omega), g1, g2, g3, hc]
      rfl
    | write =>
      refine ⟨_, _, _, rfl, by omega, by omega, fun r => ?_⟩
      unfold longRequest
      dsimp only
      rw [h3, h4, if_neg (by omega), if_neg (by omega), if_pos (by omega), g4, g5, g6, hc]
      rfl

theorem direct_bytes {k : Kind} {a : Access} (ha : a.Legal) {p : Packet}
    (hp : (ServiceItem.direct k a).packet = .ok p) :
    p.length = 4 ∧ (∃ b rest, p = b :: rest ∧ 112 ≤ b.toNat ∧ b.toNat ≤ 127) ∧
      longRequest p = some (k, a) ∧ exor p = 0#8 := by
  obtain ⟨b0, b1, b2, h1, h2, h3, h4⟩ := direct_packet k a ha
  rw [h1, finish_ok _ (by simp [maxPacketSize])] at hp
  cases hp
  exact ⟨rfl, ⟨_, _, rfl, h2, h3⟩, h4 _, exor_finish _⟩

theorem direct_some (k : Kind) (a : Access) (ha : a.Legal) :
    ∃ p, (ServiceItem.direct k a).packet = .ok p := by
  obtain ⟨b0, b1, b2, h1, _⟩ := direct_packet k a ha
  rw [h1]
  exact ⟨_, finish_ok _ (by simp [maxPacketSize])⟩

/-- Different requests have different packets. -/
theorem direct_injective {k k' : Kind} {a a' : Access} (ha : a.Legal) (ha' : a'.Legal) {p : Packet}
    (hp : (ServiceItem.direct k a).packet = .ok p) (hp' : (ServiceItem.direct k' a').packet = .ok p) :
    (k, a) = (k', a') := by
  have h1 := (direct_bytes ha hp).2.2.1
  have h2 := (direct_bytes ha' hp').2.2.1
  rw [h1] at h2
  exact Option.some.inj h2

theorem ServiceItem.valid {i : ServiceItem} (hi : i.Legal) {p : Packet} (hp : i.packet = .ok p) :
    ValidPacket p ∧ isLogon p = false := by
  cases i with
  | reset => cases hp; exact ⟨⟨by decide, by decide, by decide⟩, rfl⟩
  | idle => cases hp; exact ⟨⟨by decide, by decide, by decide⟩, rfl⟩
  | direct k a =>
    obtain ⟨h1, ⟨b, rest, rfl, h2, h3⟩, -, h4⟩ := direct_bytes hi hp
    refine ⟨⟨by omega, by rw [h1]; decide, h4⟩, ?_⟩
    unfold isLogon
    rw [List.head?_cons, beq_eq_false_iff_ne]
    intro h
    cases h
    simp at h3

/-! ### One packet -/

theorem sessionCalls_of {s s' : Rx} {evs : List Event} (h : s'.trace = s.trace ++ evs) :
    sessionCalls s s' = evs.filter Event.isSession := by
  unfold sessionCalls; rw [newCalls_append h]

theorem sessionCalls_trans {a b c : Rx} (h : a.trace <+: b.trace) (g : b.trace <+: c.trace) :
    sessionCalls a c = sessionCalls a b ++ sessionCalls b c := by
  obtain ⟨x, hx⟩ := h
  obtain ⟨y, hy⟩ := g
  rw [sessionCalls_of hx.symm, sessionCalls_of hy.symm,
    sessionCalls_of (s := a) (s' := c) (evs := x ++ y) (by rw [← hy, ← hx, List.append_assoc]),
    List.filter_append]

theorem session_quiet {evs : List Event} (h : ∀ ev ∈ evs, ev.isQuiet = true) :
    evs.filter Event.isSession = [] := by
  rw [List.filter_eq_nil_iff]
  intro ev hev
  have := h ev hev
  cases ev <;> first | cases this; done | exact Bool.false_ne_true

theorem deviceOf_eq {m : BitVec 32 → Byte} {s : Rx} {d : Device} (h1 : mem m s.trace = d.cvs)
    (h2 : s.serviceMode = d.service) (h3 : s.cvCount = (d.last, d.count)) : deviceOf m s = d := by
  have h4 : s.lastOwnCvPacket = d.last := congrArg Prod.fst h3
  have h5 : s.ownEqualCvPackets = d.count := congrArg Prod.snd h3
  obtain ⟨c, sv, l, n⟩ := d
  unfold deviceOf
  simp only at h1 h2 h4 h5
  rw [h1, h2, h4, h5]

theorem reflects_locks {c : BitVec 32 → Byte} {s : Rx} (h : Reflects c s) : s.cfg.cvsLocked = locks c := by
  have := h.locked
  unfold Spec.locks
  rw [Bool.eq_iff_iff, this, decide_eq_true_iff]

/-- The calls of a permitted access. -/
theorem memory_calls {e : Env} {m : BitVec 32 → Byte} (hm : Memory e m) (tr : List Event) (k : Kind)
    (a : Access) (ha : a.Legal) : accessCalls e tr true k a = accessCall (mem m tr) k a ::
      (if acknowledged (mem m tr) k a then [.serviceAck] else []) := by
  cases a with
  | byte cv b =>
    cases k with
    | verify =>
      simp only [accessCalls, hm.syncRead, Bool.false_eq_true, if_false, hm.readByte, accessCall,
        acknowledged, ack, Bool.true_and]
      rfl
    | write =>
      simp only [accessCalls, hm.sync, Bool.false_eq_true, if_false, hm.writeByte, accessCall,
        acknowledged, ack, Bool.true_and, decide_true]
  | bit cv b pos =>
    obtain ⟨-, hpos⟩ : cv < 1024 ∧ pos < 8 := ha
    have hp : (BitVec.ofNat 32 pos).toNat = pos := by
      rw [BitVec.toNat_ofNat, Nat.mod_eq_of_lt (by omega)]
    cases k with
    | verify =>
      simp only [accessCalls, hm.syncRead, Bool.false_eq_true, if_false, hm.readBit, accessCall,
        acknowledged, ack, Bool.true_and, hp]
      rfl
    | write =>
      simp only [accessCalls, hm.sync, Bool.false_eq_true, if_false, hm.writeBit, accessCall,
        acknowledged, ack, Bool.true_and, decide_true]

theorem action_performed {e : Env} {m : BitVec 32 → Byte} (hm : Memory e m) (tr : List Event) (k : Kind)
    (a : Access) (ha : a.Legal) :
    actionCalls e tr true (locks (mem m tr)) (some (k, a)) = (performed (mem m tr) k a).2 ∧
    mem (mem m tr) (performed (mem m tr) k a).2 = (performed (mem m tr) k a).1 ∧
    (performed (mem m tr) k a).2.filter Event.isSession = (performed (mem m tr) k a).2 := by
  unfold actionCalls performed
  dsimp only
  split
  · refine ⟨memory_calls hm tr k a ha, ?_, ?_⟩
    · cases k with
      | verify => exact mem_quiet _ _ (by
          intro ev hev
          cases a <;> simp only [accessCall] at hev <;> split at hev <;> simp at hev <;>
            first | (rcases hev with rfl | rfl <;> rfl) | (subst hev; rfl))
      | write =>
        have := mem_accessCalls e tr true a (mem m tr)
        rw [memory_calls hm tr .write a ha] at this
        exact this
    · rw [List.filter_eq_self]
      intro ev hev
      cases a <;> cases k <;> simp only [accessCall] at hev <;> split at hev <;> simp at hev <;>
        first | (rcases hev with rfl | rfl <;> rfl) | (subst hev; rfl)
  · exact ⟨rfl, rfl, rfl⟩

theorem Device.step_direct (d : Device) (hd : d.service = true) {k : Kind} {a : Access} {p : Packet}
    (hp : (ServiceItem.direct k a).packet = .ok p) : d.step (.direct k a) =
      if (if d.last = p then d.count + 1 else 1) = 2 then
        ({ cvs := (performed d.cvs k a).1, service := d.service, last := p, count := 2 },
          (performed d.cvs k a).2)
      else ({ d with last := p, count := if d.last = p then d.count + 1 else 1 }, []) := by
  show (match d.service, (ServiceItem.direct k a).packet with
    | false, _ => _ | true, .error _ => _ | true, .ok p => _) = _
  rw [hp, hd]
  dsimp only
  generalize (if d.last = p then d.count + 1 else 1) = n
  split
  · rename_i h; rw [h]
  · rfl

/-- Outside service mode a direct mode packet seems to have another address. -/
theorem direct_foreign {c : BitVec 32 → Byte} {s : Rx} (hr : Reflects c s) (hl : s.addrs.logon.value = 0#16)
    (he : Elsewhere c) {p : Packet} {b : Byte} {r : List Byte} (hb : p = b :: r) (h7 : 112 ≤ b.toNat)
    (h8 : b.toNat ≤ 127) : ¬ ForDecoder s p := by
  rintro ⟨n, hn, h⟩
  have hn' : n = b.toNat := by
    rw [hb, locoNumber, if_pos h8] at hn
    exact (Option.some.inj hn).symm
  subst hn'
  obtain ⟨h1, h2⟩ := he
  rw [← hr.primaryValue] at h1
  rw [← hr.consistValue] at h2
  rcases h with h | h
  · omega
  · unfold Active at h
    rw [if_pos hl] at h
    omega

theorem Device.step_outside (d : Device) (hd : d.service = false) (k : Kind) (a : Access) :
    d.step (.direct k a) = (d, []) := by
  show (match d.service, (ServiceItem.direct k a).packet with
    | false, _ => _ | true, .error _ => _ | true, .ok p => _) = _
  rw [hd]

/-- Executing what a programmer sends. -/
theorem item_session {e : Env} {m : BitVec 32 → Byte} (hm : Memory e m) {s s' : Rx} {now : Int} {rand : Nat}
    {ret : Bool} (hr : Reachable e s) (hs : Settled m s)
    {i : ServiceItem} (hi : i.Legal) 
    (hsv : (∃ k a, i = .direct k a) → s.serviceMode = true ∨ Elsewhere (mem m s.trace)) {p : Packet}
    (hp : i.packet = .ok p) (hf : front s = some p) (h : s.execute e now rand = .ok (s', ret)) :
    deviceOf m s' = ((deviceOf m s).step i).1 ∧ sessionCalls s s' = ((deviceOf m s).step i).2 ∧
      s.trace <+: s'.trace := by
  have hv := hr.lengths
  have hcount := execute_count e s s' now rand ret hv h
  rw [hf] at hcount
  obtain ⟨stores, ht, hls⟩ := prepared_trace e s now
  rw [hls.none hs.store, List.append_nil] at ht
  obtain ⟨m1, m2, m3⟩ := prepared_modes e s now
  -- nothing happens
  have plain : cvRequest s p = false → s' = (s.prepared e now).popFront →
      ((deviceOf m s).step i) = (deviceOf m s, []) →
      deviceOf m s' = ((deviceOf m s).step i).1 ∧ sessionCalls s s' = ((deviceOf m s).step i).2 ∧
      s.trace <+: s'.trace := by
    intro hc hs hd
    have htr : s'.trace = s.trace ++ [] := by rw [hs, List.append_nil]; exact ht
    rw [hd]
    refine ⟨deviceOf_eq ?_ ?_ ?_, ?_, ?_⟩
    · rw [htr, List.append_nil]; rfl
    · rw [hs]; exact m1
    · rw [hcount]; simp [hc]; rfl
    · rw [sessionCalls_of htr]; rfl
    · rw [htr]; exact List.prefix_append _ _
  -- the mode changes
  have hook : ∀ b, cvRequest s p = false → s' = ((s.prepared e now).setServiceMode b).popFront →
      ((deviceOf m s).step i) = ({ deviceOf m s with service := b }, [.serviceModeHook b]) →
      deviceOf m s' = ((deviceOf m s).step i).1 ∧ sessionCalls s s' = ((deviceOf m s).step i).2 ∧
      s.trace <+: s'.trace := by
    intro b hc hs hd
    have htr : s'.trace = s.trace ++ [.serviceModeHook b] := by
      rw [hs]
      show (s.prepared e now).trace ++ _ = _
      rw [ht]
    rw [hd]
    refine ⟨deviceOf_eq ?_ ?_ ?_, ?_, ?_⟩
    · rw [htr, mem_append_quiet _ _ _ (by simp [Event.stores])]; rfl
    · rw [hs]; cases b <;> rfl
    · rw [hcount]; simp [hc]; rfl
    · rw [sessionCalls_of htr]; rfl
    · rw [htr]; exact List.prefix_append _ _
  obtain ⟨hpe, rest, hdq⟩ := front_eq.mp hf
  cases i with
  | reset =>
    cases hp
    have hc : cvRequest s makeResetPacket = false := by
      unfold cvRequest
      split
      · rfl
      · simp [makeResetPacket, locoNumber, afterAddress]
    cases exec_cases e s s' now rand ret hv h with
    | idle h _ _ => rcases h with h | h <;> simp_all
    | foreign q rest hp hd hm' hfd hs _ =>
      rw [hdq] at hd; cases hd
      exact absurd ⟨0, rfl, .inl rfl⟩ hfd
    | service q rest s2 hp hd hm' h hs =>
      rw [hdq] at hd; cases hd
      refine plain hc ?_ ?_
      · rw [hs]
        cases (service_cases e _ s2 _ ret h).1 with
        | ignored h1 h2 => rw [h2]
        | leave b r hb h0 _ _ => cases hb; exact absurd rfl h0
        | register b r hb h7 _ _ => cases hb; exact absurd h7 (by decide)
        | direct b r hb h7 _ _ => cases hb; exact absurd h7 (by decide)
      · unfold Device.step
        simp only [deviceOf, hm', if_true]
    | operations q rest n s2 hp hd hm' hn ha h hs _ =>
      rw [hdq] at hd; cases hd
      cases hn
      obtain ⟨b, hb, hi⟩ := instruction_cases e _ s2 _ _ _ rand h
      have hb : some 0#8 = some b := hb
      cases hb
      have htg : target s 0 = 0#16 := by unfold target; rw [if_pos (.inl rfl)]
      cases hi with
      | enter _ _ h2 =>
        refine hook true hc (by rw [hs, h2]) ?_
        unfold Device.step
        simp only [deviceOf, hm', Bool.false_eq_true, if_false]
      | control _ hn _ => exact absurd ⟨htg, rfl⟩ hn
      | consist hc' _ => exact absurd hc' (by decide)
      | drives hc' _ => exact absurd hc' (by decide)
      | searches hc' _ _ _ => exact absurd hc' (by decide)
      | cvLong hc' _ => exact absurd hc' (by decide)
      | cvShort hc' _ => exact absurd hc' (by decide)
  | idle =>
    cases hp
    have hc : cvRequest s makeIdlePacket = false := by
      unfold cvRequest
      split
      · rfl
      · simp [makeIdlePacket, locoNumber]
    cases exec_cases e s s' now rand ret hv h with
    | idle h _ _ => rcases h with h | h <;> simp_all
    | foreign q rest hp hd hm' hfd hs _ =>
      refine plain hc hs ?_
      unfold Device.step
      simp only [deviceOf, hm', Bool.false_eq_true, if_false]
    | service q rest s2 hp hd hm' h hs =>
      rw [hdq] at hd; cases hd
      refine hook false hc ?_ ?_
      · rw [hs]
        cases (service_cases e _ s2 _ ret h).1 with
        | ignored h1 h2 =>
          rcases h1 with ⟨r, h1⟩ | ⟨b, r, h1, h7, _⟩
          · cases h1
          · cases h1; exact absurd h7 (by decide)
        | leave b r hb h0 _ h2 => rw [h2]
        | register b r hb h7 _ _ => cases hb; exact absurd h7 (by decide)
        | direct b r hb h7 _ _ => cases hb; exact absurd h7 (by decide)
      · unfold Device.step
        simp only [deviceOf, hm', if_true]
    | operations q rest n s2 hp hd hm' hn ha h hs _ =>
      rw [hdq] at hd; cases hd
      simp [makeIdlePacket, locoNumber] at hn
  | direct k a =>
    obtain ⟨hl, ⟨b, r, hb, h7, h8⟩, hlr, -⟩ := direct_bytes hi hp
    cases hmode : s.serviceMode with
    | false =>
      have hfd := direct_foreign hs.reflects hs.address
        ((hsv ⟨k, a, rfl⟩).resolve_left (by simp [hmode])) hb h7 h8
      have hln : locoNumber p = some b.toNat := by rw [hb, locoNumber, if_pos h8]
      have hc : cvRequest s p = false := by
        unfold cvRequest
        rw [if_neg (by simp [hmode]), hln]
        have h1 : ¬ (b.toNat = 0 ∨ Active s b.toNat) := fun h => hfd ⟨_, hln, h⟩
        simp only [not_or] at h1
        simp [h1]
      refine plain hc ?_ (Device.step_outside _ hmode k a)
      cases exec_cases e s s' now rand ret hv h with
      | idle h _ _ => rcases h with h | h <;> simp_all
      | foreign q rest hp hd hm' hfd hs _ => exact hs
      | service q rest s2 hp hd hm' h hs => rw [hmode] at hm'; cases hm'
      | operations q rest n s2 hp hd hm' hn ha h hs _ =>
        rw [hdq] at hd; cases hd
        exact absurd ⟨n, hn, ha⟩ hfd
    | true =>
      have hc : cvRequest s p = true := by
        unfold cvRequest
        rw [if_pos hmode, hl, hb]
        simp [h7, h8]
      obtain ⟨st, quiet, h1, h2, h3, h4⟩ := execute_direct e s s' now rand ret p hv hmode hf hc h
      obtain ⟨h5, -, -, -⟩ := direct_frame e s s' now rand ret p hv hmode hf hc h
      rw [h1.none hs.store, List.append_nil, reflects_locks hs.reflects] at h3
      have hcount : s'.cvCount = countPacket s.cvCount p := by rw [hcount]; simp [hc]
      have hn : (countPacket s.cvCount p) =
          (p, if s.lastOwnCvPacket = p then s.ownEqualCvPackets + 1 else 1) := by
        unfold countPacket Rx.cvCount
        dsimp only
        split
        · rename_i h; rw [h]
        · rfl
      have hsm : s'.serviceMode = s.serviceMode := by unfold Rx.serviceMode; rw [h5]
      have hq : ∀ ev ∈ quiet, ev.stores = false := fun ev hev => stores_of_quiet ev (h2 ev hev)
      rw [Device.step_direct _ hmode hp]
      rw [hn] at hcount h3
      dsimp only at h3
      unfold directAction at h3
      have hd1 : (deviceOf m s).last = s.lastOwnCvPacket := rfl
      have hd2 : (deviceOf m s).count = s.ownEqualCvPackets := rfl
      rw [hd1, hd2]
      generalize (if s.lastOwnCvPacket = p then s.ownEqualCvPackets + 1 else 1) = n at hcount h3 ⊢
      split
      · rename_i h2'
        subst h2'
        rw [if_pos rfl, hlr] at h3
        obtain ⟨g1, g2, g3⟩ := action_performed hm s.trace k a hi
        rw [g1] at h3
        refine ⟨deviceOf_eq ?_ hsm hcount, ?_, ?_⟩
        · rw [h3, mem_append_quiet _ _ _ hq, mem_append, g2]; rfl
        · rw [sessionCalls_of (by rw [h3, List.append_assoc]), List.filter_append, g3, session_quiet h2,
            List.append_nil]
          rfl
        · rw [h3, List.append_assoc]; exact List.prefix_append _ _
      · rename_i h2'
        rw [if_neg h2'] at h3
        simp only [actionCalls, List.append_nil] at h3
        refine ⟨deviceOf_eq ?_ hsm hcount, ?_, ?_⟩
        · rw [h3, mem_append_quiet _ _ _ hq]; rfl
        · rw [sessionCalls_of h3, session_quiet h2]
        · rw [h3]; exact List.prefix_append _ _

/-! ### No fault -/

theorem init_total {e : Env} {m : BitVec 32 → Byte} (hm : MemoryLike e m) (s : Rx)
    (h : HasAddress (mem m s.trace)) : ∃ s', s.init e = .ok s' := by
  have k1 : ∀ b : Byte, b.toNat < 192 ∨ 231 < b.toNat → ∃ a, decodeAddress [b] = .ok a := by
    have : ∀ b : Byte, b.toNat < 192 ∨ 231 < b.toNat → (decodeAddress [b]).isOk = true := by decide +kernel
    intro b hb
    have := this b hb
    cases hd : decodeAddress [b] with
    | ok a => exact ⟨a, rfl⟩
    | error f => rw [hd] at this; cases this
  obtain ⟨cv29, prim, v, evs, h1, h2, -, -, h5⟩ := init_eq e s
  have h29 := h1.mem hm
  obtain ⟨a, ha⟩ : ∃ a, decodeAddress prim = .ok a := by
    unfold PrimaryBytes at h2
    split at h2
    · obtain ⟨a, b, rfl, -⟩ := h2
      cases hd : decodeAddress [a, b] with
      | ok x => exact ⟨x, rfl⟩
      | error f => have := (decodeAddress_error hd).1; simp at this
    · rename_i hn
      obtain ⟨a, rfl, h3⟩ := h2
      refine k1 a ?_
      rw [h3.mem hm]
      rcases h with h | h
      · exact absurd (by rw [h29]; exact h) hn
      · exact h
  rw [h5, ha]
  exact ⟨_, rfl⟩

theorem writeByte_total {e : Env} {m : BitVec 32 → Byte} (hm : MemoryLike e m) (s : Rx) (cv : Nat)
    (hcv : cv < 2 ^ 32) (b : Byte) (h : permitted s.cfg.cvsLocked .write (.byte cv b) = true →
      HasAddress (applyWrite (mem m s.trace) (.byte cv b))) :
    ∃ s', s.cvWriteByte e (BitVec.ofNat 32 cv) b = .ok s' := by
  rw [cvWriteByte_eq]
  split
  · exact ⟨_, rfl⟩
  · rename_i hn
    unfold Rx.initIfNeeded
    split
    · refine init_total hm _ ?_
      rw [wroteByte_trace, mem_append, mem_accessCalls]
      refine h ?_
      unfold permitted
      cases hl : s.cfg.cvsLocked
      · rfl
      · have : BitVec.ofNat 32 cv = 14#32 := Decidable.byContradiction fun hc => hn ⟨hl, hc⟩
        have : cv = 14 := by
          have := congrArg BitVec.toNat this
          simp at this
          omega
        simp [this, Access.cv]
    · exact ⟨_, rfl⟩

theorem writeBit_total {e : Env} {m : BitVec 32 → Byte} (hm : MemoryLike e m) (s : Rx) (cv : Nat)
    (hcv : cv < 2 ^ 32) (b : Bool) (pos : Nat) (h : permitted s.cfg.cvsLocked .write (.bit cv b pos) = true →
      HasAddress (applyWrite (mem m s.trace) (.bit cv b pos))) :
    ∃ s', s.cvWriteBit e (BitVec.ofNat 32 cv) b (BitVec.ofNat 32 pos) = .ok s' := by
  rw [cvWriteBit_eq]
  split
  · exact ⟨_, rfl⟩
  · rename_i hn
    unfold Rx.initIfNeeded
    split
    · refine init_total hm _ ?_
      rw [wroteBit_trace, mem_append, mem_accessCalls]
      refine h ?_
      unfold permitted
      cases hl : s.cfg.cvsLocked
      · rfl
      · have : BitVec.ofNat 32 cv = 14#32 := Decidable.byContradiction fun hc => hn ⟨hl, hc⟩
        have : cv = 14 := by
          have := congrArg BitVec.toNat this
          simp at this
          omega
        simp [this, Access.cv]
    · exact ⟨_, rfl⟩

theorem verifyByte_total (e : Env) (s : Rx) (cv : BitVec 32) (b : Byte) :
    ∃ s', s.cvVerifyByte e cv b = .ok s' := ⟨_, cvVerifyByte_eq e s cv b⟩

theorem verifyBit_total (e : Env) (s : Rx) (cv : BitVec 32) (b : Bool) (pos : BitVec 32) :
    ∃ s', s.cvVerifyBit e cv b pos = .ok s' := ⟨_, cvVerifyBit_eq e s cv b pos⟩

theorem longBody_total {e : Env} {m : BitVec 32 → Byte} (hm : MemoryLike e m) (s : Rx) (bs : List Byte)
    (hl : 3 ≤ bs.length) (h : ∀ a, longAction s.ownEqualCvPackets bs = some (.write, a) →
      permitted s.cfg.cvsLocked .write a = true → HasAddress (applyWrite (mem m s.trace) a)) :
    ∃ s', s.cvLongBody e bs = .ok s' := by
  obtain _ | ⟨b0, _ | ⟨b1, _ | ⟨b2, rest⟩⟩⟩ := bs
  · simp at hl
  · simp at hl
  · simp at hl
  have hb1 := b1.isLt
  have key : ∀ b : Byte, ((b >>> 2) &&& 3#8).toNat = b.toNat / 4 % 4 := by decide +kernel
  have hop : ∀ k : Byte, ((b0 >>> 2) &&& 3#8 = k ↔ b0.toNat / 4 % 4 = k.toNat) := by
    intro k
    rw [← key]
    exact ⟨fun h => by rw [h], fun h => BitVec.eq_of_toNat_eq h⟩
  unfold Rx.cvLongBody
  simp only [byteAt_zero, byteAt_succ, ok_bind, hop, cvAddrOf_eq, pos_eq]
  simp only [longAction, longRequest] at h
  have h4 : b0.toNat / 4 % 4 = 0 ∨ b0.toNat / 4 % 4 = 1 ∨ b0.toNat / 4 % 4 = 2 ∨
    b0.toNat / 4 % 4 = 3 := by omega
  rcases h4 with h5 | h5 | h5 | h5 <;> rw [h5] at h ⊢
  · exact ⟨_, rfl⟩
  · exact verifyByte_total ..
  · simp only [BitVec.toNat_ofNat, Nat.reducePow, Nat.reduceMod, Nat.reduceEqDiff, if_false, if_true] at h ⊢
    cases hb : b2.getLsbD 4
    · exact verifyBit_total ..
    · rw [hb] at h
      simp only [Bool.not_true, Bool.false_eq_true, if_false, if_true] at h ⊢
      split
      · rename_i h2
        exact writeBit_total hm _ _ (by omega) _ _ (h _ (by rw [if_pos h2]))
      · exact ⟨_, rfl⟩
  · simp only [BitVec.toNat_ofNat, Nat.reducePow, Nat.reduceMod, Nat.reduceEqDiff, if_false, if_true] at h ⊢
    by_cases h1 : s.ownEqualCvPackets < 2
    · rw [if_pos h1]
      exact ⟨_, rfl⟩
    · by_cases h2 : s.ownEqualCvPackets = 2
      · rw [if_neg h1, if_pos h2]
        exact writeByte_total hm _ _ (by omega) _ (h _ (by rw [if_pos h2]))
      · rw [if_neg h1, if_neg h2]
        exact verifyByte_total ..

/-- Executing what a programmer sends does not fault if the CVs have an address afterwards. -/
theorem item_total {e : Env} {m : BitVec 32 → Byte} (hm : Memory e m) {s : Rx} (now : Int) (rand : Nat)
    (hs : Settled m s)
    {i : ServiceItem} (hi : i.Legal) 
    (hsv : (∃ k a, i = .direct k a) → s.serviceMode = true ∨ Elsewhere (mem m s.trace)) {p : Packet}
    (hp : i.packet = .ok p) (hf : front s = some p) (ha : HasAddress ((deviceOf m s).step i).1.cvs) :
    ∃ s' ret, s.execute e now rand = .ok (s', ret) := by
  obtain ⟨stores, ht, hls⟩ := prepared_trace e s now
  rw [hls.none hs.store, List.append_nil] at ht
  obtain ⟨m1, m2, m3⟩ := prepared_modes e s now
  obtain ⟨hpe, rest, hdq⟩ := front_eq.mp hf
  rw [execute_front e s now rand p rest hpe hdq]
  cases i with
  | reset =>
    cases hp
    cases hmode : s.serviceMode
    · rw [if_neg Bool.false_ne_true, operations_for e _ _ rand 0 rfl (.inl rfl)]
      have htg : target (s.prepared e now) 0 = 0#16 := by unfold target; rw [if_pos (.inl rfl)]
      rw [htg]
      exact ⟨_, _, rfl⟩
    · exact ⟨_, _, rfl⟩
  | idle =>
    cases hp
    cases hmode : s.serviceMode
    · rw [if_neg Bool.false_ne_true, operations_foreign e _ _ rand (by decide) (by
        rintro ⟨n, hn, _⟩
        simp [makeIdlePacket, locoNumber] at hn)]
      exact ⟨_, _, rfl⟩
    · exact ⟨_, _, rfl⟩
  | direct k a =>
    obtain ⟨hl, ⟨b, r, hb, h7, h8⟩, hlr, -⟩ := direct_bytes hi hp
    cases hmode : s.serviceMode with
    | false =>
      have hfd := direct_foreign hs.reflects hs.address
        ((hsv ⟨k, a, rfl⟩).resolve_left (by simp [hmode])) hb h7 h8
      rw [if_neg Bool.false_ne_true, operations_foreign e _ _ rand (by omega) (by
        rintro ⟨n, hn, h⟩
        refine hfd ⟨n, hn, h.imp id fun h => ?_⟩
        unfold Active at h ⊢
        rw [m3] at h
        exact h)]
      exact ⟨_, _, rfl⟩
    | true =>
      have h70 : b &&& 0xF0#8 = 0x70#8 := (nibble7 b).mpr ⟨h7, h8⟩
      obtain ⟨s2, h2⟩ : ∃ s2, (s.prepared e now).cvLong e 0#16 p p = .ok s2 := by
        unfold Rx.cvLong
        rw [if_neg (by simp)]
        dsimp only
        split
        · exact ⟨_, rfl⟩
        · rename_i hn
          obtain ⟨f1, f2, f3, f4⟩ := count_fields (s.prepared e now) p
          have hc2 : ((s.prepared e now).countOwnEqualCvPackets p).ownEqualCvPackets = 2 := by
            refine Decidable.byContradiction fun hc => hn ⟨?_, hc⟩
            unfold Rx.serviceMode at m1 hmode ⊢
            rw [f2, m1]
            exact hmode
          have hcd : (if (deviceOf m s).last = p then (deviceOf m s).count + 1 else 1) = 2 := by
            show (if s.lastOwnCvPacket = p then s.ownEqualCvPackets + 1 else 1) = 2
            have hcc := count_cvCount (s.prepared e now) p
            rw [prepared_cvCount] at hcc
            have hcc := congrArg Prod.snd hcc
            have hcc : ((s.prepared e now).countOwnEqualCvPackets p).ownEqualCvPackets =
              (countPacket s.cvCount p).2 := hcc
            rw [hc2] at hcc
            unfold countPacket Rx.cvCount at hcc
            dsimp only at hcc
            split at hcc
            · rename_i hlp; rw [if_pos hlp, hcc]
            · rename_i hlp; simp at hcc
          rw [Device.step_direct _ hmode hp, if_pos hcd] at ha
          refine longBody_total hm.toMemoryLike _ _ (by omega) ?_
          intro a' hla hperm
          rw [hc2, longAction_two, hlr] at hla
          cases hla
          rw [f3, m2, reflects_locks hs.reflects] at hperm
          rw [f1, ht]
          unfold performed at ha
          have hperm' : permitted (locks (deviceOf m s).cvs) .write a = true := hperm
          rw [if_pos hperm'] at ha
          exact ha
      rw [if_pos rfl]
      unfold Rx.executeService
      rw [hb] at h2 hl ⊢
      rw [byteAt_zero, ok_bind, if_neg (by rintro rfl; simp at h7), if_neg (by simp [h70]), if_neg (by omega),
        if_pos hl, h2]
      exact ⟨_, _, rfl⟩

/-! ### Other calls -/

/-- The calls a user class gets without asynchronous access do not include the callbacks. -/
theorem other_session {e : Env} (m : BitVec 32 → Byte) {s s' : Rx} (hr : Reachable e s) {op : RxOp}
    (h1 : op ≠ .init) (h2 : op ≠ .disable) (h3 : op.isExecute = false)
    (h4 : ∀ i v, op ≠ .callbackByte i v) (h5 : ∀ i v, op ≠ .callbackBit i v)
    (hf : op.isReceive = true → s.deque.length < e.rxDeque)
    (hl : ∀ t r l p, op = .receive t r → s.link.step t = .ok (l, some (.packet p)) → isLogon p = false)
    (h : s.step e op = .ok s') :
    deviceOf m s' = deviceOf m s ∧ sessionCalls s s' = [] ∧ s.trace <+: s'.trace ∧
      s'.logon.assigned = s.logon.assigned ∧ s'.addrs.logon = s.addrs.logon := by
  have hcount := step_count e s s' op hr h
  rw [h3] at hcount
  obtain ⟨hst, -, -⟩ := other_step e s s' hr op h1 h2 h3 hf hl h
  have key : ∀ {P : Event → Prop}, (∀ ev, P ev → ev.stores = false ∧ Event.isSession ev = false) →
      Adds P s s' → s'.logon.assigned = s.logon.assigned →
      deviceOf m s' = deviceOf m s ∧ sessionCalls s s' = [] ∧ s.trace <+: s'.trace ∧
      s'.logon.assigned = s.logon.assigned ∧ s'.addrs.logon = s.addrs.logon := by
    rintro P hP ⟨evs, ht, he⟩ ha
    refine ⟨deviceOf_eq ?_ hst.serviceMode hcount, ?_, ?_, ha, hst.logon⟩
    · rw [ht, mem_append_quiet _ _ _ fun ev hev => (hP ev (he ev hev)).1]; rfl
    · rw [sessionCalls_of ht, List.filter_eq_nil_iff]
      intro ev hev
      rw [(hP ev (he ev hev)).2]
      exact Bool.false_ne_true
    · rw [ht]; exact List.prefix_append _ _
  have quiet : ∀ ev : Event, ev.isQuiet = true → ev.stores = false ∧ Event.isSession ev = false := by
    intro ev hev
    cases ev <;> first | exact ⟨rfl, rfl⟩ | cases hev
  have bidi : ∀ ev : Event, (∃ bs, ev = .transmitBiDi bs) → ev.stores = false ∧ Event.isSession ev = false := by
    rintro _ ⟨_, rfl⟩; exact ⟨rfl, rfl⟩
  cases op with
  | init => exact absurd rfl h1
  | disable => exact absurd rfl h2
  | execute => cases h3
  | callbackByte i v => exact absurd rfl (h4 i v)
  | callbackBit i v => exact absurd rfl (h5 i v)
  | enable =>
    simp only [Rx.step, Rx.enable, Except.ok.injEq] at h
    subst h
    refine key quiet ?_ ?_
    · split <;> exact .of_eq rfl
    · split <;> rfl
  | receive t r =>
    have f := (receive_frame e s hr.recvInv.room t r).out _ h
    refine key quiet f.adds ?_
    obtain ⟨out, h5, h6⟩ := receive_spec e s s' t r h (hf rfl)
    rcases out with _ | (_ | p | _)
    · have h6 : s' = _ := h6
      rw [h6]
    · have h6 : s' = _ := h6
      rw [h6]
    · obtain ⟨a, _, h6⟩ := h6
      rw [hl t r _ p rfl h5, if_neg Bool.false_ne_true] at h6
      rw [h6]
    · have h6 : s' = _ := h6
      rw [h6]
  | datagram ds =>
    obtain ⟨q, b, rfl⟩ := datagram_eq e s s' ds h
    exact key quiet (.of_eq rfl) rfl
  | biDiChannel1 =>
    simp only [Rx.step, Except.ok.injEq] at h
    obtain ⟨q, evs, h4, h5⟩ := channel1_adds s
    rw [← h, h4]
    rw [← h, h4] at key
    exact key bidi ⟨evs, rfl, h5⟩ rfl
  | biDiChannel2 =>
    obtain ⟨q, evs, rfl, h5⟩ := (channel2_adds s).out _ h
    exact key bidi ⟨evs, rfl, h5⟩ rfl

theorem execute_assigned {e : Env} {s s' : Rx} {now : Int} {rand : Nat} {ret : Bool}
    (h : s.execute e now rand = .ok (s', ret)) :
    s'.logon.assigned = s.logon.assigned ∧ s'.addrs.logon = s.addrs.logon := by
  rcases execute_cases e s s' now rand ret h with ⟨-, rfl, -⟩ | ⟨p, rest, s2, s3, -, -, -, f1, -, f2, rfl⟩
  · exact ⟨rfl, rfl⟩
  · exact ⟨f2.assigned.trans f1.assigned, f2.logonAddr.trans (by rw [f1.addrs])⟩

/-! ### Requests -/

theorem Device.run_append (d : Device) (xs ys : List ServiceItem) : d.run (xs ++ ys) =
    (((d.run xs).1.run ys).1, (d.run xs).2 ++ ((d.run xs).1.run ys).2) := by
  induction xs generalizing d with
  | nil => simp [Device.run]
  | cons x xs ih => simp [Device.run, ih]

theorem run_resets (n : Nat) (d : Device) (hd : d.service = true) :
    d.run (List.replicate n .reset) = (d, []) := by
  have h1 : d.step .reset = (d, []) := by unfold Device.step; simp only [hd, if_true]
  induction n with
  | zero => rfl
  | succ n ih => rw [List.replicate_succ, Device.run, h1, ih]; rfl

/-- After the second one of identical packets nothing happens. -/
theorem run_repeated {k : Kind} {a : Access} {p : Packet} (hp : (ServiceItem.direct k a).packet = .ok p)
    (n : Nat) : ∀ d : Device, d.service = true → d.last = p → 2 ≤ d.count →
    d.run (List.replicate n (.direct k a)) = ({ d with count := d.count + n }, []) := by
  induction n with
  | zero => intro d _ _ _; rfl
  | succ n ih =>
    intro d h0 h1 h2
    rw [List.replicate_succ, Device.run, Device.step_direct d h0 hp, if_pos h1, if_neg (by omega)]
    dsimp only
    rw [ih _ (by exact h0) rfl (by dsimp only; omega)]
    dsimp only [List.nil_append]
    rw [h1, Nat.add_assoc, Nat.add_comm 1]

theorem run_direct {k : Kind} {a : Access} {p : Packet} (hp : (ServiceItem.direct k a).packet = .ok p)
    (n : Nat) (hn : 2 ≤ n) (d : Device) (hs : d.service = true) (hd : d.last ≠ p) :
    d.run (List.replicate n (.direct k a)) =
      ({ d with cvs := (performed d.cvs k a).1, last := p, count := n }, (performed d.cvs k a).2) := by
  obtain ⟨n, rfl⟩ := Nat.exists_eq_add_of_le' hn
  rw [List.replicate_succ, List.replicate_succ, Device.run, Device.step_direct d hs hp, if_neg hd,
    if_neg (by decide)]
  dsimp only
  rw [Device.run, Device.step_direct _ (by exact hs) hp]
  dsimp only
  rw [if_pos rfl, if_pos rfl, run_repeated hp n _ (by exact hs) rfl (Nat.le_refl _)]
  simp [Nat.add_comm]

/-- Each request is performed once. -/
theorem run_requests (reqs : List Request) : ∀ d : Device, d.service = true →
    (∀ r ∈ reqs, r.access.Legal ∧ 2 ≤ r.times) → Alternating reqs →
    (∀ r ∈ reqs.head?, .ok d.last ≠ (ServiceItem.direct r.kind r.access).packet) →
    (d.run (reqs.flatMap Request.items)).1.cvs = (performAll d.cvs reqs).1 ∧
      (d.run (reqs.flatMap Request.items)).1.service = true ∧
      (d.run (reqs.flatMap Request.items)).2 = (performAll d.cvs reqs).2.flatten := by
  induction reqs with
  | nil => intro d hd _ _ _; exact ⟨rfl, hd, rfl⟩
  | cons r rs ih =>
    intro d hd hleg halt hlast
    obtain ⟨h1, h2⟩ := hleg r (by simp)
    obtain ⟨p, hp⟩ := direct_some r.kind r.access h1
    have hl : d.last ≠ p := by
      rintro rfl
      exact hlast r (by simp) hp.symm
    have hstep := run_direct hp r.times h2 d hd hl
    have hr : d.run r.items = ({ d with cvs := (performed d.cvs r.kind r.access).1, last := p, count := r.times },
        (performed d.cvs r.kind r.access).2) := by
      unfold Request.items
      rw [Device.run_append, hstep, run_resets _ _ (by exact hd)]
      simp
    obtain ⟨h3, h4, h5⟩ := ih { d with cvs := (performed d.cvs r.kind r.access).1, last := p, count := r.times } hd
      (fun r' hr' => hleg r' (by simp [hr'])) (by
        cases rs with
        | nil => trivial
        | cons r' rs => exact halt.2) (by
        intro r' hr' hc
        cases rs with
        | nil => simp at hr'
        | cons r'' rs =>
          simp only [List.head?_cons, Option.mem_def, Option.some.injEq] at hr'
          subst hr'
          exact halt.1 (direct_injective h1 (hleg r'' (by simp)).1 hp hc.symm))
    rw [List.flatMap_cons, Device.run_append, hr]
    refine ⟨h3, h4, ?_⟩
    rw [h5]
    rfl

theorem performed_verify (c : BitVec 32 → Byte) (a : Access) : (performed c .verify a).1 = c := by
  unfold performed
  split <;> rfl

theorem performAll_verify (c : BitVec 32 → Byte) (times resets : Nat) (as : List Access) :
    performAll c (as.map fun a => ⟨.verify, a, times, resets⟩) =
      (c, as.map fun a => (performed c .verify a).2) := by
  induction as with
  | nil => rfl
  | cons a as ih =>
    simp only [List.map_cons, performAll, performed_verify, ih]

theorem valueOf_bits : ∀ b : Byte, valueOf ((List.range 8).map fun i => b.getLsbD i) = b.toNat := by
  decide +kernel

/-! ### Histories -/

theorem Device.step_service (d : Device) (k : Kind) (a : Access) :
    (d.step (.direct k a)).1.service = d.service := by
  cases hs : d.service with
  | false => rw [Device.step_outside d hs]; exact hs
  | true =>
    cases hp : (ServiceItem.direct k a).packet with
    | error f =>
      show (match d.service, (ServiceItem.direct k a).packet with
        | false, _ => _ | true, .error _ => _ | true, .ok p => _ : Device × List Event).1.service = _
      rw [hp, hs]
      exact hs
    | ok p =>
      rw [Device.step_direct d hs hp]
      generalize (if d.last = p then d.count + 1 else 1) = n
      split <;> exact hs

/-- Direct mode packets sent in service mode. -/
theorem served_of_inService (items : List ServiceItem) : ∀ d : Device, InService d.service items →
    Served d items := by
  induction items with
  | nil => intro d _; trivial
  | cons i is ih =>
    intro d h
    cases i with
    | reset =>
      refine ⟨fun ⟨k, a, hc⟩ => (by cases hc), ih _ ?_⟩
      unfold Device.step
      cases hs : d.service <;> simp only [Bool.false_eq_true, if_false, if_true] <;>
        first | exact h | (rw [hs]; exact h)
    | idle =>
      refine ⟨fun ⟨k, a, hc⟩ => (by cases hc), ih _ ?_⟩
      unfold Device.step
      cases hs : d.service <;> simp only [Bool.false_eq_true, if_false, if_true] <;>
        first | exact h | (rw [hs]; exact h)
    | direct k a => exact ⟨fun _ => .inl h.1, ih _ (by rw [Device.step_service]; exact h.2)⟩

/-- The calls of a history in which only what a programmer sends is executed. -/
theorem session_run {e : Env} {m : BitVec 32 → Byte} (hm : Memory e m) (ops : List RxOp) :
    ∀ (z z' : Rx) (items : List ServiceItem), Reachable e z → Settled m z → .init ∉ ops →
    .disable ∉ ops → (∀ i v, .callbackByte i v ∉ ops) → (∀ i v, .callbackBit i v ∉ ops) →
    NeverFull e z ops → z.run e ops = .ok z' →
    (∀ l os, z.link.run (recvTimes ops) = .ok (l, os) → ∀ p ∈ packetsOf os, isLogon p = false) →
    (∀ i ∈ items, i.Legal) → items.map ServiceItem.packet = (executed e z ops).map .ok →
    Served (deviceOf m z) items →
    deviceOf m z' = ((deviceOf m z).run items).1 ∧ sessionCalls z z' = ((deviceOf m z).run items).2 ∧
      z.trace <+: z'.trace ∧ Settled m z' := by
  induction ops with
  | nil =>
    intro z z' items _ hz _ _ _ _ _ h _ _ hx _
    cases h
    simp only [executed, List.map_nil, List.map_eq_nil_iff] at hx
    subst hx
    exact ⟨rfl, by simp [sessionCalls, newCalls, Device.run], List.prefix_rfl, hz⟩
  | cons op ops ih =>
    intro z z' items hr hz hi hd hcb hcb' hf h hl hleg hx hin
    rw [Rx.run, bind_eq_ok] at h
    obtain ⟨z1, h1, h2⟩ := h
    obtain ⟨hf1, hf2⟩ := hf
    rw [h1] at hf2
    simp only [executed, h1] at hx
    have hi1 : op ≠ .init := fun hc => hi (by simp [hc])
    have hd1 : op ≠ .disable := fun hc => hd (by simp [hc])
    have settled : z1.logon.assigned = z.logon.assigned ∧ z1.addrs.logon = z.addrs.logon →
        Settled m z1 := by
      rintro ⟨ha, hg⟩
      have ha := ha.trans hz.assigned
      obtain ⟨h3, h4⟩ := step_keeps hm.toMemoryLike z z1 hr hz.store op h1 ha
      exact ⟨h4, ha, by rw [hg]; exact hz.address, h3.out hz.reflects⟩
    -- the first call
    have first : ∃ now later, items = now ++ later ∧
        later.map ServiceItem.packet = (executed e z1 ops).map .ok ∧ Served (deviceOf m z1) later ∧
        deviceOf m z1 = ((deviceOf m z).run now).1 ∧ sessionCalls z z1 = ((deviceOf m z).run now).2 ∧
        z.trace <+: z1.trace ∧ z1.logon.assigned = z.logon.assigned ∧ z1.addrs.logon = z.addrs.logon := by
      by_cases hex : op.isExecute = true
      · cases op <;> try simp [RxOp.isExecute] at hex
        rename_i now rand
        simp only [Rx.step, bind_eq_ok, pure_eq_ok, Except.ok.injEq] at h1
        obtain ⟨⟨z2, ret⟩, h3, rfl⟩ := h1
        simp only [RxOp.isExecute, Bool.true_and] at hx
        by_cases hn : z.packetEnd = true ∨ z.deque = []
        · rw [execute_front_none e z now rand hn] at h3
          cases h3
          refine ⟨[], items, rfl, ?_, hin, rfl, by simp [sessionCalls, newCalls, Device.run],
            List.prefix_rfl, rfl, rfl⟩
          rw [hx]
          rcases hn with hn | hn <;> simp [hn]
        · simp only [not_or, Bool.not_eq_true] at hn
          obtain ⟨p, rest, hdq⟩ := List.exists_cons_of_ne_nil hn.2
          rw [hn.1, hdq] at hx
          simp only [Bool.not_false, if_true, List.take_succ_cons, List.take_zero, List.cons_append,
            List.nil_append, List.map_cons] at hx
          cases items with
          | nil => simp at hx
          | cons i later =>
            simp only [List.map_cons, List.cons.injEq] at hx
            obtain ⟨h4, h5, h6⟩ := item_session hm hr hz (hleg i (by simp)) hin.1 hx.1 (front_eq.mpr ⟨hn.1, rest, hdq⟩) h3
            refine ⟨[i], later, rfl, hx.2, ?_, h4, ?_, h6, execute_assigned h3⟩
            · rw [h4]; exact hin.2
            · rw [h5]; simp [Device.run]
      · simp only [Bool.not_eq_true] at hex
        rw [hex] at hx
        have hnl : ∀ t r l p, op = .receive t r → z.link.step t = .ok (l, some (.packet p)) →
            isLogon p = false := by
          intro t r l p hop hs
          subst hop
          obtain ⟨os, h6, _⟩ := run_interleaved e ops z1 z' h2 (fun hm => hd (by simp [hm])) hf2
          obtain ⟨o, h7, h8⟩ := receive_spec e z z1 t r h1 (hf1 rfl)
          rw [hs] at h7
          cases h7
          refine hl z'.link (.packet p :: os) ?_ p (by simp [packetsOf])
          show z.link.run (t :: recvTimes ops) = _
          rw [Link.run_cons _ hs, h6]
          rfl
        obtain ⟨h3, h4, h5, h6⟩ := other_session m hr hi1 hd1 hex
          (fun i v hc => hcb i v (by simp [hc])) (fun i v hc => hcb' i v (by simp [hc])) hf1 hnl h1
        refine ⟨[], items, rfl, by simpa using hx, ?_, h3, h4, h5, h6⟩
        rw [h3]; exact hin
    obtain ⟨now, later, rfl, h3, h3', h4, h5, h6, h6'⟩ := first
    obtain ⟨h7, h8, h9, h10⟩ := ih z1 z' later (hr.step op h1) (settled h6')
      (fun hm => hi (by simp [hm])) (fun hm => hd (by simp [hm])) (fun i v hm => hcb i v (by simp [hm]))
      (fun i v hm => hcb' i v (by simp [hm])) hf2 h2 (by
        intro l os hos p hp
        by_cases hrc : op.isReceive = true
        · cases op <;> try simp [RxOp.isReceive] at hrc
          rename_i t r
          obtain ⟨o, h7, h8⟩ := receive_spec e z z1 t r h1 (hf1 rfl)
          refine hl l (o.toList ++ os) ?_ p ?_
          · show z.link.run (t :: recvTimes ops) = _
            rw [Link.run_cons _ h7, hos]
            rfl
          · simp only [packetsOf, List.filterMap_append, List.mem_append]
            exact .inr hp
        · have hrc' : op.isReceive = false := by simpa using hrc
          have h5 : z1.link = z.link := (step_other e z z1 op h1 (by
            intro t r hc; subst hc; simp [RxOp.isReceive] at hrc') hd1).1
          have : recvTimes (op :: ops) = recvTimes ops := by
            cases op <;> first | rfl | simp [RxOp.isReceive] at hrc'
          rw [h5] at hos
          exact hl l os (by rw [this]; exact hos) p hp)
      (fun i hi => hleg i (by simp [hi])) h3 h3'
    rw [h4] at h7 h8
    refine ⟨?_, ?_, h6.trans h9, h10⟩
    · rw [h7, Device.run_append]
    · rw [sessionCalls_trans h6 h9, h5, h8, Device.run_append]

/-- Such a history does not fault if the CVs have an address after each packet. -/
theorem session_total {e : Env} {m : BitVec 32 → Byte} (hm : Memory e m) (ops : List RxOp) :
    ∀ (z : Rx) (l : Link) (os : List LinkOut) (items : List ServiceItem), Reachable e z → Settled m z →
    (∀ op ∈ ops, op.isReceive = true ∨ op.isExecute = true) → NeverFull e z ops →
    z.link.run (recvTimes ops) = .ok (l, os) → (∀ i ∈ items, i.Legal) →
    items.map ServiceItem.packet = (z.deque ++ packetsOf os).map .ok →
    Served (deviceOf m z) items → KeepsAddress (deviceOf m z) items → ∃ z', z.run e ops = .ok z' := by
  induction ops with
  | nil => intro z _ _ _ _ _ _ _ _ _ _ _ _; exact ⟨z, rfl⟩
  | cons op ops ih =>
    intro z l os items hr hz ho hf hlk hleg hp hin hka
    obtain ⟨hf1, hf2⟩ := hf
    have ho' : ∀ op ∈ ops, op.isReceive = true ∨ op.isExecute = true := fun o h => ho o (by simp [h])
    have hop := ho op (by simp)
    have settled : ∀ z1, z.step e op = .ok z1 →
        z1.logon.assigned = z.logon.assigned ∧ z1.addrs.logon = z.addrs.logon → Settled m z1 := by
      rintro z1 h1 ⟨ha, hg⟩
      have ha := ha.trans hz.assigned
      obtain ⟨h3, h4⟩ := step_keeps hm.toMemoryLike z z1 hr hz.store op h1 ha
      exact ⟨h4, ha, by rw [hg]; exact hz.address, h3.out hz.reflects⟩
    cases op <;> simp [RxOp.isReceive, RxOp.isExecute] at hop
    case receive t r =>
      have hlk : z.link.run (t :: recvTimes ops) = .ok (l, os) := hlk
      obtain ⟨l1, o, os1, h1, h2, rfl⟩ : ∃ l1 o os1, z.link.step t = .ok (l1, o) ∧
          l1.run (recvTimes ops) = .ok (l, os1) ∧ os = o.toList ++ os1 := by
        simp only [Link.run, bind_eq_ok, pure_eq_ok, Except.ok.injEq, Prod.mk.injEq] at hlk
        obtain ⟨⟨l1, o⟩, h1, ⟨l2, os1⟩, h2, rfl, rfl⟩ := hlk
        exact ⟨l1, o, os1, h1, h2, rfl⟩
      have hnl : ∀ p, o = some (.packet p) → isLogon p = false := by
        rintro p rfl
        have : (Except.ok p : R Packet) ∈ items.map ServiceItem.packet := by
          rw [hp]; exact List.mem_map_of_mem (by simp [packetsOf])
        obtain ⟨i, h3, h4⟩ := List.mem_map.mp this
        exact (ServiceItem.valid (hleg i h3) h4).2
      obtain ⟨z1, h3⟩ := receive_total e z t r l1 o h1 hnl (hf1 rfl)
      have hst : z.step e (.receive t r) = .ok z1 := h3
      rw [hst] at hf2
      obtain ⟨o', h4, h5⟩ := receive_spec e z z1 t r h3 (hf1 rfl)
      rw [h1] at h4
      simp only [Except.ok.injEq, Prod.mk.injEq] at h4
      obtain ⟨rfl, rfl⟩ := h4
      obtain ⟨h6, h7⟩ := h5.deque
      obtain ⟨g1, g2, g3, g4⟩ := other_session m hr (op := .receive t r) (by simp) (by simp) rfl (by simp)
        (by simp) hf1 (by
          intro t' r' l' p hc hs
          cases hc
          rw [h1] at hs
          cases hs
          exact hnl p rfl) hst
      obtain ⟨z', h8⟩ := ih z1 l os1 items (hr.step _ hst) (settled z1 hst g4) ho' hf2 h2 hleg (by
        rw [hp, h7, List.append_assoc]
        congr 2
        simp only [packetsOf, List.filterMap_append]
        congr 1
        rcases o with _ | (_ | q | _) <;> first | rfl | skip
        simp [queued, hnl q rfl]) (by rw [g1]; exact hin) (by rw [g1]; exact hka)
      exact ⟨z', by rw [Rx.run, hst, ok_bind, h8]⟩
    case execute now rand =>
      have hlk : z.link.run (recvTimes ops) = .ok (l, os) := hlk
      have finish : ∀ z1 ret later, z.execute e now rand = .ok (z1, ret) → (∀ i ∈ later, i.Legal) →
          later.map ServiceItem.packet =
            ((if z.packetEnd = false then z.deque.drop 1 else z.deque) ++ packetsOf os).map .ok →
          Served (deviceOf m z1) later → KeepsAddress (deviceOf m z1) later →
          ∃ z', z.run e (.execute now rand :: ops) = .ok z' := by
        intro z1 ret later h1 g1 g2 g3 g4
        have hst : z.step e (.execute now rand) = .ok z1 := by
          show (do return (← z.execute e now rand).1) = _
          rw [h1]; rfl
        rw [hst] at hf2
        obtain ⟨h3, h4⟩ := step_other e z z1 _ hst (by simp) (by simp)
        obtain ⟨z', h5⟩ := ih z1 l os later (hr.step _ hst) (settled z1 hst (execute_assigned h1)) ho' hf2
          (by rw [h3]; exact hlk) g1 (by
            rw [g2, h4]
            cases z.packetEnd <;> rfl) g3 g4
        exact ⟨z', by rw [Rx.run, hst, ok_bind, h5]⟩
      by_cases hn : z.packetEnd = true ∨ z.deque = []
      · refine finish z false items (execute_front_none e z now rand hn) hleg ?_ hin hka
        rw [hp]
        rcases hn with hn | hn
        · rw [if_neg (by simp [hn])]
        · rw [hn]; split <;> rfl
      · simp only [not_or, Bool.not_eq_true] at hn
        obtain ⟨p, rest, hdq⟩ := List.exists_cons_of_ne_nil hn.2
        rw [hdq] at hp
        cases items with
        | nil => simp at hp
        | cons i later =>
          simp only [List.map_cons, List.cons_append, List.cons.injEq] at hp
          have hfr := front_eq.mpr ⟨hn.1, rest, hdq⟩
          obtain ⟨z1, ret, h1⟩ := item_total hm now rand hz (hleg i (by simp)) hin.1 hp.1
            hfr hka.1
          obtain ⟨h4, -, -⟩ := item_session hm hr hz (hleg i (by simp)) hin.1 hp.1 hfr h1
          refine finish z1 ret later h1 (fun i hi => hleg i (by simp [hi])) ?_ ?_ (by rw [h4]; exact hka.2)
          · rw [if_pos hn.1, hdq]; exact hp.2
          · rw [h4]; exact hin.2

end Dcc
