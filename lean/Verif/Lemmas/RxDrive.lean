import Verif.Lemmas.RxMode
import Verif.Lemmas.RxRecv
/-! Executing built packets and delivering them over the track. -/
namespace Dcc
open Spec

/-- A packet with an address: its number, what follows the address, and that a receiver accepts it. -/
theorem built_addressed (a : Address) (ha : LocoAddress a) (ps : List Byte) (hlen : 1 ≤ ps.length) (p : Packet)
    (hp : addressed a ps = .ok p) :
    locoNumber p = some a.value.toNat ∧ (∃ x, afterAddress p = ps ++ [x]) ∧ ValidPacket p ∧
      isLogon p = false := by
  rw [addressed] at hp
  obtain ⟨v, t, r⟩ := a
  have hv := v.isLt
  have key : ∀ bs : List Byte, 2 ≤ bs.length → finish bs = .ok p →
      p = bs ++ [exor bs] ∧ ValidPacket p := by
    intro bs hb h
    unfold finish at h
    split at h
    · rename_i hl
      cases h
      exact ⟨rfl, ⟨by simp; omega, by simpa using hl, exor_finish bs⟩⟩
    · cases h
  rcases ha with ⟨h1, h2⟩ | ⟨h1, h2, h3⟩ | ⟨h1, h2⟩ <;> dsimp only at h1 h2 <;> subst h1
  · obtain ⟨rfl, hvp⟩ := key _ (by simp; omega) hp
    exact ⟨by simp [locoNumber, h2], ⟨_, by simp [afterAddress]; rfl⟩, hvp, rfl⟩
  · dsimp only at h3
    have hv8 : (v.setWidth 8).toNat = v.toNat := by simp [BitVec.toNat_setWidth]; omega
    obtain ⟨rfl, hvp⟩ := key _ (by simp; omega) hp
    refine ⟨?_, ⟨exor (v.setWidth 8 :: ps), ?_⟩, hvp, ?_⟩
    · simp only [List.cons_append, List.nil_append, locoNumber]
      rw [if_pos (by omega), hv8]
    · simp only [List.cons_append, List.nil_append, afterAddress]
      rw [if_pos (by omega)]
    · simp only [List.cons_append, isLogon, List.head?_cons, beq_eq_false_iff_ne, ne_eq,
        Option.some.injEq]
      intro h
      rw [h] at hv8
      simp at hv8; omega
  · have hh : (0xC0#8 ||| (v >>> 8).setWidth 8).toNat = 192 + v.toNat / 256 := by
      have key : ∀ h : Byte, h.toNat < 40 → (0xC0#8 ||| h).toNat = 192 + h.toNat := by decide +kernel
      rw [key _ (by rw [high8_toNat]; omega), high8_toNat]
    have hl : (v.setWidth 8).toNat = v.toNat % 256 := by simp [BitVec.toNat_setWidth]
    obtain ⟨rfl, hvp⟩ := key _ (by simp) hp
    refine ⟨?_, ⟨exor ((0xC0#8 ||| (v >>> 8).setWidth 8) :: v.setWidth 8 :: ps), ?_⟩, hvp, ?_⟩
    · simp only [List.cons_append, List.nil_append, locoNumber]
      rw [if_neg (by omega), if_pos (by omega)]
      simp only [List.head?_cons, Option.map_some, Option.some.injEq]
      omega
    · simp only [List.cons_append, List.nil_append, afterAddress]
      rw [if_neg (by omega)]
      rfl
    · simp only [List.cons_append, isLogon, List.head?_cons, beq_eq_false_iff_ne, ne_eq,
        Option.some.injEq]
      intro h
      rw [h] at hh
      simp at hh; omega

/-- A built packet: its number, what follows the address, and that a receiver accepts it. -/
theorem built_packet (a : Address) (ha : LocoAddress a) (c : AddressedCall) (p : Packet)
    (hp : c.run a = .ok p) :
    locoNumber p = some a.value.toNat ∧ (∃ x, afterAddress p = payload c ++ [x]) ∧ ValidPacket p ∧
      isLogon p = false := by
  have hpos : 1 ≤ c.payloadLength := by cases c <;> simp [AddressedCall.payloadLength]; omega
  exact built_addressed a ha (payload c) (by rw [payload_length]; exact hpos) p (by rw [← run_eq]; exact hp)

theorem front_some {s : Rx} {p : Packet} (h : front s = some p) :
    s.packetEnd = false ∧ ∃ rest, s.deque = p :: rest := by
  unfold front at h
  split at h
  · cases h
  rename_i hpe
  refine ⟨by simpa using hpe, ?_⟩
  cases hd : s.deque with
  | nil => simp [hd] at h
  | cons q rest => simp [hd] at h; exact ⟨rest, by rw [h]⟩

/-- Executing a built packet for the decoder whose instruction only makes calls. -/
theorem executes_of (e : Env) (s : Rx) (now : Int) (rand : Nat) (a : Address) (ha : LocoAddress a)
    (c : AddressedCall) (p : Packet) (hp : c.run a = .ok p) (hf : front s = some p)
    (hm : s.serviceMode = false) (hact : a.value.toNat = 0 ∨ Active s a.value.toNat)
    (calls : List Event)
    (hi : ∀ (x : Rx) (y : Byte), x.cfg = s.cfg → x.addrs = s.addrs →
      x.executeInstruction e (target s a.value.toNat) p (payload c ++ [y]) rand =
        .ok { x with trace := x.trace ++ calls }) :
    Executes e s now rand calls := by
  obtain ⟨hpe, rest, hd⟩ := front_some hf
  obtain ⟨hn, ⟨y, hy⟩, _, _⟩ := built_packet a ha c p hp
  obtain ⟨evs, ht, hl⟩ := prepared_trace e s now
  have f := (prepare_total e s now).2
  have := execute_for e s now rand _ p rest hpe hd hm hn hact
  rw [hy, hi _ _ f.cfg f.addrs, ok_bind] at this
  exact ⟨_, evs, this, hl, by simp [Rx.popFront, ht], by simp [Rx.popFront, f.deque], f.addrs, f.cfg,
    f.mode⟩

/-- A duration after a packet only clears the packet end. -/
theorem receive_waiting (e : Env) (s : Rx) (t r : Nat) (hs : s.link.state = .preamble)
    (hb : s.link.bitCount < 20) :
    ∃ l, s.receive e t r = .ok { s with link := l } ∧ l.packetEnd = false := by
  have hh : s.link.state.halves = false := by rw [hs]; rfl
  unfold Rx.receive
  dsimp only
  rw [hh]
  simp only [Bool.false_and, Bool.false_eq_true, if_false]
  have key : ∀ v, ∃ l, ({ s with link := { s.link with packetEnd := false } } : Rx).receiveBit e v r =
      .ok { s with link := l } ∧ l.packetEnd = false := by
    intro v
    unfold Rx.receiveBit
    dsimp only
    rw [hs]
    dsimp only
    cases v
    · rw [if_neg Bool.false_ne_true, if_pos (by omega)]
      exact ⟨_, rfl, rfl⟩
    · exact ⟨_, rfl, rfl⟩
  cases time2bit t <;> dsimp only
  case invalid => exact ⟨_, rfl, rfl⟩
  all_goals
    split
    · exact ⟨_, rfl, rfl⟩
    · exact key _

/-- Delivering a packet over the track and executing it. -/
theorem delivers_of (e : Env) (s : Rx) (hr : Reachable e s) (h : Ready e s) (cfg : TxConfig)
    (hc : cfg.accepted = true) (p : Packet) (hp : ValidPacket p) (hlg : isLogon p = false)
    (calls : List Event)
    (hx : ∀ (z : Rx) (now : Int) (rand : Nat), front z = some p → z.serviceMode = false →
      z.cfg = s.cfg → z.addrs.primary = s.addrs.primary → z.addrs.consist = s.addrs.consist →
      z.addrs.logon = s.addrs.logon → Executes e z now rand calls) :
    Delivers e s cfg p calls := by
  intro xs t r now rand hxs
  have hw : xs.map (·.1) = packetWave cfg p := by
    rw [bytes2timings_ok p cfg hp.max] at hxs
    exact (Except.ok.inj hxs).symm
  have h1 := recv_packet e s cfg ((accepted_iff cfg).mp hc) p hp hlg h.waiting hr.recvInv.link
    (by rw [h.deque]; exact h.room) xs hw
  rw [run_append e _ _ s _ h1]
  obtain ⟨l, h2, h3⟩ := receive_waiting e { s with
      link := Link.after p
      preambleCount := s.preambleCount + 1
      packetCount := s.packetCount + 1
      deque := s.deque ++ [p]
      addrs := { s.addrs with received := addrOf p } } t r rfl (by simp [Link.after])
  obtain ⟨s', stores, g1, g2, g3, g4, _⟩ := hx ({ s with
      link := l
      preambleCount := s.preambleCount + 1
      packetCount := s.packetCount + 1
      deque := s.deque ++ [p]
      addrs := { s.addrs with received := addrOf p } }) now rand
    (by simp [front, Rx.packetEnd, h3, h.deque]) h.mode rfl rfl rfl rfl
  refine ⟨s', stores, ?_, ⟨g2.writes, g2.cvs, g2.none⟩, g3, ?_⟩
  · simp only [Rx.run, Rx.step, h2, ok_bind, g1, pure_eq_ok]
  · rw [g4, h.deque]; rfl

theorem Active.congr' {s s' : Rx} (h1 : s'.addrs.primary = s.addrs.primary)
    (h2 : s'.addrs.consist = s.addrs.consist) (h3 : s'.addrs.logon = s.addrs.logon) (n : Nat) :
    Active s' n ↔ Active s n := by
  unfold Active; rw [h1, h2, h3]

theorem target_congr' {s s' : Rx} (h1 : s'.addrs.primary = s.addrs.primary)
    (h3 : s'.addrs.logon = s.addrs.logon) (n : Nat) : target s' n = target s n := by
  unfold target; rw [h1, h3]

theorem reversedAt_congr' {s s' : Rx} (h1 : s'.addrs.primary = s.addrs.primary)
    (h2 : s'.addrs.consist = s.addrs.consist) (a : BitVec 16) : reversedAt s' a = reversedAt s a := by
  unfold reversedAt; rw [h1, h2]

/-! ### Single instructions -/

theorem directionSpeed_eq (x : Rx) (addr : BitVec 16) (dir : Bool) (v : Int) :
    x.directionSpeed addr dir v =
      { x with trace := x.trace ++ driveCalls addr (dir != reversedAt x addr) v } := by
  unfold Rx.directionSpeed driveCalls
  have : (if reversedAt x addr then !dir else dir) = (dir != reversedAt x addr) := by
    cases reversedAt x addr <;> cases dir <;> rfl
  rw [← this]
  simp only [Rx.emit, List.append_assoc, List.cons_append, List.nil_append]
  rfl

theorem scaled126 : ∀ k : Nat, k ≤ 126 → scaleSpeed .s126 k = scaled 126 k := by
  have : ∀ k : Fin 127, scaleSpeed .s126 k.val = scaled 126 k.val := by decide +kernel
  exact fun k hk => this ⟨k, by omega⟩

theorem scaled28 : ∀ k : Nat, k ≤ 28 → scaleSpeed .s28 k = scaled 28 k := by
  have : ∀ k : Fin 29, scaleSpeed .s28 k.val = scaled 28 k.val := by decide +kernel
  exact fun k hk => this ⟨k, by omega⟩

theorem scaled14 : ∀ k : Nat, k ≤ 14 → scaleSpeed .s14 k = scaled 14 k := by
  have : ∀ k : Fin 15, scaleSpeed .s14 k.val = scaled 14 k.val := by decide +kernel
  exact fun k hk => this ⟨k, by omega⟩

theorem speed126_eq (x : Rx) (addr : BitVec 16) (b : Byte) :
    x.speed126 addr b = { x with trace := x.trace ++ speed126Calls addr (reversedAt x addr) b } := by
  have key : ∀ b : Byte, (b &&& 0x7F#8 = 0#8 ↔ b.toNat % 128 = 0) ∧
      (b &&& 0x7E#8 = 0#8 ↔ b.toNat % 128 ≤ 1) ∧ (b &&& 0x7F#8).toNat = b.toNat % 128 ∧
      b.getLsbD 7 = decide (128 ≤ b.toNat) := by decide +kernel
  obtain ⟨k1, k2, k3, k4⟩ := key b
  unfold Rx.speed126 speed126Calls
  dsimp only
  rw [k3, k4]
  have hb := b.isLt
  by_cases h0 : b.toNat % 128 = 0
  · rw [if_pos (k1.mpr h0), if_neg (by omega), directionSpeed_eq, h0]
    rfl
  · rw [if_neg (fun h => h0 (k1.mp h))]
    by_cases h1 : b.toNat % 128 = 1
    · rw [if_pos (k2.mpr (by omega)), if_pos h1]
      rfl
    · rw [if_neg (fun h => by have := k2.mp h; omega), if_neg h1, directionSpeed_eq]
      have : ((b.toNat % 128 : Nat) : Int) - 1 = ((b.toNat % 128 - 1 : Nat) : Int) := by omega
      rw [this, scaled126 _ (by omega)]

theorem instr_advancedSpeed (e : Env) (x : Rx) (addr : BitVec 16) (p : Packet) (b y : Byte)
    (rand : Nat) : x.executeInstruction e addr p (payload (.advancedSpeed b) ++ [y]) rand =
      .ok { x with trace := x.trace ++ speed126Calls addr (reversedAt x addr) b } := by
  rw [← speed126_eq]
  have hd : decodeInstruction (payload (.advancedSpeed b) ++ [y]) = .ok .advancedOperations := rfl
  unfold Rx.executeInstruction
  rw [hd, ok_bind]
  rfl

theorem instr_speedAndDirection (e : Env) (x : Rx) (addr : BitVec 16) (p : Packet) (r y : Byte)
    (hr : r.toNat < 64) (rand : Nat) :
    x.executeInstruction e addr p (payload (.speedAndDirection r) ++ [y]) rand =
      .ok { x with trace := x.trace ++
        if x.cfg.f0Exception then speed14Calls addr (reversedAt x addr) r
        else speed28Calls addr (reversedAt x addr) r } := by
  have key : ∀ r : Byte, r.toNat < 64 →
      decodeInstructionByte (0x40#8 ||| r) = .speedDirection ∧
      ((0x40#8 ||| r) &&& 0x0F#8 = 0#8 ↔ r.toNat % 16 = 0) ∧
      ((0x40#8 ||| r) &&& 0x0E#8 = 0#8 ↔ r.toNat % 16 ≤ 1) ∧
      ((0x40#8 ||| r) &&& 0x0F#8).toNat = r.toNat % 16 ∧
      (0x40#8 ||| r).getLsbD 4 = r.getLsbD 4 ∧ (0x40#8 ||| r).getLsbD 5 = r.getLsbD 5 := by
    decide +kernel
  obtain ⟨k0, k1, k2, k3, k4, k5⟩ := key r hr
  have hd : decodeInstruction (payload (.speedAndDirection r) ++ [y]) = .ok .speedDirection := by
    simp only [payload, decodeInstruction, List.cons_append, byteAt_zero, ok_bind, pure_eq_ok, k0]
  unfold Rx.executeInstruction
  rw [hd, ok_bind]
  dsimp only
  unfold Rx.speedAndDirection
  simp only [payload, List.cons_append, byteAt_zero, ok_bind]
  rw [k3, k4, k5]
  unfold speed14Calls speed28Calls
  dsimp only
  by_cases h1 : r.toNat % 16 = 1
  · rw [if_pos ⟨fun h => by rw [k1] at h; omega, k2.mpr (by omega)⟩, if_pos h1, if_pos h1]
    cases x.cfg.f0Exception <;> rfl
  · rw [if_neg (fun ⟨h2, h3⟩ => by rw [Ne, k1] at h2; rw [k2] at h3; omega), if_neg h1, if_neg h1]
    have hs : (if (0x40#8 ||| r) &&& 0x0F#8 = 0#8 then 0 else ((r.toNat % 16 : Nat) : Int) - 1) =
        ((r.toNat % 16 - 1 : Nat) : Int) := by
      by_cases h0 : r.toNat % 16 = 0
      · rw [if_pos (k1.mpr h0), h0]; rfl
      · rw [if_neg (fun h => h0 (k1.mp h))]; omega
    rw [hs]
    cases hf : x.cfg.f0Exception
    · simp only [Bool.false_eq_true, if_false, pure_eq_ok]
      rw [directionSpeed_eq]
      have h28 : (if ((r.toNat % 16 - 1 : Nat) : Int) * 2 ≠ 0 ∧ (!r.getLsbD 4) = true then
          ((r.toNat % 16 - 1 : Nat) : Int) * 2 - 1 else ((r.toNat % 16 - 1 : Nat) : Int) * 2) =
          ((if r.toNat % 16 = 0 then 0 else 2 * (r.toNat % 16) - 3 +
            (if r.getLsbD 4 then 1 else 0) : Nat) : Int) := by
        by_cases h0 : r.toNat % 16 = 0
        · rw [if_neg (by simp [h0]), if_pos h0, h0]; rfl
        · cases r.getLsbD 4
          · rw [if_pos ⟨by omega, rfl⟩, if_neg h0, if_neg Bool.false_ne_true]; omega
          · rw [if_neg (by simp), if_neg h0, if_pos rfl]; omega
      rw [h28, scaled28 _ (by split <;> (try split) <;> omega)]
    · simp only [if_true, pure_eq_ok]
      rw [directionSpeed_eq, scaled14 _ (by omega)]
      simp [Rx.emit, reversedAt]

theorem applyFunction_bit (fs m st : BitVec 32) (i : Nat) (hi : i < 32) :
    (applyFunction fs m st).getLsbD i = if m.getLsbD i then st.getLsbD i else fs.getLsbD i := by
  unfold applyFunction
  simp only [BitVec.getLsbD_or, BitVec.getLsbD_and, BitVec.getLsbD_not, hi, decide_true,
    Bool.true_and]
  cases m.getLsbD i <;> simp

theorem setsGroup_of (g : Group) (f0 : Bool) (states : Byte) (m st : BitVec 32)
    (hm : ∀ i : Fin 32, m.getLsbD i.val =
      decide (g.first ≤ i.val ∧ i.val < g.first + g.count ∧ ¬ (f0 = true ∧ i.val = 0)))
    (hst : ∀ i, g.first ≤ i → i < g.first + g.count → st.getLsbD i = states.getLsbD (i - g.first)) :
    SetsGroup g f0 states m st := by
  intro fs i hi
  rw [applyFunction_bit _ _ _ _ hi, hm ⟨i, hi⟩]
  by_cases h : g.first ≤ i ∧ i < g.first + g.count ∧ ¬ (f0 = true ∧ i = 0)
  · rw [if_pos (decide_eq_true h), if_pos h, hst i h.1 h.2.1]
  · rw [if_neg (by rw [decide_eq_true_eq]; exact h), if_neg h]

theorem shifted_bit (b : Byte) (k i : Nat) (hk : k ≤ i) (hi : i < 32) :
    (b.setWidth 32 <<< k).getLsbD i = b.getLsbD (i - k) := by
  rw [BitVec.getLsbD_shiftLeft, BitVec.getLsbD_setWidth]
  have : ¬ (i < k) := by omega
  have h2 : i - k < 32 := by omega
  simp [hi, this, h2]

/-- The mask and the state passed for a function group. -/
def groupCall (f0 : Bool) : AddressedCall → BitVec 32 × BitVec 32
  | .f4f0 s => (if f0 then 0x1E#32 else 0x1F#32, (s &&& 0x1F#8).setWidth 32)
  | .f8f5 s => (0x1E0#32, (s &&& 0x0F#8).setWidth 32 <<< 5)
  | .f12f9 s => (0x1E00#32, (s &&& 0x0F#8).setWidth 32 <<< 9)
  | .f20f13 s => (0x1FE000#32, s.setWidth 32 <<< 13)
  | .f28f21 s => (0x1FE00000#32, s.setWidth 32 <<< 21)
  | _ => (0#32, 0#32)

theorem groupCall_sets (f0 : Bool) (c : AddressedCall) (g : Group) (states : Byte)
    (h : groupOf c = some (g, states)) :
    SetsGroup g f0 states (groupCall f0 c).1 (groupCall f0 c).2 := by
  have h15 : ∀ s : Byte, ∀ i : Fin 4, (s &&& 0x0F#8).getLsbD i.val = s.getLsbD i.val := by
    decide +kernel
  have h31 : ∀ s : Byte, ∀ i : Fin 5, (s &&& 0x1F#8).getLsbD i.val = s.getLsbD i.val := by
    decide +kernel
  cases c <;> simp only [groupOf, Option.some.injEq, Prod.mk.injEq, reduceCtorEq] at h <;>
    obtain ⟨rfl, rfl⟩ := h <;> refine setsGroup_of _ _ _ _ _ ?_ ?_
  · cases f0 <;> (simp only [groupCall]; decide +kernel)
  · intro i h1 h2
    simp only [groupCall]
    rw [← h31 _ ⟨i - 0, by simp at h2; omega⟩, BitVec.getLsbD_setWidth]
    simp at h2
    simp [show i < 32 by omega]
  · cases f0 <;> (simp only [groupCall]; decide +kernel)
  · intro i h1 h2
    dsimp only at h1 h2
    simp only [groupCall]
    rw [shifted_bit _ _ _ h1 (by omega), h15 _ ⟨i - 5, by omega⟩]
  · cases f0 <;> (simp only [groupCall]; decide +kernel)
  · intro i h1 h2
    dsimp only at h1 h2
    simp only [groupCall]
    rw [shifted_bit _ _ _ h1 (by omega), h15 _ ⟨i - 9, by omega⟩]
  · cases f0 <;> (simp only [groupCall]; decide +kernel)
  · intro i h1 h2
    dsimp only at h1 h2
    simp only [groupCall]
    rw [shifted_bit _ _ _ h1 (by omega)]
  · cases f0 <;> (simp only [groupCall]; decide +kernel)
  · intro i h1 h2
    dsimp only at h1 h2
    simp only [groupCall]
    rw [shifted_bit _ _ _ h1 (by omega)]

theorem instr_group (e : Env) (x : Rx) (addr : BitVec 16) (p : Packet) (c : AddressedCall)
    (g : Group) (states y : Byte) (h : groupOf c = some (g, states)) (rand : Nat) :
    x.executeInstruction e addr p (payload c ++ [y]) rand =
      .ok { x with trace := x.trace ++
        [.function addr (groupCall x.cfg.f0Exception c).1 (groupCall x.cfg.f0Exception c).2] } := by
  have k1 : ∀ s : Byte, decodeInstructionByte (0x80#8 ||| ((s &&& 0x01#8) <<< 4) ||| ((s &&& 0x1F#8) >>> 1)) =
        .functionGroup ∧
      ((0x80#8 ||| ((s &&& 0x01#8) <<< 4) ||| ((s &&& 0x1F#8) >>> 1)) &&& 0xF0#8 = 0x80#8 ∨
       (0x80#8 ||| ((s &&& 0x01#8) <<< 4) ||| ((s &&& 0x1F#8) >>> 1)) &&& 0xF0#8 = 0x90#8) ∧
      ((((0x80#8 ||| ((s &&& 0x01#8) <<< 4) ||| ((s &&& 0x1F#8) >>> 1)) &&& 0x0F#8).setWidth 32 <<< 1) |||
       (((0x80#8 ||| ((s &&& 0x01#8) <<< 4) ||| ((s &&& 0x1F#8) >>> 1)) &&& 0x10#8).setWidth 32 >>> 4)) =
       (s &&& 0x1F#8).setWidth 32 := by decide +kernel
  have k2 : ∀ s : Byte, decodeInstructionByte (0xB0#8 ||| (s &&& 0x0F#8)) = .functionGroup ∧
      (0xB0#8 ||| (s &&& 0x0F#8)) &&& 0xF0#8 = 0xB0#8 ∧
      (0xB0#8 ||| (s &&& 0x0F#8)) &&& 0x0F#8 = s &&& 0x0F#8 := by decide +kernel
  have k3 : ∀ s : Byte, decodeInstructionByte (0xA0#8 ||| (s &&& 0x0F#8)) = .functionGroup ∧
      (0xA0#8 ||| (s &&& 0x0F#8)) &&& 0xF0#8 = 0xA0#8 ∧
      (0xA0#8 ||| (s &&& 0x0F#8)) &&& 0x0F#8 = s &&& 0x0F#8 := by decide +kernel
  cases c <;> simp only [groupOf, reduceCtorEq] at h
  case f4f0 s =>
    obtain ⟨a1, a2, a3⟩ := k1 s
    simp only [Rx.executeInstruction, decodeInstruction, payload, List.cons_append, byteAt_zero,
      ok_bind, a1, pure_eq_ok, Rx.functionGroup, a3, if_pos a2]
    rfl
  case f8f5 s =>
    obtain ⟨a1, a2, a3⟩ := k2 s
    simp only [Rx.executeInstruction, decodeInstruction, payload, List.cons_append, byteAt_zero,
      ok_bind, a1, pure_eq_ok, Rx.functionGroup, a2, a3]
    rw [if_neg (by decide), if_pos trivial]
    rfl
  case f12f9 s =>
    obtain ⟨a1, a2, a3⟩ := k3 s
    simp only [Rx.executeInstruction, decodeInstruction, payload, List.cons_append, byteAt_zero,
      ok_bind, a1, pure_eq_ok, Rx.functionGroup, a2, a3]
    rw [if_neg (by decide), if_neg (by decide), if_pos trivial]
    rfl
  case f20f13 s =>
    have hd : decodeInstruction (payload (.f20f13 s) ++ [y]) = .ok .featureExpansion := rfl
    unfold Rx.executeInstruction
    rw [hd, ok_bind]
    rfl
  case f28f21 s =>
    have hd : decodeInstruction (payload (.f28f21 s) ++ [y]) = .ok .featureExpansion := rfl
    unfold Rx.executeInstruction
    rw [hd, ok_bind]
    rfl

/-- The calls for the groups of the speed, direction and functions packet, with the masks of the
code. -/
def groupsCalls (addr : BitVec 16) (groups : List Byte) : List Event :=
  (groups.take 4).zipIdx.map fun (b, k) =>
    .function addr (if k = 3 then 0xFF#32 else 0xFF#32 <<< (8 * k)) (b.setWidth 32 <<< (8 * k))

theorem instr_speedDirFunctions (e : Env) (x : Rx) (addr : BitVec 16) (p : Packet) (r f : Byte)
    (fs : List Byte) (y : Byte) (rand : Nat) :
    x.executeInstruction e addr p (payload (.speedDirFunctions r f fs) ++ [y]) rand =
      .ok { x with trace := x.trace ++
        (groupsCalls addr (f :: fs) ++ speed126Calls addr (reversedAt x addr) r) } := by
  have hd : decodeInstruction (payload (.speedDirFunctions r f fs) ++ [y]) =
    .ok .advancedOperations := rfl
  have h : ∀ z : Rx, z.addrs = x.addrs → z.speed126 addr r =
      { z with trace := z.trace ++ speed126Calls addr (reversedAt x addr) r } := by
    intro z hz
    rw [speed126_eq]
    unfold reversedAt
    rw [hz]
  unfold Rx.executeInstruction
  rw [hd, ok_bind]
  dsimp only
  unfold Rx.advancedOperations
  simp only [payload, List.cons_append, List.nil_append, byteAt_zero, ok_bind, if_true,
    byteAt_succ, pure_eq_ok]
  have hs : x.speedDirFunctions addr (0x3C#8 :: r :: f :: (fs ++ [y])) =
      .ok { x with trace := x.trace ++ groupsCalls addr (f :: fs) } := by
    unfold Rx.speedDirFunctions Rx.optFunctions groupsCalls
    obtain _ | ⟨f2, _ | ⟨f3, _ | ⟨f4, fs⟩⟩⟩ := fs <;>
      simp [byteAt_zero, byteAt_succ, ok_bind, Rx.emit]
  rw [hs, ok_bind, h { x with trace := x.trace ++ groupsCalls addr (f :: fs) } rfl]
  simp only [List.append_assoc]

/-- One of the first three groups sets its eight functions. -/
theorem apply_eight (fs : BitVec 32) (b : Byte) (k i : Nat) (hk : k < 3) (hi : i < 32) :
    (applyFunction fs (0xFF#32 <<< (8 * k)) (b.setWidth 32 <<< (8 * k))).getLsbD i =
      if i / 8 = k then b.getLsbD (i % 8) else fs.getLsbD i := by
  have hm : ∀ k : Fin 3, ∀ i : Fin 32,
      (0xFF#32 <<< (8 * k.val)).getLsbD i.val = decide (i.val / 8 = k.val) := by decide +kernel
  rw [applyFunction_bit _ _ _ _ hi, hm ⟨k, hk⟩ ⟨i, hi⟩]
  dsimp only
  by_cases h : i / 8 = k
  · rw [if_pos (decide_eq_true h), if_pos h, shifted_bit _ _ _ (by omega) hi]
    congr 1; omega
  · rw [if_neg (by simpa using h), if_neg h]

theorem groupsCalls_state (addr : BitVec 16) (f : Byte) (fs : List Byte) (hl : fs.length ≤ 2)
    (funs : BitVec 32) (i : Nat) (hi : i < 32) :
    (functionsAfter addr funs (groupsCalls addr (f :: fs))).getLsbD i =
      groupsState (f :: fs) funs i := by
  have h0 := fun fs b => apply_eight fs b 0 i (by omega) hi
  have h1 := fun fs b => apply_eight fs b 1 i (by omega) hi
  have h2 := fun fs b => apply_eight fs b 2 i (by omega) hi
  simp only [Nat.mul_zero, Nat.mul_one] at h0 h1 h2
  have h3 : i / 8 = 0 ∨ i / 8 = 1 ∨ i / 8 = 2 ∨ i / 8 = 3 := by omega
  obtain _ | ⟨f2, _ | ⟨f3, _ | ⟨f4, fs⟩⟩⟩ := fs
  · simp only [groupsCalls, List.take, List.zipIdx, List.map, functionsAfter, groupsState]
    simp only [if_true, Nat.mul_zero, show ¬ (0 = 3) by decide, if_false]
    rw [h0]
    rcases h3 with h | h | h | h <;> simp [h]
  · simp only [groupsCalls, List.take, List.zipIdx, List.map, functionsAfter, groupsState]
    simp only [if_true, Nat.mul_zero, show ¬ (0 = 3) by decide, show ¬ (0 + 1 = 3) by decide, if_false]
    rw [h1, h0]
    rcases h3 with h | h | h | h <;> simp [h]
  · simp only [groupsCalls, List.take, List.zipIdx, List.map, functionsAfter, groupsState]
    simp only [if_true, Nat.mul_zero, show ¬ (0 = 3) by decide, show ¬ (0 + 1 = 3) by decide,
      show ¬ (0 + 1 + 1 = 3) by decide, if_false]
    rw [h2, h1, h0]
    rcases h3 with h | h | h | h <;> simp [h]
  · simp at hl

/-- Delivering a built packet over the track, given what its execution does at the front of the
queue. -/
theorem delivers_built (e : Env) (s : Rx) (hr : Reachable e s) (h : Ready e s) (cfg : TxConfig)
    (hc : cfg.accepted = true) (a : Address) (ha : LocoAddress a) (c : AddressedCall) (p : Packet)
    (hp : c.run a = .ok p) (hact : a.value.toNat = 0 ∨ Active s a.value.toNat)
    (calls : Bool → BitVec 16 → Bool → List Event)
    (hx : ∀ (z : Rx) (now : Int) (rand : Nat), front z = some p → z.serviceMode = false →
      (a.value.toNat = 0 ∨ Active z a.value.toNat) →
      Executes e z now rand (calls z.cfg.f0Exception (target z a.value.toNat)
        (reversedAt z (target z a.value.toNat)))) :
    Delivers e s cfg p (calls s.cfg.f0Exception (target s a.value.toNat)
      (reversedAt s (target s a.value.toNat))) := by
  obtain ⟨_, _, h1, h2⟩ := built_packet a ha c p hp
  refine delivers_of e s hr h cfg hc p h1 h2 _ fun z now rand hf hm hcfg hpr hco hlo => ?_
  have := hx z now rand hf hm (by rwa [Active.congr' hpr hco hlo])
  rwa [hcfg, target_congr' hpr hlo, reversedAt_congr' hpr hco] at this

end Dcc
