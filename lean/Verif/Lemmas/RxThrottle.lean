import Verif.Lemmas.RxDrive
import Verif.Lemmas.RxMode
import Verif.Lemmas.RxQueue
import Verif.Lemmas.RxTrack
import Verif.Spec.Throttle
/-! A decoder that only gets driving commands. -/
namespace Dcc
open Spec

/-! ### One command -/

theorem groupCall_event (f0 : Bool) (addr : BitVec 16) (c : AddressedCall) (g : Group) (states : Byte)
    (h : groupOf c = some (g, states)) :
    Event.function addr (groupCall f0 c).1 (groupCall f0 c).2 = functionCall addr f0 g states.toNat := by
  have k : ∀ s : Byte,
      (s &&& 0x1F#8).setWidth 32 = BitVec.ofNat 32 (s.toNat % 2 ^ 5 * 2 ^ 0) ∧
      (s &&& 0x0F#8).setWidth 32 <<< 5 = BitVec.ofNat 32 (s.toNat % 2 ^ 4 * 2 ^ 5) ∧
      (s &&& 0x0F#8).setWidth 32 <<< 9 = BitVec.ofNat 32 (s.toNat % 2 ^ 4 * 2 ^ 9) ∧
      s.setWidth 32 <<< 13 = BitVec.ofNat 32 (s.toNat % 2 ^ 8 * 2 ^ 13) ∧
      s.setWidth 32 <<< 21 = BitVec.ofNat 32 (s.toNat % 2 ^ 8 * 2 ^ 21) := by decide +kernel
  cases c <;> simp only [groupOf, Option.some.injEq, Prod.mk.injEq, reduceCtorEq] at h <;>
    obtain ⟨rfl, rfl⟩ := h <;> rename_i s <;> obtain ⟨k1, k2, k3, k4, k5⟩ := k s <;>
    simp only [groupCall, functionCall, k1, k2, k3, k4, k5] <;> cases f0 <;> rfl

theorem groupsCalls_event (addr : BitVec 16) (f : Byte) (fs : List Byte) (hl : fs.length ≤ 2) :
    groupsCalls addr (f :: fs) =
      (f :: fs).zipIdx.map fun x => functionCall addr false ⟨8 * x.2, 8⟩ x.1.toNat := by
  have k : ∀ s : Byte,
      s.setWidth 32 <<< 0 = BitVec.ofNat 32 (s.toNat % 2 ^ 8 * 2 ^ 0) ∧
      s.setWidth 32 <<< 8 = BitVec.ofNat 32 (s.toNat % 2 ^ 8 * 2 ^ 8) ∧
      s.setWidth 32 <<< 16 = BitVec.ofNat 32 (s.toNat % 2 ^ 8 * 2 ^ 16) := by decide +kernel
  obtain _ | ⟨f2, _ | ⟨f3, _ | ⟨f4, fs⟩⟩⟩ := fs
  · simp only [groupsCalls, List.take, List.zipIdx, List.map, functionCall]
    simp only [Nat.mul_zero, k f]; rfl
  · simp only [groupsCalls, List.take, List.zipIdx, List.map, functionCall]
    simp only [Nat.mul_zero, k f, k f2]; rfl
  · simp only [groupsCalls, List.take, List.zipIdx, List.map, functionCall]
    simp only [Nat.mul_zero, k f, k f2, k f3]; rfl
  · simp at hl

/-- The instruction of a driving command for the decoder. -/
theorem command_instr (e : Env) (s : Rx) (rand : Nat) (c : Command) (hc : c.Legal) (p : Packet)
    (hact : c.addr.value.toNat = 0 ∨ Active s c.addr.value.toNat) (x : Rx) (y : Byte)
    (hcfg : x.cfg = s.cfg) (hx : x.addrs = s.addrs) :
    x.executeInstruction e (target s c.addr.value.toNat) p (payload c.call ++ [y]) rand =
      .ok { x with trace := x.trace ++ c.calls s } := by
  obtain ⟨a, c⟩ := c
  obtain ⟨ha, hd⟩ := hc
  dsimp only at ha hd hact ⊢
  unfold Command.calls
  dsimp only
  rw [if_pos hact]
  cases c with
  | advancedSpeed b => rw [instr_advancedSpeed]; simp only [reversedAt, hx]; rfl
  | speedAndDirection b =>
    rw [instr_speedAndDirection e x _ p b y hd]; simp only [reversedAt, hx, hcfg]; rfl
  | speedDirFunctions b f fs =>
    rw [instr_speedDirFunctions, groupsCalls_event _ _ _ hd]; simp only [reversedAt, hx]; rfl
  | f4f0 b => rw [instr_group e x _ p _ ⟨0, 5⟩ b y rfl, groupCall_event _ _ _ _ _ rfl, hcfg]; rfl
  | f8f5 b => rw [instr_group e x _ p _ ⟨5, 4⟩ b y rfl, groupCall_event _ _ _ _ _ rfl, hcfg]; rfl
  | f12f9 b => rw [instr_group e x _ p _ ⟨9, 4⟩ b y rfl, groupCall_event _ _ _ _ _ rfl, hcfg]; rfl
  | f20f13 b => rw [instr_group e x _ p _ ⟨13, 8⟩ b y rfl, groupCall_event _ _ _ _ _ rfl, hcfg]; rfl
  | f28f21 b => rw [instr_group e x _ p _ ⟨21, 8⟩ b y rfl, groupCall_event _ _ _ _ _ rfl, hcfg]; rfl
  | binaryStateShort => exact hd.elim
  | binaryStateLong => exact hd.elim
  | cvVerify => exact hd.elim
  | cvWrite => exact hd.elim
  | cvVerifyBit => exact hd.elim
  | cvWriteBit => exact hd.elim

/-- Executing a driving command for the decoder. -/
theorem command_executes (e : Env) (s : Rx) (now : Int) (rand : Nat) (c : Command) (hc : c.Legal)
    (p : Packet) (hp : c.packet = .ok p) (hf : front s = some p) (hm : s.serviceMode = false)
    (hact : c.addr.value.toNat = 0 ∨ Active s c.addr.value.toNat) :
    Executes e s now rand (c.calls s) :=
  executes_of e s now rand c.addr hc.1 c.call p hp hf hm hact _ (command_instr e s rand c hc p hact)

/-! ### What does not change -/

/-- Addresses (except for the one received last), configuration and mode are the same. -/
structure Steady (s z : Rx) : Prop where
  primary : z.addrs.primary = s.addrs.primary
  consist : z.addrs.consist = s.addrs.consist
  logon : z.addrs.logon = s.addrs.logon
  cfg : z.cfg = s.cfg
  mode : z.mode = s.mode

theorem Steady.refl (s : Rx) : Steady s s := ⟨rfl, rfl, rfl, rfl, rfl⟩

theorem Steady.trans {a b c : Rx} (h : Steady a b) (g : Steady b c) : Steady a c :=
  ⟨g.primary.trans h.primary, g.consist.trans h.consist, g.logon.trans h.logon, g.cfg.trans h.cfg,
    g.mode.trans h.mode⟩

theorem Steady.calls {s z : Rx} (h : Steady s z) (c : Command) : c.calls z = c.calls s := by
  unfold Command.calls
  simp only [Active.congr' h.primary h.consist h.logon, target_congr' h.primary h.logon,
    reversedAt_congr' h.primary h.consist, h.cfg]

theorem Steady.active {s z : Rx} (h : Steady s z) (n : Nat) : Active z n ↔ Active s n :=
  Active.congr' h.primary h.consist h.logon n

theorem Steady.serviceMode {s z : Rx} (h : Steady s z) : z.serviceMode = s.serviceMode := by
  unfold Rx.serviceMode; rw [h.mode]

/-- What is in the queue: an idle packet or a command. -/
abbrev Item := Option Command

/-- The packet. -/
def Item.packet : Item → R Packet
  | none => .ok idleBytes
  | some c => c.packet

/-- The calls. -/
def Item.calls (s : Rx) : Item → List Event
  | none => []
  | some c => c.calls s

/-- A command is legal. -/
def Item.Legal (i : Item) : Prop := ∀ c, i = some c → c.Legal

theorem driving_nil {s s' : Rx} {P : Event → Prop} (h : Adds P s s')
    (hp : ∀ ev, P ev → Event.isDriving ev = false) : drivingCalls s s' = [] := by
  obtain ⟨evs, h1, h2⟩ := h
  unfold drivingCalls
  rw [newCalls_append h1, List.filter_eq_nil_iff]
  intro ev hev
  rw [hp ev (h2 ev hev)]
  exact Bool.false_ne_true

theorem driving_cv (ev : Event) (h : ev.isCv = true) : Event.isDriving ev = false := by
  cases ev <;> first | rfl | cases h

theorem driving_write (ev : Event) (h : ev.isWrite = true) : Event.isDriving ev = false := by
  cases ev <;> first | rfl | cases h

theorem asks_driving (f0 rev : Bool) (addr : BitVec 16) (c : AddressedCall) :
    ∀ ev ∈ AddressedCall.asks f0 rev addr c, Event.isDriving ev = true := by
  have h126 : ∀ b, ∀ ev ∈ speed126Calls addr rev b, Event.isDriving ev = true := by
    intro b ev hev
    unfold speed126Calls estopCalls driveCalls at hev
    dsimp only at hev
    split at hev <;> simp only [List.mem_cons, List.not_mem_nil, or_false] at hev
    · subst hev; rfl
    · rcases hev with rfl | rfl <;> rfl
  intro ev hev
  cases c <;> simp only [AddressedCall.asks, List.mem_singleton, List.not_mem_nil, List.mem_append] at hev
  case advancedSpeed b => exact h126 b ev hev
  case speedAndDirection b =>
    unfold speed14Calls speed28Calls estopCalls driveCalls at hev
    dsimp only at hev
    split at hev <;> split at hev <;> simp only [List.mem_cons, List.not_mem_nil, or_false] at hev
    · subst hev; rfl
    · rcases hev with rfl | rfl | rfl <;> rfl
    · subst hev; rfl
    · rcases hev with rfl | rfl <;> rfl
  case speedDirFunctions b f fs =>
    rcases hev with hev | hev
    · obtain ⟨x, _, rfl⟩ := List.mem_map.mp hev; rfl
    · exact h126 b ev hev
  all_goals subst hev; rfl

theorem calls_driving (s : Rx) (c : Command) : (c.calls s).filter Event.isDriving = c.calls s := by
  rw [List.filter_eq_self]
  unfold Command.calls
  dsimp only
  split
  · exact asks_driving _ _ _ _
  · simp

/-- Executing an idle packet or a command. -/
theorem item_execute (e : Env) (s : Rx) (now : Int) (rand : Nat) (i : Item) (hi : i.Legal)
    (p : Packet) (hp : i.packet = .ok p) (hf : front s = some p) (hm : s.serviceMode = false) :
    ∃ s' ret, s.execute e now rand = .ok (s', ret) ∧ Steady s s' ∧
      drivingCalls s s' = i.calls s ∧ s.trace <+: s'.trace := by
  obtain ⟨hpe, rest, hd⟩ := front_some hf
  have foreign : 2 ≤ p.length → ¬ ForDecoder s p → i.calls s = [] →
      ∃ s' ret, s.execute e now rand = .ok (s', ret) ∧ Steady s s' ∧
      drivingCalls s s' = i.calls s ∧ s.trace <+: s'.trace := by
    intro hl hfd hc
    have f := (prepare_total e s now).2
    obtain ⟨evs, ht, hst⟩ := prepared_trace e s now
    refine ⟨_, _, execute_foreign e s now rand p rest hpe hd hm hl hfd, ?_, ?_, ?_⟩
    · have ha : ((s.prepared e now).popFront).addrs = s.addrs := f.addrs
      exact ⟨by rw [ha], by rw [ha], by rw [ha], f.cfg, f.mode⟩
    · rw [hc]
      exact driving_nil (P := fun ev => ev.isWrite = true) ⟨evs, ht, hst.writes⟩ driving_write
    · exact f.trace
  cases i with
  | none =>
    cases hp
    refine foreign (by simp [idleBytes]) ?_ rfl
    rintro ⟨n, hn, _⟩
    simp [idleBytes, locoNumber] at hn
  | some c =>
    have hc := hi c rfl
    obtain ⟨hn, _, hv, _⟩ := built_packet c.addr hc.1 c.call p hp
    by_cases hact : c.addr.value.toNat = 0 ∨ Active s c.addr.value.toNat
    · obtain ⟨s', stores, h1, h2, h3, h4, h5, h6, h7⟩ :=
        command_executes e s now rand c hc p hp hf hm hact
      refine ⟨s', true, h1, ⟨by rw [h5], by rw [h5], by rw [h5], h6, h7⟩, ?_, ?_⟩
      · have h8 : newCalls s s' = stores ++ c.calls s :=
          newCalls_append (by rw [h3, List.append_assoc])
        unfold drivingCalls
        rw [h8, List.filter_append, calls_driving]
        have : stores.filter Event.isDriving = [] := by
          rw [List.filter_eq_nil_iff]
          intro ev hev
          rw [driving_write ev (h2.writes ev hev)]
          exact Bool.false_ne_true
        rw [this]
        rfl
      · rw [h3, List.append_assoc]; exact List.prefix_append _ _
    · refine foreign (Nat.le_of_succ_le hv.min) ?_ ?_
      · rintro ⟨n, hn', hf'⟩
        rw [hn] at hn'
        cases hn'
        exact hact hf'
      · unfold Item.calls Command.calls
        dsimp only
        rw [if_neg hact]

/-- A call other than `init`, `disable` and `execute` while no logon packet arrives. -/
theorem other_step (e : Env) (s s' : Rx) (hr : Reachable e s) (op : RxOp) (h1 : op ≠ .init)
    (h2 : op ≠ .disable) (h3 : op.isExecute = false) (hf : op.isReceive = true → s.deque.length < e.rxDeque)
    (hl : ∀ t r l p, op = .receive t r → s.link.step t = .ok (l, some (.packet p)) → isLogon p = false)
    (h : s.step e op = .ok s') : Steady s s' ∧ drivingCalls s s' = [] ∧ s.trace <+: s'.trace := by
  have key : ∀ {P : Event → Prop}, (∀ ev, P ev → Event.isDriving ev = false) → Steady s s' →
      Adds P s s' → Steady s s' ∧ drivingCalls s s' = [] ∧ s.trace <+: s'.trace := by
    intro P hP h4 h5
    refine ⟨h4, driving_nil h5 hP, ?_⟩
    obtain ⟨evs, h6, _⟩ := h5
    rw [h6]; exact List.prefix_append _ _
  cases op with
  | init => exact absurd rfl h1
  | disable => exact absurd rfl h2
  | execute => cases h3
  | enable =>
    simp only [Rx.step, Rx.enable, Except.ok.injEq] at h
    subst h
    refine key driving_cv ?_ ?_
    · split <;> exact ⟨rfl, rfl, rfl, rfl, rfl⟩
    · split <;> exact .of_eq rfl
  | receive t r =>
    have f := (receive_frame e s hr.recvInv.room t r).out _ h
    refine key driving_cv ?_ (f.adds.mono fun ev => Event.isCv_of_quiet)
    obtain ⟨out, h5, h6⟩ := receive_spec e s s' t r h (hf rfl)
    rcases out with _ | (_ | p | _)
    · have h6 : s' = _ := h6
      rw [h6]; exact ⟨rfl, rfl, rfl, rfl, rfl⟩
    · have h6 : s' = _ := h6
      rw [h6]; exact ⟨rfl, rfl, rfl, rfl, rfl⟩
    · obtain ⟨a, _, h6⟩ := h6
      rw [hl t r _ p rfl h5, if_neg Bool.false_ne_true] at h6
      rw [h6]; exact ⟨rfl, rfl, rfl, rfl, rfl⟩
    · have h6 : s' = _ := h6
      rw [h6]; exact ⟨rfl, rfl, rfl, rfl, rfl⟩
  | datagram ds =>
    obtain ⟨q, b, rfl⟩ := datagram_eq e s s' ds h
    exact key driving_cv ⟨rfl, rfl, rfl, rfl, rfl⟩ (.of_eq rfl)
  | biDiChannel1 =>
    simp only [Rx.step, Except.ok.injEq] at h
    obtain ⟨q, evs, h4, h5⟩ := channel1_adds s
    rw [← h, h4]
    rw [← h, h4] at key
    exact key (P := fun ev => ∃ bs, ev = .transmitBiDi bs) (by rintro _ ⟨_, rfl⟩; rfl)
      ⟨rfl, rfl, rfl, rfl, rfl⟩ ⟨evs, rfl, h5⟩
  | biDiChannel2 =>
    obtain ⟨q, evs, rfl, h5⟩ := (channel2_adds s).out _ h
    exact key (P := fun ev => ∃ bs, ev = .transmitBiDi bs) (by rintro _ ⟨_, rfl⟩; rfl)
      ⟨rfl, rfl, rfl, rfl, rfl⟩ ⟨evs, rfl, h5⟩
  | callbackByte i v =>
    simp only [Rx.step] at h
    split at h
    · rw [callbackByte_eq] at h
      cases h
      refine key driving_cv ?_ (CvFrame.answerByte ..).adds
      unfold Rx.answerByte
      split
      · split <;> exact ⟨rfl, rfl, rfl, rfl, rfl⟩
      · exact ⟨rfl, rfl, rfl, rfl, rfl⟩
    · cases h; exact key driving_cv (.refl s) (.refl s)
  | callbackBit i v =>
    simp only [Rx.step] at h
    split at h
    · rw [callbackBit_eq] at h
      cases h
      refine key driving_cv ?_ (CvFrame.answerBit ..).adds
      unfold Rx.answerBit
      split
      · split <;> exact ⟨rfl, rfl, rfl, rfl, rfl⟩
      · exact ⟨rfl, rfl, rfl, rfl, rfl⟩
    · cases h; exact key driving_cv (.refl s) (.refl s)

/-! ### Histories -/

theorem drivingCalls_trans {a b c : Rx} (h : a.trace <+: b.trace) (g : b.trace <+: c.trace) :
    drivingCalls a c = drivingCalls a b ++ drivingCalls b c := by
  obtain ⟨x, hx⟩ := h
  obtain ⟨y, hy⟩ := g
  unfold drivingCalls
  rw [newCalls_append hx.symm, newCalls_append hy.symm,
    newCalls_append (s := a) (s' := c) (evs := x ++ y) (by rw [← hy, ← hx, List.append_assoc]),
    List.filter_append]

theorem Item.not_logon {i : Item} (hi : i.Legal) {p : Packet} (hp : i.packet = .ok p) :
    isLogon p = false := by
  cases i with
  | none => cases hp; rfl
  | some c => exact (built_packet c.addr (hi c rfl).1 c.call p hp).2.2.2

theorem execute_front_none (e : Env) (s : Rx) (now : Int) (rand : Nat)
    (h : s.packetEnd = true ∨ s.deque = []) : s.execute e now rand = .ok (s, false) := by
  unfold Rx.execute
  rw [if_pos (by simpa using h)]

/-- The driving calls of a history without logon packets. -/
theorem drive_run (e : Env) (ops : List RxOp) : ∀ (z z' : Rx) (items : List Item), Reachable e z →
    z.serviceMode = false → .init ∉ ops → .disable ∉ ops → NeverFull e z ops →
    z.run e ops = .ok z' →
    (∀ l os, z.link.run (recvTimes ops) = .ok (l, os) → ∀ p ∈ packetsOf os, isLogon p = false) →
    (∀ i ∈ items, i.Legal) → items.map Item.packet = (executed e z ops).map .ok →
    Steady z z' ∧ drivingCalls z z' = items.flatMap (Item.calls z) ∧ z.trace <+: z'.trace := by
  induction ops with
  | nil =>
    intro z z' items _ _ _ _ _ h _ _ hx
    cases h
    simp only [executed, List.map_nil, List.map_eq_nil_iff] at hx
    subst hx
    exact ⟨.refl z, by simp [drivingCalls, newCalls], List.prefix_rfl⟩
  | cons op ops ih =>
    intro z z' items hr hm hi hd hf h hl hleg hx
    rw [Rx.run, bind_eq_ok] at h
    obtain ⟨z1, h1, h2⟩ := h
    obtain ⟨hf1, hf2⟩ := hf
    rw [h1] at hf2
    simp only [executed, h1] at hx
    have hi1 : op ≠ .init := fun hc => hi (by simp [hc])
    have hd1 : op ≠ .disable := fun hc => hd (by simp [hc])
    -- the first call
    have first : ∃ now later, items = now ++ later ∧
        later.map Item.packet = (executed e z1 ops).map .ok ∧
        Steady z z1 ∧ drivingCalls z z1 = now.flatMap (Item.calls z) ∧ z.trace <+: z1.trace := by
      by_cases hex : op.isExecute = true
      · cases op <;> try simp [RxOp.isExecute] at hex
        rename_i now rand
        simp only [Rx.step, bind_eq_ok, pure_eq_ok, Except.ok.injEq] at h1
        obtain ⟨⟨z2, ret⟩, h3, rfl⟩ := h1
        simp only [RxOp.isExecute, Bool.true_and] at hx
        by_cases hn : z.packetEnd = true ∨ z.deque = []
        · rw [execute_front_none e z now rand hn] at h3
          cases h3
          refine ⟨[], items, rfl, ?_, .refl z, by simp [drivingCalls, newCalls], List.prefix_rfl⟩
          rw [hx]
          rcases hn with hn | hn <;> simp [hn]
        · simp only [not_or, Bool.not_eq_true] at hn
          obtain ⟨p, rest, hdq⟩ := List.exists_cons_of_ne_nil hn.2
          rw [hn.1, hdq] at hx
          simp only [Bool.not_false, if_true, List.take_succ_cons, List.take_zero, List.cons_append,
            List.nil_append, List.map_cons] at hx
          cases items with
          | nil => simp at hx
          | cons i later =>
            simp only [List.map_cons, List.cons.injEq] at hx
            obtain ⟨s', ret', h4, h5, h6, h7⟩ := item_execute e z now rand i (hleg i (by simp)) p hx.1
              (front_eq.mpr ⟨hn.1, rest, hdq⟩) hm
            rw [h3] at h4
            cases h4
            exact ⟨[i], later, rfl, hx.2, h5, by simpa using h6, h7⟩
      · simp only [Bool.not_eq_true] at hex
        rw [hex] at hx
        have hnl : ∀ t r l p, op = .receive t r → z.link.step t = .ok (l, some (.packet p)) →
            isLogon p = false := by
          intro t r l p hop hs
          subst hop
          obtain ⟨os, h6, _⟩ := run_interleaved e ops z1 z' h2 (fun hm => hd (by simp [hm])) hf2
          obtain ⟨o, h7, h8⟩ := receive_spec e z z1 t r h1 (hf1 rfl)
          rw [hs] at h7
          cases h7
          refine hl z'.link (.packet p :: os) ?_ p (by simp [packetsOf])
          show z.link.run (t :: recvTimes ops) = _
          rw [Link.run_cons _ hs, h6]
          rfl
        obtain ⟨h3, h4, h5⟩ := other_step e z z1 hr op hi1 hd1 hex hf1 hnl h1
        exact ⟨[], items, rfl, by simpa using hx, h3, by simpa using h4, h5⟩
    obtain ⟨now, later, rfl, h3, h4, h5, h6⟩ := first
    obtain ⟨h7, h8, h9⟩ := ih z1 z' later (hr.step op h1) (by rw [h4.serviceMode]; exact hm)
      (fun hm => hi (by simp [hm])) (fun hm => hd (by simp [hm])) hf2 h2 (by
        intro l os hos p hp
        by_cases hrc : op.isReceive = true
        · cases op <;> try simp [RxOp.isReceive] at hrc
          rename_i t r
          obtain ⟨o, h7, h8⟩ := receive_spec e z z1 t r h1 (hf1 rfl)
          refine hl l (o.toList ++ os) ?_ p ?_
          · show z.link.run (t :: recvTimes ops) = _
            rw [Link.run_cons _ h7, hos]
            rfl
          · simp only [packetsOf, List.filterMap_append, List.mem_append]
            exact .inr hp
        · have hrc' : op.isReceive = false := by simpa using hrc
          have h5 : z1.link = z.link := (step_other e z z1 op h1 (by
            intro t r hc; subst hc; simp [RxOp.isReceive] at hrc') hd1).1
          have : recvTimes (op :: ops) = recvTimes ops := by
            cases op <;> first | rfl | simp [RxOp.isReceive] at hrc'
          rw [h5] at hos
          exact hl l os (by rw [this]; exact hos) p hp)
      (fun i hi => hleg i (by simp [hi])) h3
    refine ⟨h4.trans h7, ?_, h6.trans h9⟩
    rw [drivingCalls_trans h6 h9, h5, h8, List.flatMap_append]
    congr 1
    simp only [List.flatMap_def]
    congr 1
    refine List.map_congr_left fun i _ => ?_
    cases i with
    | none => rfl
    | some c => exact h4.calls c

/-- Receiving and executing driving commands does not fault. -/
theorem drive_total (e : Env) (ops : List RxOp) : ∀ (z : Rx) (l : Link) (os : List LinkOut),
    Reachable e z → z.serviceMode = false →
    (∀ op ∈ ops, op.isReceive = true ∨ op.isExecute = true) → NeverFull e z ops →
    z.link.run (recvTimes ops) = .ok (l, os) →
    (∀ p ∈ z.deque ++ packetsOf os, ∃ i : Item, i.Legal ∧ i.packet = .ok p) →
    ∃ z', z.run e ops = .ok z' := by
  induction ops with
  | nil => intro z _ _ _ _ _ _ _ _; exact ⟨z, rfl⟩
  | cons op ops ih =>
    intro z l os hr hm ho hf hlk hp
    obtain ⟨hf1, hf2⟩ := hf
    have ho' : ∀ op ∈ ops, op.isReceive = true ∨ op.isExecute = true := fun o h => ho o (by simp [h])
    have hop := ho op (by simp)
    cases op <;> simp [RxOp.isReceive, RxOp.isExecute] at hop
    case receive t r =>
      have hlk : z.link.run (t :: recvTimes ops) = .ok (l, os) := hlk
      obtain ⟨l1, o, os1, h1, h2, rfl⟩ : ∃ l1 o os1, z.link.step t = .ok (l1, o) ∧
          l1.run (recvTimes ops) = .ok (l, os1) ∧ os = o.toList ++ os1 := by
        simp only [Link.run, bind_eq_ok, pure_eq_ok, Except.ok.injEq, Prod.mk.injEq] at hlk
        obtain ⟨⟨l1, o⟩, h1, ⟨l2, os1⟩, h2, rfl, rfl⟩ := hlk
        exact ⟨l1, o, os1, h1, h2, rfl⟩
      have hnl : ∀ p, o = some (.packet p) → isLogon p = false := by
        rintro p rfl
        obtain ⟨i, h3, h4⟩ := hp p (by simp [packetsOf])
        exact i.not_logon h3 h4
      obtain ⟨z1, h3⟩ := receive_total e z t r l1 o h1 hnl (hf1 rfl)
      have hst : z.step e (.receive t r) = .ok z1 := h3
      rw [hst] at hf2
      obtain ⟨o', h4, h5⟩ := receive_spec e z z1 t r h3 (hf1 rfl)
      rw [h1] at h4
      simp only [Except.ok.injEq, Prod.mk.injEq] at h4
      obtain ⟨rfl, rfl⟩ := h4
      obtain ⟨h6, h7⟩ := h5.deque
      have hsteady := (other_step e z z1 hr (.receive t r) (by simp) (by simp) rfl hf1 (by
        intro t' r' l' p hc hs
        cases hc
        rw [h1] at hs
        cases hs
        exact hnl p rfl) hst).1
      obtain ⟨z', h8⟩ := ih z1 l os1 (hr.step _ hst) (by rw [hsteady.serviceMode]; exact hm) ho' hf2 h2 (by
        intro p hmem
        refine hp p ?_
        rw [h7] at hmem
        simp only [packetsOf, List.filterMap_append, List.mem_append] at hmem ⊢
        rcases hmem with (hmem | hmem) | hmem
        · exact .inl hmem
        · refine .inr (.inl ?_)
          rcases o with _ | (_ | q | _) <;> simp [queued] at hmem
          simp [hmem.2]
        · exact .inr (.inr hmem))
      exact ⟨z', by rw [Rx.run, hst, ok_bind, h8]⟩
    case execute now rand =>
      have hlk : z.link.run (recvTimes ops) = .ok (l, os) := hlk
      obtain ⟨z1, ret, h1, h2⟩ : ∃ z1 ret, z.execute e now rand = .ok (z1, ret) ∧ Steady z z1 := by
        by_cases hn : z.packetEnd = true ∨ z.deque = []
        · exact ⟨z, false, execute_front_none e z now rand hn, .refl z⟩
        · simp only [not_or, Bool.not_eq_true] at hn
          obtain ⟨p, rest, hdq⟩ := List.exists_cons_of_ne_nil hn.2
          obtain ⟨i, hi, hip⟩ := hp p (by simp [hdq])
          obtain ⟨s', ret', h4, h5, _, _⟩ := item_execute e z now rand i hi p hip
            (front_eq.mpr ⟨hn.1, rest, hdq⟩) hm
          exact ⟨s', ret', h4, h5⟩
      have hst : z.step e (.execute now rand) = .ok z1 := by
        show (do return (← z.execute e now rand).1) = _
        rw [h1]; rfl
      rw [hst] at hf2
      obtain ⟨h3, h4⟩ := step_other e z z1 _ hst (by simp) (by simp)
      obtain ⟨z', h5⟩ := ih z1 l os (hr.step _ hst) (by rw [h2.serviceMode]; exact hm) ho' hf2
        (by rw [h3]; exact hlk) (by
          intro p hmem
          refine hp p ?_
          rw [List.mem_append] at hmem ⊢
          rcases hmem with hmem | hmem
          · refine .inl ?_
            rw [h4] at hmem
            split at hmem
            · exact List.mem_of_mem_drop hmem
            · exact hmem
          · exact .inr hmem)
      exact ⟨z', by rw [Rx.run, hst, ok_bind, h5]⟩

/-! ### What the station sent -/

/-- What the station sends: the packet of a request, or an idle packet of its own. -/
def sentAs {C : Type} (pk : C → R Packet) : Option C → R Packet
  | none => .ok idleBytes
  | some c => pk c

theorem Item.packet_sentAs : Item.packet = sentAs Command.packet := by
  funext i
  cases i <;> rfl

theorem name_items {C : Type} (pk : C → R Packet) (sent : List (Spec.Segment × Packet)) : ∀ cs : List C,
    cs.map pk = (sent.filter (·.1.frame.isSome)).map (fun g => .ok g.2) →
    (∀ g ∈ sent, g.1.frame = none → g.2 = idleBytes) →
    ∃ items : List (Option C), items.map (sentAs pk) = sent.map (fun g => .ok g.2) ∧
      items.filterMap id = cs := by
  induction sent with
  | nil =>
    intro cs h _
    simp only [List.filter_nil, List.map_nil, List.map_eq_nil_iff] at h
    exact ⟨[], rfl, by rw [h]; rfl⟩
  | cons g sent ih =>
    intro cs h hg
    cases hfr : g.1.frame with
    | none =>
      rw [List.filter_cons_of_neg (by simp [hfr])] at h
      obtain ⟨items, h1, h2⟩ := ih cs h fun g' hg' => hg g' (by simp [hg'])
      refine ⟨none :: items, ?_, by simpa using h2⟩
      rw [List.map_cons, List.map_cons, h1, hg g (by simp) hfr]
      rfl
    | some w =>
      rw [List.filter_cons_of_pos (by simp [hfr])] at h
      cases cs with
      | nil => simp at h
      | cons c cs =>
        simp only [List.map_cons, List.cons.injEq] at h
        obtain ⟨items, h1, h2⟩ := ih cs h.2 fun g' hg' => hg g' (by simp [hg'])
        refine ⟨some c :: items, ?_, by simpa using h2⟩
        rw [List.map_cons, List.map_cons, h1, ← h.1]
        rfl

theorem Command.valid {c : Command} (hc : c.Legal) {p : Packet} (hp : c.packet = .ok p) :
    ValidPacket p := (built_packet c.addr hc.1 c.call p hp).2.2.1

theorem Command.not_idle {c : Command} (hc : c.Legal) {p : Packet} (hp : c.packet = .ok p) :
    p ≠ idleBytes := by
  rintro rfl
  have := (built_packet c.addr hc.1 c.call _ hp).1
  simp [idleBytes, locoNumber] at this

/-- The packets on the track named: an idle packet is no item, any other one a request, in order.
The station still has the requests in its queue and those of the packets from number `k` on. -/
theorem track_items {C : Type} {pk : C → R Packet} {P : TxConfig → Prop} {n : Nat} {h : TxHist} {cmds : List C}
    (hacc : h.acc.map (fun a => Except.ok a.2) = cmds.map pk)
    {gs : List (Spec.Segment × Packet)} {c : Spec.Segment × Packet} {rest : List Packet}
    (hok : ∀ g ∈ gs ++ [c], g.1.Ok P ∧
        ((g.1.frame = none ∧ g.2 = [0xFF#8, 0x00#8, 0xFF#8]) ∨
          ∃ c, (c, g.2) ∈ h.acc ∧ g.1.frame = some (Spec.packetWave c g.2)))
    (h2 : h.acc.map (·.2) = ((gs ++ [c]).filter (·.1.frame.isSome)).map (·.2) ++ rest)
    (hrest : rest.length = h.s.size n) (b : Bool) :
    ∃ (items : List (Option C)) (unsent : List C),
      items.map (sentAs pk) = (gs.map (·.2) ++ if b then [c.2] else []).map .ok ∧
      cmds = items.filterMap id ++ unsent ∧
      (unsent.length = h.s.size n ∨ unsent.length = h.s.size n + 1 ∧ b = false) := by
  have hidle : ∀ g ∈ gs ++ [c], g.1.frame = none → g.2 = idleBytes := by
    intro g hg hn
    rcases (hok g hg).2 with ⟨_, hi⟩ | ⟨_, _, hs⟩
    · exact hi
    · rw [hn] at hs; cases hs
  have hsplit : cmds.map pk =
      ((gs ++ [c]).filter (·.1.frame.isSome)).map (fun g => .ok g.2) ++ rest.map .ok := by
    rw [← hacc]
    have := congrArg (List.map (Except.ok : Packet → R Packet)) h2
    simpa [List.map_map, Function.comp_def] using this
  obtain ⟨cs, late, rfl, hcs, hlate⟩ := List.map_eq_append_iff.mp hsplit
  have hll : late.length = h.s.size n := by
    have := congrArg List.length hlate
    simpa [hrest] using this
  obtain ⟨items, h6, h7⟩ := name_items pk (gs ++ [c]) cs hcs hidle
  cases b with
  | true =>
    refine ⟨items, late, ?_, by rw [h7], .inl hll⟩
    rw [h6]
    simp [List.map_map, Function.comp_def]
  | false =>
    rw [List.map_append] at h6
    obtain ⟨i1, i2, rfl, h8, h9⟩ := List.map_eq_append_iff.mp h6
    refine ⟨i1, i2.filterMap id ++ late, ?_, by rw [← h7]; simp, ?_⟩
    · rw [h8]
      simp [List.map_map, Function.comp_def]
    · have hlen : i2.length = 1 := by
        have := congrArg List.length h9
        simpa using this
      obtain ⟨i, rfl⟩ := List.length_eq_one_iff.mp hlen
      cases i with
      | none => exact .inl (by simpa using hll)
      | some x => exact .inr ⟨by simp [hll], rfl⟩

theorem accepted_valid {C : Type} {pk : C → R Packet} {h : TxHist} {cmds : List C} (hc : ∀ c ∈ cmds, ∀ p, pk c = .ok p → ValidPacket p)
    (hacc : h.acc.map (fun a => Except.ok a.2) = cmds.map pk) :
    ∀ a ∈ h.acc, ValidPacket a.2 := by
  intro a ha
  have : Except.ok a.2 ∈ h.acc.map (fun a => (Except.ok a.2 : R Packet)) :=
    List.mem_map.mpr ⟨a, ha, rfl⟩
  rw [hacc] at this
  obtain ⟨c, hm, hp⟩ := List.mem_map.mp this
  exact hc c hm _ hp

/-- The packets a receiver gets from a station that only accepted packets of requests. -/
theorem station_sent {C : Type} (pk : C → R Packet) (n : Nat) (txOps : List TxOp) (h : TxHist)
    (ht : ({ s := {} } : TxHist).run n txOps = .ok h) (cmds : List C)
    (hc : ∀ c ∈ cmds, ∀ p, pk c = .ok p → ValidPacket p)
    (hacc : h.acc.map (fun a => Except.ok a.2) = cmds.map pk) (l : Link) (hl : l.Synced) :
    ∃ (items : List (Option C)) (unsent : List C) (l' : Link) (os : List LinkOut),
      l.run (h.out.map (·.duration)) = .ok (l', os) ∧
      items.map (sentAs pk) = (packetsOf os).map .ok ∧ cmds = items.filterMap id ++ unsent ∧
      (unsent.length = h.s.size n ∨
        unsent.length = h.s.size n + 1 ∧ h.s.packetCount < h.s.current.length) := by
  obtain ⟨gs, c, rest, l', os, _, hok, hcomp, hcnt, hcur, h2, hrest, h4, h5⟩ :=
    station_track n txOps h ht (accepted_valid hc hacc) l hl
  have hfg : gs.filter (fun g => g.1.halves.length == g.1.wave.length) = gs := by
    rw [List.filter_eq_self]
    intro g hg
    simpa using hcomp g hg
  obtain ⟨items, unsent, h6, h7, h8⟩ := track_items (n := n) hacc hok h2 hrest
    (c.1.halves.length == c.1.wave.length)
  refine ⟨items, unsent, l', os, h4, ?_, h7, ?_⟩
  · rw [h6, h5, List.filter_append, hfg, List.map_append]
    cases hb : c.1.halves.length == c.1.wave.length <;> simp [hb]
  · rcases h8 with h8 | ⟨h8, h9⟩
    · exact .inl h8
    · refine .inr ⟨h8, ?_⟩
      have := (hok c (by simp)).1.halves_le
      have h9 : c.1.halves.length ≠ c.1.wave.length := by simpa using h9
      rw [← hcnt, ← hcur]; omega

/-- The packets a receiver gets from a station that only accepted commands. -/
theorem station_items (n : Nat) (txOps : List TxOp) (h : TxHist)
    (ht : ({ s := {} } : TxHist).run n txOps = .ok h) (cmds : List Command)
    (hc : ∀ c ∈ cmds, c.Legal)
    (hacc : h.acc.map (fun a => Except.ok a.2) = cmds.map Command.packet) (l : Link) (hl : l.Synced) :
    ∃ (items : List Item) (unsent : List Command) (l' : Link) (os : List LinkOut),
      l.run (h.out.map (·.duration)) = .ok (l', os) ∧
      items.map Item.packet = (packetsOf os).map .ok ∧ cmds = items.filterMap id ++ unsent ∧
      (unsent.length = h.s.size n ∨
        unsent.length = h.s.size n + 1 ∧ h.s.packetCount < h.s.current.length) := by
  rw [Item.packet_sentAs]
  exact station_sent Command.packet n txOps h ht cmds (fun c hm p hp => Command.valid (hc c hm) hp) hacc l hl

/-! ### Executing after every duration -/

theorem preamble_no_packet (l l' : Link) (t : Nat) (o : Option LinkOut) (hs : l.state = .preamble)
    (h : l.step t = .ok (l', o)) : o = none := by
  unfold Link.step at h
  have hh : l.state.halves = false := by rw [hs]; rfl
  simp only [hh, Bool.false_and, Bool.false_eq_true, if_false] at h
  have key : ∀ v, ({ l with packetEnd := false } : Link).bit v = .ok (l', o) → o = none := by
    intro v h
    simp only [Link.bit, hs] at h
    split at h
    · cases h; rfl
    · split at h <;> · cases h; rfl
  split at h
  · cases h; rfl
  · exact key _ h

theorem polled_neverFull (e : Env) (hroom : 2 ≤ e.rxDeque) (xs : List (Nat × Nat × Int × Nat)) :
    ∀ z : Rx, Reachable e z → z.deque.length ≤ 1 → (z.packetEnd = false → z.deque = []) →
    NeverFull e z (polled xs) ∧ ∀ z', z.run e (polled xs) = .ok z' →
      z'.deque.length ≤ 1 ∧ (z'.packetEnd = false → z'.deque = []) := by
  induction xs with
  | nil =>
    intro z _ h1 h2
    exact ⟨trivial, fun z' h => by cases h; exact ⟨h1, h2⟩⟩
  | cons x xs ih =>
    intro z hr h1 h2
    have hops : polled (x :: xs) =
        .receive x.1 x.2.1 :: .execute x.2.2.1 x.2.2.2 :: polled xs := rfl
    rw [hops]
    have hlt : z.deque.length < e.rxDeque := by omega
    cases hz1 : z.step e (.receive x.1 x.2.1) with
    | error f =>
      refine ⟨⟨fun _ => hlt, by rw [hz1]; trivial⟩, fun z' h => ?_⟩
      rw [Rx.run, hz1] at h
      have h : (Except.error f : R Rx) = .ok z' := h
      cases h
    | ok z1 =>
      obtain ⟨o, h3, h4⟩ := receive_spec e z z1 _ _ hz1 hlt
      have hd1 := h4.deque.2
      have hlen : z1.deque.length ≤ 1 := by
        rw [hd1]
        by_cases hpe : z.packetEnd = true
        · have := preamble_no_packet z.link _ _ _ (hr.recvInv.link.pend hpe).1 h3
          subst this
          simpa [queued] using h1
        · rw [h2 (by simpa using hpe)]
          rcases o with _ | (_ | p | _) <;> simp [queued]
          split <;> simp
      cases hz2 : z1.step e (.execute x.2.2.1 x.2.2.2) with
      | error f =>
        refine ⟨⟨fun _ => hlt, ?_⟩, fun z' h => ?_⟩
        · rw [hz1]
          exact ⟨by simp [RxOp.isReceive], by rw [hz2]; trivial⟩
        · rw [Rx.run, hz1, ok_bind, Rx.run, hz2] at h
          have h : (Except.error f : R Rx) = .ok z' := h
          cases h
      | ok z2 =>
        obtain ⟨h5, h6⟩ := step_other e z1 z2 _ hz2 (by simp) (by simp)
        obtain ⟨h7, h8⟩ := ih z2 ((hr.step _ hz1).step _ hz2) (by
            rw [h6]
            split
            · simp; omega
            · exact hlen) (by
            intro hpe
            have hpe1 : z1.packetEnd = false := by
              unfold Rx.packetEnd at hpe ⊢; rw [← h5]; exact hpe
            rw [h6, hpe1]
            simp only [RxOp.isExecute, Bool.not_false, Bool.and_self, if_true]
            rw [List.drop_eq_nil_iff]
            exact hlen)
        refine ⟨⟨fun _ => hlt, ?_⟩, fun z' h => ?_⟩
        · rw [hz1]
          exact ⟨by simp [RxOp.isReceive], by rw [hz2]; exact h7⟩
        · rw [Rx.run, hz1, ok_bind, Rx.run, hz2, ok_bind] at h
          exact h8 z' h

end Dcc
