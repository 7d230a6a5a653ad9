import Verif.Lemmas.RxEngine
/-! Obeying orders does not fault. -/
namespace Dcc
open Spec

theorem instruction_consist (e : Env) (s : Rx) (a : BitVec 16) (p : Packet) (b : Byte) (bs : List Byte)
    (rand : Nat) (h : decodeInstructionByte b = .consistControl) :
    s.executeInstruction e a p (b :: bs) rand = s.consistControl e (b :: bs) := by
  unfold Rx.executeInstruction decodeInstruction
  rw [byteAt_zero, ok_bind, pure_bind, h]

theorem instruction_long (e : Env) (s : Rx) (a : BitVec 16) (p : Packet) (b : Byte) (bs : List Byte)
    (rand : Nat) (h : decodeInstructionByte b = .cvLong) :
    s.executeInstruction e a p (b :: bs) rand = s.cvLong e a p (b :: bs) := by
  unfold Rx.executeInstruction decodeInstruction
  rw [byteAt_zero, ok_bind, pure_bind, h]

theorem instruction_short (e : Env) (s : Rx) (a : BitVec 16) (p : Packet) (b : Byte) (bs : List Byte)
    (rand : Nat) (h : decodeInstructionByte b = .cvShort) :
    s.executeInstruction e a p (b :: bs) rand = s.cvShort e a p (b :: bs) := by
  unfold Rx.executeInstruction decodeInstruction
  rw [byteAt_zero, ok_bind, pure_bind, h]

/-- Only CV1 and CV29 tell whether there is an address. -/
theorem hasAddress_other {c : BitVec 32 → Byte} (h : HasAddress c) (cv : Nat) (b : Byte)
    (h0 : BitVec.ofNat 32 cv ≠ 0#32) (h28 : BitVec.ofNat 32 cv ≠ 28#32) : HasAddress (applyWrite c (.byte cv b)) := by
  have key : ∀ x : BitVec 32, x ≠ BitVec.ofNat 32 cv → applyWrite c (.byte cv b) x = c x := fun x hx => if_neg hx
  unfold HasAddress
  rw [key _ (Ne.symm h28), key _ (Ne.symm h0)]
  exact h

theorem hasAddress_long (c : BitVec 32 → Byte) : HasAddress (applyWrite c (.bit 28 true 5)) := by
  have key : ∀ b : Byte, (setBit b 5#32 true).getLsbD 5 = true := by decide +kernel
  exact .inl (key (c 28#32))

/-- The CVs after a write are those before it or the written ones. -/
theorem mem_write {e : Env} {m : BitVec 32 → Byte} {s s' : Rx} {cv : Nat} {b : Byte}
    (h : s.cvWriteByte e (BitVec.ofNat 32 cv) b = .ok s') :
    mem m s'.trace = mem m s.trace ∨ mem m s'.trace = applyWrite (mem m s.trace) (.byte cv b) := by
  rw [cvWriteByte_eq] at h
  split at h
  · cases h; exact .inl rfl
  · right
    have hw : mem m (s.wroteByte e (BitVec.ofNat 32 cv) b).trace = applyWrite (mem m s.trace) (.byte cv b) := by
      rw [wroteByte_trace, mem_append, mem_accessCalls]
    unfold Rx.initIfNeeded at h
    split at h
    · obtain ⟨_, _, _, _, evs, -, -, -, -, hq, rfl⟩ := init_ok e _ s' h
      rw [← hw]
      exact mem_append_quiet _ _ _ fun ev hev => stores_of_quiet ev (hq ev hev)
    · cases h; exact hw

/-- A write that does not concern the address. -/
theorem write_harmless {e : Env} {m : BitVec 32 → Byte} (hm : MemoryLike e m) (s : Rx)
    (ha : HasAddress (mem m s.trace)) (cv : Nat) (hcv : cv < 2 ^ 32) (b : Byte)
    (h0 : BitVec.ofNat 32 cv ≠ 0#32) (h28 : BitVec.ofNat 32 cv ≠ 28#32) :
    ∃ s', s.cvWriteByte e (BitVec.ofNat 32 cv) b = .ok s' ∧ HasAddress (mem m s'.trace) := by
  have h1 := hasAddress_other ha cv b h0 h28
  obtain ⟨s', h⟩ := writeByte_total hm s cv hcv b fun _ => h1
  refine ⟨s', h, ?_⟩
  rcases mem_write (m := m) h with h | h <;> rw [h] <;> assumption

/-- The short form does not fault. -/
theorem short_total {e : Env} {m : BitVec 32 → Byte} (hm : MemoryLike e m) (s : Rx)
    (ha : HasAddress (mem m s.trace)) (f : ShortForm) (y : Byte) :
    ∃ s', s.cvShortBody e (f.bytes ++ [y]) = .ok s' := by
  cases f with
  | cv23 v =>
    obtain ⟨s', h, -⟩ := write_harmless hm s ha 22 (by decide) v (by decide) (by decide)
    exact ⟨s', h⟩
  | cv24 v =>
    obtain ⟨s', h, -⟩ := write_harmless hm s ha 23 (by decide) v (by decide) (by decide)
    exact ⟨s', h⟩
  | address n =>
    by_cases h2 : s.ownEqualCvPackets = 2
    · obtain ⟨s1, h1, a1⟩ := write_harmless hm s ha 16 (by decide)
        (0xC0#8 ||| BitVec.ofNat 8 (192 + n / 256)) (by decide) (by decide)
      obtain ⟨s2, h2', a2⟩ := write_harmless hm s1 a1 17 (by decide) (BitVec.ofNat 8 n) (by decide) (by decide)
      obtain ⟨s3, h3⟩ := writeBit_total hm s2 28 (by decide) true 5 fun _ => hasAddress_long _
      refine ⟨s3, ?_⟩
      show (if s.ownEqualCvPackets ≠ 2 then _ else _) = _
      rw [if_neg (by simp [h2])]
      show (s.cvWriteByte e (BitVec.ofNat 32 16) _ >>= fun s => s.cvWriteByte e (BitVec.ofNat 32 17) _ >>= fun s =>
        s.cvWriteBit e (BitVec.ofNat 32 28) true (BitVec.ofNat 32 5)) = _
      rw [h1, ok_bind, h2', ok_bind, h3]
    · refine ⟨s, ?_⟩
      show (if s.ownEqualCvPackets ≠ 2 then _ else _) = _
      rw [if_pos h2]
      rfl
  | index h l =>
    by_cases h2 : s.ownEqualCvPackets = 2
    · obtain ⟨s1, h1, a1⟩ := write_harmless hm s ha 30 (by decide) h (by decide) (by decide)
      obtain ⟨s2, h2', -⟩ := write_harmless hm s1 a1 31 (by decide) l (by decide) (by decide)
      refine ⟨s2, ?_⟩
      show (if s.ownEqualCvPackets ≠ 2 then _ else _) = _
      rw [if_neg (by simp [h2])]
      show (s.cvWriteByte e (BitVec.ofNat 32 30) _ >>= fun s => s.cvWriteByte e (BitVec.ofNat 32 31) _) = _
      rw [h1, ok_bind, h2']
    · refine ⟨s, ?_⟩
      show (if s.ownEqualCvPackets ≠ 2 then _ else _) = _
      rw [if_pos h2]
      rfl

/-- Executing an order does not fault if the CVs have an address after it. -/
theorem order_total {e : Env} {m : BitVec 32 → Byte} (hm : MemoryLike e m) {s : Rx} (now : Int) (rand : Nat)
    (hr : Reachable e s) (hs : Settled m s) (hmode : s.serviceMode = false) {o : Order} (ho : o.Legal)
    {p : Packet} (hp : o.packet = .ok p) (hf : front s = some p)
    (ha' : HasAddress ((engineOf m s).obey p o).1.cvs) :
    ∃ s' ret, s.execute e now rand = .ok (s', ret) := by
  obtain ⟨hn, -, -, -⟩ := Order.built ho hp
  have hR := hs.reflects
  have ha := hR.address
  obtain ⟨hpe, rest, hdq⟩ := front_eq.mp hf
  cases hh : hearing (mem m s.trace) o.number with
  | false =>
    exact ⟨_, _, execute_foreign e s now rand p rest hpe hdq hmode (hr.lengths p (by simp [hdq]))
      (not_for hR hs.address hn hh)⟩
  | true =>
    have hact := (hearing_iff hR hs.address _).mp hh
    obtain ⟨stores, ht, hls⟩ := prepared_trace e s now
    rw [hls.none hs.store, List.append_nil] at ht
    obtain ⟨m1, m2, m3⟩ := prepared_modes e s now
    have ha1 : HasAddress (mem m (s.prepared e now).trace) := by rw [ht]; exact ha
    -- it is enough that the instruction does not fault
    have enough : (∃ s2, (s.prepared e now).executeInstruction e (target (s.prepared e now) o.number) p
        (afterAddress p) rand = .ok s2) → ∃ s' ret, s.execute e now rand = .ok (s', ret) := by
      rintro ⟨s2, h2⟩
      rw [execute_front e s now rand p rest hpe hdq, hmode, if_neg Bool.false_ne_true,
        operations_for e _ p rand _ hn (hact.imp id (Active.congr m3 _).mpr), h2]
      exact ⟨_, _, rfl⟩
    cases o with
    | drive c =>
      obtain ⟨s2, _, h1, -⟩ := command_executes e s now rand c ho p hp hf hmode hact
      exact ⟨s2, _, h1⟩
    | consist a r n =>
      obtain ⟨hleg, hn128⟩ : LocoAddress a ∧ n < 128 := ho
      obtain ⟨-, ⟨x, hpay⟩, -, -⟩ := built_addressed a hleg _ (by simp) p hp
      refine enough ?_
      rw [hpay]
      show ∃ s2, (s.prepared e now).executeInstruction e _ p ((if r then 0x13#8 else 0x12#8) :: [_, x]) rand = _
      rw [instruction_consist _ _ _ _ _ _ _ (by cases r <;> rfl)]
      obtain ⟨s2, h2, -⟩ := write_harmless hm _ ha1 18 (by decide)
        (((if r then 0x13#8 else 0x12#8) <<< 7) ||| BitVec.ofNat 8 n) (by decide) (by decide)
      exact ⟨s2, h2⟩
    | long a k x =>
      obtain ⟨hleg, hxl⟩ : LocoAddress a ∧ x.Legal := ho
      obtain ⟨-, ⟨y, hpay⟩, -, -⟩ := built_packet a hleg _ p hp
      obtain ⟨b0, b1, b2, g1, g2, g3, g4⟩ := pom_payload k x hxl
      rw [g1] at hpay
      have hb : (afterAddress p).head? = some b0 := by rw [hpay]; rfl
      have hq := request_cvs hR hs.address hmode hn hb
      rw [cvRequest_operations s p _ b0 hmode hn hact hb] at hq
      refine enough ?_
      rw [hpay]
      show ∃ s2, (s.prepared e now).executeInstruction e _ p (b0 :: [b1, b2, y]) rand = _
      rw [instruction_long _ _ _ _ _ _ _ ((decode_cv b0).1.mpr ⟨g2, g3⟩)]
      unfold Rx.cvLong
      split
      · exact ⟨_, rfl⟩
      · rename_i hnc
        dsimp only
        split
        · exact ⟨_, rfl⟩
        · obtain ⟨f1, f2, f3, f4⟩ := count_fields (s.prepared e now) p
          rw [m3, target_congr m3] at hnc
          rw [decide_eq_false hnc] at hq
          simp only [Bool.not_false, g2, decide_true, Bool.and_true] at hq
          have hpr : programmable (engineOf m s).cvs a.value.toNat = true := hq.symm
          have hcc := count_cvCount (s.prepared e now) p
          rw [prepared_cvCount, count_engine m] at hcc
          have hcc : ((s.prepared e now).countOwnEqualCvPackets p).ownEqualCvPackets =
            ((engineOf m s).counted p).count := congrArg Prod.snd hcc
          refine longBody_total hm _ _ (by simp) ?_
          intro x' hla hperm
          rw [hcc] at hla
          have hw : k = .write ∧ ((engineOf m s).counted p).count = 2 ∧ x' = x := by
            unfold longAction at hla
            rw [show (b0 :: [b1, b2, y]) = b0 :: b1 :: b2 :: [y] from rfl, g4] at hla
            cases k with
            | verify => simp at hla
            | write =>
              cases x <;> dsimp only at hla
              · split at hla
                · rename_i h2; cases hla; exact ⟨rfl, h2, rfl⟩
                · split at hla <;> simp at hla
              · split at hla
                · rename_i h2; cases hla; exact ⟨rfl, h2, rfl⟩
                · simp at hla
          obtain ⟨rfl, hc2, rfl⟩ := hw
          rw [f3, m2, reflects_locks hR] at hperm
          rw [f1, ht]
          have hob : ((engineOf m s).obey p (.long a .write x')).1 = ((engineOf m s).counted p).write [x'] := by
            show (if programmable (engineOf m s).cvs a.value.toNat = true then _ else _) = _
            rw [if_pos hpr, if_pos ⟨rfl, hc2⟩]
          rw [hob, write_single] at ha'
          have hperm' : permitted (locks ((engineOf m s).counted p).cvs) .write x' = true := hperm
          rw [if_pos hperm'] at ha'
          exact ha'
    | short a g =>
      obtain ⟨hleg, hgl⟩ : LocoAddress a ∧ g.Legal := ho
      obtain ⟨b0, bs, g1, g2, -⟩ := short_bytes g hgl
      obtain ⟨-, ⟨y, hpay⟩, -, -⟩ := built_addressed a hleg _ (by rw [g1]; simp) p hp
      refine enough ?_
      have hi : (s.prepared e now).executeInstruction e (target (s.prepared e now) (Order.short a g).number) p
          (afterAddress p) rand = (s.prepared e now).cvShort e (target (s.prepared e now)
            (Order.short a g).number) p (g.bytes ++ [y]) := by
        rw [hpay, g1]
        exact instruction_short _ _ _ _ _ _ _ ((decode_cv b0).2.mpr g2)
      rw [hi]
      unfold Rx.cvShort
      split
      · exact ⟨_, rfl⟩
      · obtain ⟨f1, -, -, -⟩ := count_fields (s.prepared e now) p
        exact short_total hm _ (by rw [f1]; exact ha1) g y

/-- Such a history does not fault if the CVs have an address after each packet. -/
theorem engine_total {e : Env} {m : BitVec 32 → Byte} (hm : MemoryLike e m) (ops : List RxOp) :
    ∀ (z : Rx) (l : Link) (os : List LinkOut) (items : List (Option Order)), Reachable e z → Settled m z →
    z.serviceMode = false → (∀ op ∈ ops, op.isReceive = true ∨ op.isExecute = true) → NeverFull e z ops →
    z.link.run (recvTimes ops) = .ok (l, os) → (∀ i ∈ items, OrderItem.Legal i) →
    items.map (sentAs Order.packet) = (z.deque ++ packetsOf os).map .ok →
    (engineOf m z).KeepsNumber (items.filterMap id) → ∃ z', z.run e ops = .ok z' := by
  induction ops with
  | nil => intro z _ _ _ _ _ _ _ _ _ _ _ _; exact ⟨z, rfl⟩
  | cons op ops ih =>
    intro z l os items hr hz hmode ho hf hlk hleg hp hka
    obtain ⟨hf1, hf2⟩ := hf
    have ho' : ∀ op ∈ ops, op.isReceive = true ∨ op.isExecute = true := fun o h => ho o (by simp [h])
    have hop := ho op (by simp)
    have settled : ∀ z1, z.step e op = .ok z1 →
        z1.logon.assigned = z.logon.assigned ∧ z1.addrs.logon = z.addrs.logon → Settled m z1 := by
      rintro z1 h1 ⟨ha, hg⟩
      have ha := ha.trans hz.assigned
      obtain ⟨h3, h4⟩ := step_keeps hm z z1 hr hz.store op h1 ha
      exact ⟨h4, ha, by rw [hg]; exact hz.address, h3.out hz.reflects⟩
    cases op <;> simp [RxOp.isReceive, RxOp.isExecute] at hop
    case receive t r =>
      have hlk : z.link.run (t :: recvTimes ops) = .ok (l, os) := hlk
      obtain ⟨l1, o, os1, h1, h2, rfl⟩ : ∃ l1 o os1, z.link.step t = .ok (l1, o) ∧
          l1.run (recvTimes ops) = .ok (l, os1) ∧ os = o.toList ++ os1 := by
        simp only [Link.run, bind_eq_ok, pure_eq_ok, Except.ok.injEq, Prod.mk.injEq] at hlk
        obtain ⟨⟨l1, o⟩, h1, ⟨l2, os1⟩, h2, rfl, rfl⟩ := hlk
        exact ⟨l1, o, os1, h1, h2, rfl⟩
      have hnl : ∀ p, o = some (.packet p) → isLogon p = false := by
        rintro p rfl
        have : (Except.ok p : R Packet) ∈ items.map (sentAs Order.packet) := by
          rw [hp]; exact List.mem_map_of_mem (by simp [packetsOf])
        obtain ⟨i, h3, h4⟩ := List.mem_map.mp this
        cases i with
        | none => cases h4; rfl
        | some o => exact (Order.built (hleg _ h3 o rfl) h4).2.2.1
      obtain ⟨z1, h3⟩ := receive_total e z t r l1 o h1 hnl (hf1 rfl)
      have hst : z.step e (.receive t r) = .ok z1 := h3
      rw [hst] at hf2
      obtain ⟨o', h4, h5⟩ := receive_spec e z z1 t r h3 (hf1 rfl)
      rw [h1] at h4
      simp only [Except.ok.injEq, Prod.mk.injEq] at h4
      obtain ⟨rfl, rfl⟩ := h4
      obtain ⟨h6, h7⟩ := h5.deque
      obtain ⟨g1, g2, g3, g4⟩ := other_session m hr (op := .receive t r) (by simp) (by simp) rfl (by simp)
        (by simp) hf1 (by
          intro t' r' l' p hc hs
          cases hc
          rw [h1] at hs
          cases hs
          exact hnl p rfl) hst
      have hen : engineOf m z1 = engineOf m z := engine_eq (congrArg Device.cvs g1)
        (Prod.ext (congrArg Device.last g1) (congrArg Device.count g1))
      obtain ⟨z', h8⟩ := ih z1 l os1 items (hr.step _ hst) (settled z1 hst g4)
        ((congrArg Device.service g1).trans hmode) ho' hf2 h2 hleg (by
        rw [hp, h7, List.append_assoc]
        congr 2
        simp only [packetsOf, List.filterMap_append]
        congr 1
        rcases o with _ | (_ | q | _) <;> first | rfl | skip
        simp [queued, hnl q rfl]) (by rw [hen]; exact hka)
      exact ⟨z', by rw [Rx.run, hst, ok_bind, h8]⟩
    case execute now rand =>
      have hlk : z.link.run (recvTimes ops) = .ok (l, os) := hlk
      have finish : ∀ (z1 : Rx) (ret : Bool) (later : List (Option Order)),
          z.execute e now rand = .ok (z1, ret) → z1.serviceMode = false →
          (∀ i ∈ later, OrderItem.Legal i) → later.map (sentAs Order.packet) =
            ((if z.packetEnd = false then z.deque.drop 1 else z.deque) ++ packetsOf os).map .ok →
          (engineOf m z1).KeepsNumber (later.filterMap id) →
          ∃ z', z.run e (.execute now rand :: ops) = .ok z' := by
        intro z1 ret later h1 g0 g1 g2 g3
        have hst : z.step e (.execute now rand) = .ok z1 := by
          show (do return (← z.execute e now rand).1) = _
          rw [h1]; rfl
        rw [hst] at hf2
        obtain ⟨h3, h4⟩ := step_other e z z1 _ hst (by simp) (by simp)
        obtain ⟨z', h5⟩ := ih z1 l os later (hr.step _ hst) (settled z1 hst (execute_assigned h1)) g0 ho' hf2
          (by rw [h3]; exact hlk) g1 (by
            rw [g2, h4]
            cases z.packetEnd <;> rfl) g3
        exact ⟨z', by rw [Rx.run, hst, ok_bind, h5]⟩
      by_cases hn : z.packetEnd = true ∨ z.deque = []
      · refine finish z false items (execute_front_none e z now rand hn) hmode hleg ?_ hka
        rw [hp]
        rcases hn with hn | hn
        · rw [if_neg (by simp [hn])]
        · rw [hn]; split <;> rfl
      · simp only [not_or, Bool.not_eq_true] at hn
        obtain ⟨p, rest, hdq⟩ := List.exists_cons_of_ne_nil hn.2
        rw [hdq] at hp
        cases items with
        | nil => simp at hp
        | cons i later =>
          simp only [List.map_cons, List.cons_append, List.cons.injEq] at hp
          have hfr := front_eq.mpr ⟨hn.1, rest, hdq⟩
          have hlater : later.map (sentAs Order.packet) =
              ((if z.packetEnd = false then z.deque.drop 1 else z.deque) ++ packetsOf os).map .ok := by
            rw [if_pos hn.1, hdq]; exact hp.2
          have hl' : ∀ i ∈ later, OrderItem.Legal i := fun i hi => hleg i (by simp [hi])
          cases i with
          | none =>
            have hpi : p = idleBytes := by
              have : (Except.ok idleBytes : R Packet) = .ok p := hp.1
              cases this; rfl
            have hfd : ¬ ForDecoder z p := by
              rintro ⟨n, hn, -⟩
              rw [hpi] at hn
              simp [idleBytes, locoNumber] at hn
            have h1 := execute_foreign e z now rand p rest hn.1 hdq hmode (hr.lengths p (by simp [hdq])) hfd
            have g1 := foreign_obeyed hr hz hmode hfr hfd h1
            exact finish _ _ later h1 g1.mode hl' hlater (by rw [g1.engine]; exact hka)
          | some o =>
            have hpo : o.packet = .ok p := hp.1
            have hlo := hleg (some o) (by simp) o rfl
            rw [List.filterMap_cons_some (f := id) rfl] at hka
            have hka' := hka.rest hpo
            obtain ⟨z1, ret, h1⟩ := order_total hm now rand hr hz hmode hlo hpo hfr hka'.first
            have g1 := order_execute hm hr hz hmode hlo hpo hfr h1
            exact finish z1 ret later h1 g1.mode hl' hlater (by rw [g1.engine]; exact hka')

end Dcc
