import Verif.Lemmas.RxEngine
import Verif.Props.Independence
import Verif.Props.Programming
import Verif.Props.RxLogon
import Verif.Props.Serial
/-! C99: a locomotive obeys its orders however the interrupts come. -/
namespace Dcc
open Spec Prog

variable {e : Env} {m : BitVec 32 → Byte}

theorem deaf_memory (hm : Memory e m) : Deaf e where
  readCv a cv := by rw [hm.reads, hm.reads, mem_visible]
  readCvByte a cv x := by rw [hm.readByte, hm.readByte, mem_visible]
  readCvBit a cv x p := by rw [hm.readBit, hm.readBit, mem_visible]
  writeCvByte a cv x := by rw [hm.writeByte, hm.writeByte]
  writeCvBit a cv x p := by rw [hm.writeBit, hm.writeBit]

/-! ### What depends on the core only -/

theorem core_trace {s t : Rx} (h : core s = core t) : visible s.trace = visible t.trace := congrArg Rx.trace h

theorem core_cvs {s t : Rx} (h : core s = core t) : mem m s.trace = mem m t.trace := by
  rw [← mem_visible s.trace, ← mem_visible t.trace, core_trace h]

theorem core_engine {s t : Rx} (h : core s = core t) : engineOf m s = engineOf m t := by
  have h1 : s.lastOwnCvPacket = t.lastOwnCvPacket :=
    (congrArg Rx.lastOwnCvPacket h : (core s).lastOwnCvPacket = _)
  have h2 : s.ownEqualCvPackets = t.ownEqualCvPackets :=
    (congrArg Rx.ownEqualCvPackets h : (core s).ownEqualCvPackets = _)
  unfold engineOf
  rw [core_cvs h, h1, h2]

theorem core_driving {s t : Rx} (h : core s = core t) :
    s.trace.filter Event.isDriving = t.trace.filter Event.isDriving := by
  have key : ∀ tr : List Event, (visible tr).filter Event.isDriving = tr.filter Event.isDriving := by
    intro tr
    unfold visible
    rw [List.filter_filter]
    congr 1
    funext ev
    cases ev <;> rfl
  rw [← key, ← key t.trace, core_trace h]

theorem core_mode {s t : Rx} (h : core s = core t) : s.mode = t.mode := (congrArg Rx.mode h : (core s).mode = _)

theorem core_settled {s t : Rx} (h : core s = core t) (hs : Settled m s) : Settled m t := by
  have h1 : (core s).logon.store = (core t).logon.store := by rw [h]
  have h2 : (core s).logon.assigned = (core t).logon.assigned := by rw [h]
  have h3 : (core s).addrs.logon = (core t).addrs.logon := by rw [h]
  have h4 : (core s).addrs.primary = (core t).addrs.primary := by rw [h]
  have h5 : (core s).addrs.consist = (core t).addrs.consist := by rw [h]
  have h6 : (core s).cfg = (core t).cfg := by rw [h]
  refine ⟨h1.symm.trans hs.store, h2.symm.trans hs.assigned, ?_, ?_⟩
  · have h3 : s.addrs.logon = t.addrs.logon := h3
    rw [← h3]; exact hs.address
  · exact hs.reflects.congr (fun cv _ => by rw [core_cvs h]) h4.symm h5.symm h6.symm

/-! ### Packets one by one -/

/-- A packet is delivered, or `enable` is called. -/
def segment : Option Packet → List RxOp
  | none => [.enable]
  | some p => delivered p

theorem segments (ms : List Beat) (hc : ∀ op, .start op ∈ ms → op.direct = true → op = .enable) : ∀ x : Preempted,
    ∃ L : List (Option Packet), inOrder e x ms = L.flatMap segment ∧ L.filterMap id = executedBy e x ms := by
  induction ms with
  | nil => exact fun x => ⟨[], rfl, rfl⟩
  | cons b ms ih =>
    intro x
    cases hx : x.step e b with
    | error f =>
      refine ⟨[], ?_, ?_⟩
      · unfold inOrder; rw [collect, hx]; rfl
      · unfold executedBy frontAt; rw [collect, hx]; rfl
    | ok x' =>
      obtain ⟨L, h1, h2⟩ := ih (fun op h => hc op (List.mem_cons_of_mem _ h)) x'
      have hex : executedBy e x (b :: ms) =
          (if b = .access ∧ x.line.any ([291, 315].contains ·) then x.s.deque.take 1 else []) ++ executedBy e x' ms := by
        unfold executedBy frontAt; rw [collect, hx]
      rw [inOrder_cons hx, h1, hex, ← h2]
      have none' : adds x b = [] → ¬ (b = .access ∧ x.line.any ([291, 315].contains ·)) → ∃ L' : List (Option Packet),
          adds x b ++ L.flatMap segment = L'.flatMap segment ∧ L'.filterMap id =
          (if b = .access ∧ x.line.any ([291, 315].contains ·) then x.s.deque.take 1 else []) ++ L.filterMap id := by
        intro g1 g2
        exact ⟨L, by rw [g1]; rfl, by rw [if_neg g2]; rfl⟩
      cases b with
      | access =>
        cases hl : x.line with
        | none => exact ⟨L, by simp [adds, hl], by simp⟩
        | some l =>
          refine ⟨(fetchedAt l x.s).map some ++ L, ?_, ?_⟩
          · rw [List.flatMap_append, List.flatMap_map]
            simp only [adds, hl]
            rfl
          · rw [List.filterMap_append, List.filterMap_map]
            have : (fetchedAt l x.s).filterMap (id ∘ some) = fetchedAt l x.s := List.filterMap_some
            rw [this]
            congr 1
            unfold fetchedAt
            by_cases h : l = 291 ∨ l = 315
            · rw [if_pos h, if_pos ⟨rfl, by simpa [List.contains_iff_mem] using h⟩]
            · rw [if_neg h, if_neg]
              rintro ⟨-, h'⟩
              exact h (by simpa [List.contains_iff_mem] using h')
      | start op =>
        by_cases ho : op.direct = true
        · have := hc op List.mem_cons_self ho
          subst this
          by_cases hl : x.line = none
          · exact ⟨none :: L, by simp only [adds, hl, if_true]; rfl, by simp⟩
          · exact none' (by simp only [adds, if_neg hl]) (by simp)
        · refine none' ?_ (by simp)
          cases op <;> first | rfl | exact absurd rfl ho
      | _ => exact none' rfl (by simp)

/-- The orders are obeyed one by one. -/
theorem obeyed_one_by_one (hm : MemoryLike e m) (L : List (Option Packet)) :
    ∀ (t t' : Rx) (items : List (Option Order)), Reachable e t → t.link.state = .preamble → t.deque = [] →
    Settled m t → t.serviceMode = false → (∀ p, some p ∈ L → ValidPacket p ∧ isLogon p = false ∧ 0 < e.rxDeque) →
    (∀ i ∈ items, OrderItem.Legal i) → items.map (sentAs Order.packet) = (L.filterMap id).map .ok →
    t.run e (L.flatMap segment) = .ok t' → Obeyed m t t' ((engineOf m t).run (items.filterMap id)) := by
  induction L with
  | nil =>
    intro t t' items _ _ _ _ hmode _ _ hx h
    cases h
    simp only [List.filterMap_nil, List.map_nil, List.map_eq_nil_iff] at hx
    subst hx
    exact ⟨rfl, by simp [drivingCalls, newCalls, Engine.run], List.prefix_rfl, hmode⟩
  | cons o L ih =>
    intro t t' items hr hst hdq hz hmode hval hleg hx h
    rw [List.flatMap_cons] at h
    obtain ⟨t2, h1, h2⟩ := run_append_split e _ _ t t' h
    have hval' : ∀ p, some p ∈ L → ValidPacket p ∧ isLogon p = false ∧ 0 < e.rxDeque := fun p hp => hval p (List.mem_cons_of_mem _ hp)
    cases o with
    | none =>
      obtain ⟨b, rfl⟩ : ∃ b, t2 = { t with enabled := b } := by
        simp only [segment, Rx.run, Rx.step, Rx.enable] at h1
        cases h1
        split
        · exact ⟨t.enabled, rfl⟩
        · exact ⟨true, rfl⟩
      have hz2 : Settled m { t with enabled := b } :=
        ⟨hz.store, hz.assigned, hz.address, hz.reflects.congr (fun _ _ => rfl) rfl rfl rfl⟩
      have g := ih _ t' items (hr.run _ h1) hst hdq hz2 hmode hval' hleg hx h2
      exact ⟨g.engine, g.calls, g.trace, g.mode⟩
    | some p =>
      obtain ⟨hv, hl, hroom⟩ := hval p List.mem_cons_self
      obtain ⟨t1, k1, k2, k3, k4, k5, -, -, k6⟩ := hears_one hr hst hdq hv hl hroom
      have hr1 : Reachable e t1 := hr.run _ k1
      obtain ⟨t1', h3, h4⟩ := run_append_split e _ _ t t2 h1
      rw [k1] at h3
      cases h3
      have hz1 := core_settled k2.symm hz
      have hm1 : t1.serviceMode = false := by unfold Rx.serviceMode at *; rw [core_mode k2]; exact hmode
      have hstep : t1.step e (.execute 0 0) = .ok t2 := by
        simp only [Rx.run, bind_eq_ok] at h4
        obtain ⟨y, h5, h6⟩ := h4
        cases h6; exact h5
      have hstep' := hstep
      simp only [Rx.step, bind_eq_ok, pure_eq_ok, Except.ok.injEq] at hstep'
      obtain ⟨⟨z2, ret⟩, h5, rfl⟩ := hstep'
      have hfr : front t1 = some p := front_eq.mpr ⟨k4, [], k3⟩
      obtain ⟨ha, hg⟩ := execute_assigned h5
      have hz2 : Settled m z2 := by
        have ha := ha.trans hz1.assigned
        obtain ⟨h6, h7⟩ := step_keeps hm t1 z2 hr1 hz1.store _ hstep ha
        exact ⟨h7, ha, by rw [hg]; exact hz1.address, h6.out hz1.reflects⟩
      obtain ⟨hst2, hdq2⟩ : z2.link.state = .preamble ∧ z2.deque = [] := by
        rcases execute_cases e t1 z2 0 0 ret h5 with ⟨hno, -, -⟩ | ⟨q, rest, s2, s3, -, hq, -, f1, -, f2, rfl⟩
        · rw [k3, k4] at hno
          rcases hno with h | h <;> cases h
        · refine ⟨?_, ?_⟩
          · show s3.link.state = _
            rw [f2.link, f1.link]; exact k5
          · unfold Rx.popFront
            rw [f2.deque, f1.deque, k3]; simp
      simp only [List.filterMap_cons, id, List.map_cons] at hx
      obtain _ | ⟨i, is⟩ := items
      · cases hx
      simp only [List.map_cons, List.cons.injEq] at hx
      obtain ⟨hx1, hx2⟩ := hx
      have later := fun hmode => ih z2 t' is (hr1.step _ hstep) hst2 hdq2 hz2 hmode hval'
        (fun i hi => hleg i (List.mem_cons_of_mem _ hi)) hx2 h2
      have join : ∀ (r : Engine × List Event) (os : List Order), Obeyed m t1 z2 r →
          Obeyed m z2 t' ((engineOf m z2).run os) → Obeyed m t t' ((r.1.run os).1, r.2 ++ (r.1.run os).2) := by
        intro r os g1 g2
        rw [g1.engine] at g2
        have htr : t.trace <+: t1.trace := by rw [k6]; exact List.prefix_rfl
        have hnone : drivingCalls t t1 = [] := by simp [drivingCalls, newCalls, k6]
        exact ⟨g2.engine, by rw [drivingCalls_trans htr (g1.trace.trans g2.trace), hnone,
          drivingCalls_trans g1.trace g2.trace, g1.calls, g2.calls]; rfl, htr.trans (g1.trace.trans g2.trace), g2.mode⟩
      rw [← core_engine k2]
      cases i with
      | none =>
        have hp : p = idleBytes := by
          have : (Except.ok idleBytes : R Packet) = .ok p := hx1
          cases this; rfl
        have g1 := foreign_obeyed hr1 hz1 hm1 hfr (by
          rintro ⟨n, hn, -⟩
          rw [hp] at hn
          simp [idleBytes, locoNumber] at hn) h5
        exact join _ _ g1 (later g1.mode)
      | some o =>
        have hp : o.packet = .ok p := hx1
        have g1 := order_execute hm hr1 hz1 hm1 (hleg (some o) List.mem_cons_self o rfl) hp hfr h5
        rw [List.filterMap_cons_some (f := id) rfl, Engine.run_cons _ hp]
        exact join _ _ g1 (later g1.mode)

/-- The packets the thread fetches are packets, and none is for automatic logon. -/
theorem fetched_valid (ms : List Beat) : ∀ {x : Preempted} {st : Stage}, ThreadInv e x st →
    Always e resetAlone x ms → ∀ p ∈ executedBy e x ms, ValidPacket p ∧ isLogon p = false ∧ 0 < e.rxDeque := by
  induction ms with
  | nil => intro x st _ _ p hp; cases hp
  | cons b ms ih =>
    intro x st hi ha p hp
    cases hx : x.step e b with
    | error f =>
      unfold executedBy frontAt at hp; rw [collect, hx] at hp; cases hp
    | ok x' =>
      obtain ⟨st1, hi1, -⟩ := hi.step ha.1 hx
      have hex : executedBy e x (b :: ms) =
          (if b = .access ∧ x.line.any ([291, 315].contains ·) then x.s.deque.take 1 else []) ++ executedBy e x' ms := by
        unfold executedBy frontAt; rw [collect, hx]
      rw [hex, List.mem_append] at hp
      rcases hp with hp | hp
      · split at hp
        · have hm : p ∈ x.s.deque := List.mem_of_mem_take hp
          have hdq : (st.settled x.s).deque = x.s.deque := by cases st <;> rfl
          have hv := hi.recv.valid p (by rw [hdq]; exact hm)
          refine ⟨hv.1, hv.2, ?_⟩
          have := hi.recv.room
          rw [hdq] at this
          have := List.length_pos_of_mem hm
          omega
        · cases hp
      · exact ih hi1 (ha.2 x' hx) p hp

/-- **C99** A decoder whose class is a memory of CVs is initialised; then the thread only calls `enable`,
`execute` and hands over datagrams; interrupts come between any two accesses.  If the packets it executes are
those of orders and idle packets, then whenever the thread is in no call, the CVs and the calls that moved
the locomotive are those of the abstract locomotive that obeyed the orders, one after the other. -/
theorem C99_engine (e : Env) (m : BitVec 32 → Byte) (hm : MemoryLike e m) (he : Deaf e) (ms : List Beat)
    (x : Preempted) (hc : ∀ op, .start op ∈ ms → op.direct = true → op = .enable)
    (ha : Always e resetAlone {} (.start .init :: ms)) (hl : Always e (noLogon e) {} (.start .init :: ms))
    (h : ({} : Preempted).run e (.start .init :: ms) = .ok x) (hx : x.line = none)
    (items : List (Option Order)) (hleg : ∀ o, some o ∈ items → o.Legal)
    (hi : (executedBy e {} (.start .init :: ms)).map Except.ok = items.map fun
      | none => (.ok idleBytes : R Packet)
      | some o => o.packet) :
    engineOf m x.s = ((engineOf m {}).run (items.filterMap id)).1 ∧
      x.s.trace.filter Event.isDriving = ((engineOf m {}).run (items.filterMap id)).2 := by
  obtain ⟨t, h1, h2⟩ := C99_in_order e he _ x ha hl h hx
  have hstep : ({} : Preempted).step e (.start .init) = .ok ⟨{}, Thread.calls e .init⟩ := rfl
  rw [inOrder_cons hstep] at h1
  obtain ⟨L, h3, h4⟩ := segments (e := e) ms hc ⟨{}, Thread.calls e .init⟩
  have hex : executedBy e {} (.start .init :: ms) = L.filterMap id := by
    rw [h4]; rfl
  have hval := fetched_valid (Beat.start .init :: ms) (ThreadInv.start e) ha
  rw [hex] at hval hi
  rw [h3] at h1
  obtain ⟨t0, h5, h6⟩ := run_append_split e _ _ _ _ h1
  have h7 : ({} : Rx).init e = .ok t0 := by simpa [adds, Rx.run, Rx.step, bind_eq_ok, Preempted.line] using h5
  have hf := (frame_init e {}).out _ h7
  obtain ⟨hrefl, hmem⟩ := init_reflects hm h7
  have hset : Settled m t0 := ⟨hf.store, hf.assigned, by rw [hf.logonAddr]; rfl, hrefl⟩
  obtain ⟨hE, hmode, htr⟩ : engineOf m t0 = engineOf m {} ∧ t0.serviceMode = false ∧
      t0.trace.filter Event.isDriving = [] := by
    obtain ⟨_, _, _, _, evs, -, -, -, -, hq, rfl⟩ := init_ok e _ t0 h7
    refine ⟨?_, rfl, List.filter_eq_nil_iff.mpr fun ev hev => ?_⟩
    · unfold engineOf; rw [hmem]; rfl
    · have := hq ev hev
      cases ev <;> simp_all [Event.isQuiet, Event.isDriving]
  have g := obeyed_one_by_one hm L t0 t items (Reachable.of_run h5) (by rw [hf.link]) (by rw [hf.deque])
    hset hmode (fun p hp => hval p (List.mem_filterMap.mpr ⟨some p, hp, rfl⟩)) (fun i him o hio => hleg o (hio ▸ him))
    (by
      rw [hi]
      refine List.map_congr_left fun i _ => ?_
      cases i <;> rfl) h6
  rw [hE] at g
  rw [← core_engine h2, ← core_driving h2]
  refine ⟨g.engine, ?_⟩
  rw [← g.calls]
  obtain ⟨z, hz⟩ := g.trace
  unfold drivingCalls newCalls
  rw [← hz, List.filter_append, htr, List.drop_left, List.nil_append]

instance (e : Env) (x : Preempted) (b : Beat) : Decidable (noLogon e x b) :=
  match h : x.step e b with
  | .error _ => isTrue fun x' h' => by rw [h] at h'; cases h'
  | .ok x1 =>
    decidable_of_iff (b.isReceive = true → x1.s.packetEnd = true → isLogon x1.s.link.packet = true →
        x.s.cfg.logonEnabled = false)
      ⟨fun hp x' h' => by rw [h] at h'; cases h'; exact hp, fun hp => hp x1 h⟩

/-- An idle packet is executed; a speed command arrives while the thread is in `adr`, and is executed then. -/
def interrupted : List Beat :=
  .replicate 100 .access ++ whole .enable 10 ++ beats [0xFF#8, 0#8, 0xFF#8] ++
    .start (.execute 0 0) :: .replicate 7 .access ++ beats [3#8, 0x3F#8, 0x80#8, 0xBC#8] ++
    .replicate 14 .access ++ [.biDiChannel1, .biDiChannel2] ++ .replicate 1 .access ++
    whole (.execute 1 0) 100

/-- The hypotheses of both theorems hold; the locomotive moves. -/
example : Deaf exampleEnv ∧ Memory exampleEnv exampleCvs ∧
    Always exampleEnv resetAlone {} (.start .init :: interrupted) ∧
    Always exampleEnv (noLogon exampleEnv) {} (.start .init :: interrupted) ∧
    thenHolds (({} : Preempted).run exampleEnv (.start .init :: interrupted)) (fun x =>
      x.line == none && x.s.trace.filter Event.isDriving == [.direction 3#16 true, .speed 3#16 0]) = true ∧
    (∀ op, .start op ∈ interrupted → op.direct = true → op = .enable) ∧
    (executedBy exampleEnv {} (.start .init :: interrupted)).map Except.ok =
      [(.ok idleBytes : R Packet), (Order.drive ⟨{ value := 3#16, type := .short }, .advancedSpeed 0x80#8⟩).packet] := by
  refine ⟨deaf_memEnv _, exampleEnv_memory, by decide +kernel, by decide +kernel, by decide +kernel, ?_, by decide +kernel⟩
  have : interrupted.all (fun | .start op => !op.direct || op = .enable | _ => true) = true := by decide +kernel
  intro op hop ho
  have := List.all_eq_true.mp this _ hop
  simpa [ho] using this

/-- The addresses assigned in interrupts. -/
def Spec.assignedBy (e : Env) : Preempted → List Beat → List Nat :=
  collect e fun _ x' b =>
    if b.isReceive && x'.s.packetEnd && isLogon x'.s.link.packet then [x'.s.addrs.logon.value.toNat] else []

/-- The address `logonStore` stored in CV65300 and CV65301. -/
def Spec.storedAddress (c : BitVec 32 → Byte) : Nat := (c 65299#32).toNat * 256 + (c 65300#32).toNat

/-- The address 1000 is assigned; while `logonStore` stores it, the address 2049 is assigned. -/
def tornStore : List Beat :=
  whole .init 60 ++ beats (checked [254#8, 0xE0#8, 145#8, 1#8, 2#8, 3#8, 4#8, 0xC3#8, 0xE8#8, 0#8]) ++
    [.biDiChannel1, .biDiChannel2] ++ beats [0xFF#8, 0#8, 0xFF#8] ++ .start (.execute 0 0) :: .replicate 31 .access ++
    beats (checked [254#8, 0xE0#8, 145#8, 1#8, 2#8, 3#8, 4#8, 0xC8#8, 0x01#8, 0#8]) ++ .replicate 60 .access

/-- **C99** With automatic logon it does matter where the interrupts come: the address stored is one that has
been assigned — this does not hold.  An assignment between two writes of `logonStore` leaves the first half of
the old address and the second half of the new one in the CVs, until `logonStore` is called again. -/
theorem C99_stored_false : ¬ ∀ (e : Env) (m : BitVec 32 → Byte) (ms : List Beat) (x : Preempted), Memory e m →
    Always e resetAlone {} ms → ({} : Preempted).run e ms = .ok x → x.line = none →
    storedAddress (mem m x.s.trace) ∈ storedAddress m :: assignedBy e {} ms := by
  intro h
  have hd : thenHolds (({} : Preempted).run logonEnv tornStore) (fun x => x.line == none &&
      storedAddress (mem (logonEnv.readCv []) x.s.trace) == 769) = true := by decide +kernel
  have ha : assignedBy logonEnv {} tornStore = [1000, 2049] := by decide +kernel
  cases hr : ({} : Preempted).run logonEnv tornStore with
  | error f => rw [hr] at hd; cases hd
  | ok x =>
    rw [hr] at hd
    simp only [thenHolds, Bool.and_eq_true, beq_iff_eq] at hd
    have := h logonEnv (logonEnv.readCv []) tornStore x ⟨⟨fun _ _ => rfl⟩, rfl, rfl, fun _ _ _ => rfl, fun _ _ _ _ => rfl,
      fun _ _ _ => rfl, fun _ _ _ _ => rfl⟩ (by decide +kernel) hr hd.1
    rw [hd.2, ha] at this
    revert this
    decide +kernel

end Dcc
