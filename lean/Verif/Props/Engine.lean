import Verif.Lemmas.RxEngineTotal
import Verif.Props.RxLogon
import Verif.Props.Track
/-! A locomotive on the main does what its CVs say, and the CVs are what it was told: C90. -/
namespace Dcc
open Spec

/-! ### C90: histories -/

/-- **C90** A decoder in operations mode whose class is a memory of CVs, configured as the CVs say, executes
the packets of orders: driving commands, consists and CV accesses in both forms, to any locomotive or to
all of them, with idle packets in between.  Anything may be called meanwhile, in any order, and automatic
logon may go on as long as no address is assigned.  Then the CVs and the calls that move the locomotive
are those of the abstract locomotive that obeyed the orders, one after the other. -/
theorem C90_history (e : Env) (m : BitVec 32 → Byte) (hm : MemoryLike e m) (s s' : Rx) (hr : Reachable e s)
    (hs : Settled m s) (hmode : s.serviceMode = false) (ops : List RxOp) (ho : s.run e ops = .ok s')
    (hl : Along (fun x => x.logon.assigned = false) e s ops)
    (items : List (Option Order)) (hleg : ∀ o, some o ∈ items → o.Legal)
    (hx : (executed e s ops).map Except.ok = items.map fun
      | none => (.ok idleBytes : R Packet)
      | some o => o.packet) :
    Does m s s' (items.filterMap id) ∧ Settled m s' ∧ s'.serviceMode = false := by
  obtain ⟨h1, h2, -⟩ := engine_run hm ops s s' items hr hs hmode hl ho
    (fun i him o hio => hleg o (hio ▸ him)) (by
      rw [hx]
      refine List.map_congr_left fun i _ => ?_
      cases i <;> rfl)
  exact ⟨⟨h1.engine, h1.calls⟩, h2, h1.mode⟩

/-- What a decoder with nothing to execute does, if the durations are those of the packets `items`. -/
theorem engine_items {e : Env} {m : BitVec 32 → Byte} (hm : MemoryLike e m) {s s' : Rx} (hr : Reachable e s)
    (hs : Settled m s) (hready : Ready e s) {ops : List RxOp} (ho : s.run e ops = .ok s')
    (hd : .disable ∉ ops) (hf : NeverFull e s ops) {items : List (Option Order)} (hleg : ∀ i ∈ items, OrderItem.Legal i) {l' : Link}
    {os : List LinkOut} (h1 : s.link.run (recvTimes ops) = .ok (l', os))
    (h2 : items.map (sentAs Order.packet) = (packetsOf os).map .ok) :
    ∃ i1 i2, items = i1 ++ i2 ∧ Does m s s' (i1.filterMap id) ∧ Settled m s' ∧ s'.serviceMode = false ∧
      (i2.filterMap id).map Order.packet = (s'.deque.filter (· ≠ idleBytes)).map .ok := by
  have hnl : ∀ p ∈ packetsOf os, isLogon p = false := by
    intro p hp
    have : (Except.ok p : R Packet) ∈ items.map (sentAs Order.packet) := by
      rw [h2]; exact List.mem_map_of_mem hp
    obtain ⟨i, h3, h4⟩ := List.mem_map.mp this
    cases i with
    | none => cases h4; rfl
    | some o => exact (Order.built (hleg _ h3 o rfl) h4).2.2.1
  obtain ⟨os', h5, h6⟩ := run_interleaved e ops s s' ho hd hf
  rw [h1] at h5
  simp only [Except.ok.injEq, Prod.mk.injEq] at h5
  obtain ⟨-, rfl⟩ := h5
  have hfifo := C27_fifo e ops s s' hr ho
  rw [hready.deque, List.nil_append, h6, List.filter_eq_self.mpr (by
    intro p hp; simp [hnl p hp])] at hfifo
  rw [hfifo, List.map_append] at h2
  obtain ⟨i1, i2, rfl, h7, h8⟩ := List.map_eq_append_iff.mp h2
  obtain ⟨h9, h10, -⟩ := engine_run hm ops s s' i1 hr hs hready.mode (unassigned_along ops s s' hr hs.assigned hd hf ho (by
    intro l os' hos
    rw [h1] at hos
    simp only [Except.ok.injEq, Prod.mk.injEq] at hos
    obtain ⟨-, rfl⟩ := hos
    exact hnl)) ho (fun i hm => hleg i (by simp [hm])) h7
  refine ⟨i1, i2, rfl, ⟨h9.engine, h9.calls⟩, h10, h9.mode, ?_⟩
  have hl2 : ∀ i ∈ i2, OrderItem.Legal i := fun i hm => hleg i (by simp [hm])
  clear h2 h6 h7 h9 h10 hleg hfifo ho hf
  generalize s'.deque = dq at h8
  induction i2 generalizing dq with
  | nil =>
    cases dq with
    | nil => rfl
    | cons p ps => simp at h8
  | cons i is ih =>
    cases dq with
    | nil => simp at h8
    | cons p ps =>
      simp only [List.map_cons, List.cons.injEq] at h8
      have := ih (fun i hm => hl2 i (by simp [hm])) ps h8.2
      cases i with
      | none =>
        have hp : p = idleBytes := by
          have : (Except.ok idleBytes : R Packet) = .ok p := h8.1
          cases this; rfl
        rw [List.filter_cons_of_neg (by simp [hp])]
        simpa using this
      | some o =>
        have hp : p ≠ idleBytes := (Order.built (hl2 (some o) (by simp) o rfl) h8.1).2.2.2
        rw [List.filter_cons_of_pos (by simpa using hp), List.map_cons, ← this]
        simp only [List.filterMap_cons_some (f := id) rfl, List.map_cons, List.cons.injEq, and_true]
        exact h8.1

/-- **C90** From the command station to the locomotive: the station only accepted orders.  A decoder in
operations mode with nothing to execute, waiting for a preamble, gets every duration the station
transmits.  Then the orders are those `done`, those `waiting` in the decoder's queue and those `unsent`,
in this order, and the decoder did what a locomotive does about those done. -/
theorem C90_station (n : Nat) (txOps : List TxOp) (h : TxHist)
    (ht : ({ s := {} } : TxHist).run n txOps = .ok h) (orders : List Order) (hc : ∀ o ∈ orders, o.Legal)
    (hacc : h.acc.map (fun a => Except.ok a.2) = orders.map Order.packet)
    (e : Env) (m : BitVec 32 → Byte) (hm : MemoryLike e m) (s s' : Rx) (hr : Reachable e s) (hs : Settled m s)
    (hready : Ready e s) (ops : List RxOp) (ho : s.run e ops = .ok s')
    (hd : .disable ∉ ops) (hf : NeverFull e s ops) (htimes : recvTimes ops = h.out.map (·.duration)) :
    ∃ done waiting unsent : List Order, orders = done ++ waiting ++ unsent ∧ Does m s s' done ∧
      waiting.map Order.packet = (s'.deque.filter (· ≠ idleBytes)).map .ok ∧
      (unsent.length = h.s.size n ∨
        unsent.length = h.s.size n + 1 ∧ h.s.packetCount < h.s.current.length) := by
  obtain ⟨items, unsent, l', os, h1, h2, rfl, h4⟩ := station_sent Order.packet n txOps h ht orders
    (fun o hm p hp => (Order.built (hc o hm) hp).2.1) hacc s.link (hr.recvInv.link.synced hready.waiting)
  obtain ⟨i1, i2, rfl, h5, -, -, h6⟩ := engine_items hm hr hs hready ho hd hf (by
    rintro i hm o rfl
    exact hc o (List.mem_append_left _ (List.mem_filterMap.mpr ⟨_, hm, rfl⟩))) (by rw [htimes]; exact h1) h2
  exact ⟨i1.filterMap id, i2.filterMap id, unsent, by simp, h5, h6, h4⟩

/-! ### Faults -/

/-- **C90** The only orders that make such a decoder fault are those after which its CVs have no address:
if a history did not fault, then the CVs of the locomotive had an address all the time. -/
theorem C90_number_needed (e : Env) (m : BitVec 32 → Byte) (hm : MemoryLike e m) (s s' : Rx) (hr : Reachable e s)
    (hs : Settled m s) (hmode : s.serviceMode = false) (ops : List RxOp) (ho : s.run e ops = .ok s')
    (hl : Along (fun x => x.logon.assigned = false) e s ops)
    (items : List (Option Order)) (hleg : ∀ o, some o ∈ items → o.Legal)
    (hx : (executed e s ops).map Except.ok = items.map fun
      | none => (.ok idleBytes : R Packet)
      | some o => o.packet) : (engineOf m s).KeepsNumber (items.filterMap id) :=
  (engine_run hm ops s s' items hr hs hmode hl ho
    (fun i him o hio => hleg o (hio ▸ him)) (by
      rw [hx]
      refine List.map_congr_left fun i _ => ?_
      cases i <;> rfl)).2.2

/-- **C90** Without a fault as a hypothesis, over the track and with cutouts, for a main loop that calls
`execute` after every call of `receive`: if the CVs of the locomotive have an address after each order,
then nothing faults, and the locomotive did what it was told in all orders but those in the station, and
one whose end was measured last. -/
theorem C90_main_loop (n : Nat) (cfg : TxConfig) (txOps : List TxOp) (h : TxHist)
    (ht : ({ s := {} } : TxHist).run n (.init cfg :: txOps) = .ok h)
    (hinv : ∀ c, .init c ∈ txOps → c.invert = cfg.invert) (orders : List Order)
    (hc : ∀ o ∈ orders, o.Legal) (hacc : h.acc.map (fun a => Except.ok a.2) = orders.map Order.packet)
    (e : Env) (m : BitVec 32 → Byte) (hm : MemoryLike e m) (hroom : 2 ≤ e.rxDeque) (s : Rx) (hr : Reachable e s)
    (hs : Settled m s) (hready : Ready e s) (hb : s.link.bitCount ≤ 18)
    (hka : (engineOf m s).KeepsNumber orders) (xs : List (Nat × Nat × Int × Nat)) (off : Option Bool)
    (seen : Bool) (before : List Nat) (htimes : Measured (crossings off seen before h.out) (xs.map (·.1))) :
    ∃ s', s.run e (polled xs) = .ok s' ∧ Settled m s' ∧ s'.serviceMode = false ∧
      ∃ done waiting unsent : List Order, orders = done ++ waiting ++ unsent ∧ Does m s s' done ∧
        waiting.length ≤ (if s'.packetEnd then 1 else 0) ∧
        (unsent.length = h.s.size n ∨ unsent.length = h.s.size n + 1 ∧ h.s.bidiCount = 0) := by
  obtain ⟨hf, hend⟩ := polled_neverFull e hroom xs s hr (by simp [hready.deque])
    (fun _ => hready.deque)
  have htm : recvTimes (polled xs) = xs.map (·.1) := by
    clear hf hend htimes
    induction xs with
    | nil => rfl
    | cons x xs ih =>
      have : recvTimes (polled (x :: xs)) = x.1 :: recvTimes (polled xs) := rfl
      rw [this, ih]; rfl
  have hops : ∀ op ∈ polled xs, op.isReceive = true ∨ op.isExecute = true := by
    intro op hop
    unfold polled at hop
    obtain ⟨x, _, hop⟩ := List.mem_flatMap.mp hop
    simp only [List.mem_cons, List.not_mem_nil, or_false] at hop
    rcases hop with rfl | rfl
    · exact .inl rfl
    · exact .inr rfl
  have hno : ∀ op, op.isReceive = false → op.isExecute = false → op ∉ polled xs := by
    intro op h5 h6 hm
    rcases hops op hm with h | h
    · rw [h5] at h; cases h
    · rw [h6] at h; cases h
  rw [← htm] at htimes
  obtain ⟨items, unsent, l', os, h1, h2, rfl, h4⟩ := heard_sent Order.packet n cfg txOps h ht hinv orders
    (fun o hm p hp => (Order.built (hc o hm) hp).2.1) hacc off seen before _ htimes s.link
    (hr.recvInv.link.synced hready.waiting) hb
  have hleg : ∀ i ∈ items, OrderItem.Legal i := by
    rintro i hm o rfl
    exact hc o (List.mem_append_left _ (List.mem_filterMap.mpr ⟨_, hm, rfl⟩))
  obtain ⟨s', ho⟩ := engine_total hm (polled xs) s l' os items hr hs hready.mode hops hf h1 hleg
    (by rw [hready.deque]; exact h2) (by
      intro k
      have := hka (min k (items.filterMap id).length)
      rwa [List.take_append_of_le_length (Nat.min_le_right _ _), ← List.take_eq_take_min] at this)
  obtain ⟨i1, i2, rfl, h5, h6, h7, h8⟩ := engine_items hm hr hs hready ho (hno _ rfl rfl) hf hleg h1 h2
  refine ⟨s', ho, h6, h7, i1.filterMap id, i2.filterMap id, unsent, by simp, h5, ?_, h4⟩
  obtain ⟨h9, h10⟩ := hend s' ho
  have hlen : (i2.filterMap id).length ≤ s'.deque.length := by
    have := congrArg List.length h8
    simp only [List.length_map] at this
    rw [this]
    exact List.length_filter_le _ _
  cases hpe : s'.packetEnd
  · rw [h10 hpe] at hlen; simpa using hlen
  · simp only [if_true]; omega

/-! ### Double heading -/

theorem mirror_asks (f0 : Bool) (addr : BitVec 16) (c : AddressedCall) :
    AddressedCall.asks f0 true addr c = (AddressedCall.asks f0 false addr c).map mirror := by
  have h126 : ∀ b, speed126Calls addr true b = (speed126Calls addr false b).map mirror := by
    intro b
    unfold speed126Calls
    dsimp only
    split <;> simp [estopCalls, driveCalls, mirror]
  cases c with
  | advancedSpeed b => exact h126 b
  | speedAndDirection b =>
    unfold AddressedCall.asks speed14Calls speed28Calls
    dsimp only
    split <;> split <;> simp [estopCalls, driveCalls, mirror]
  | speedDirFunctions b f fs =>
    simp only [AddressedCall.asks, List.map_append, h126, List.map_map]
    rfl
  | _ => rfl

/-- The locomotive has these CVs: an own number, no lock, CV20 zero, and it is in no consist that gets
orders. -/
theorem joins (d : Engine) (a : Address) (r : Bool) (k : Nat) (p : Packet)
    (hown : hearing d.cvs a.value.toNat = true) (hlock : locks d.cvs = false) (h20 : d.cvs 19#32 = 0#8)
    (hk : k < 128) (d' : Engine) (hd' : d' = (d.obey p (.consist a r k)).1) :
    ownNumber d'.cvs = ownNumber d.cvs ∧ primaryNumber d'.cvs = primaryNumber d.cvs ∧
      consistNumber d'.cvs = k ∧ (d'.cvs 18#32).getLsbD 7 = r ∧ d'.cvs 28#32 = d.cvs 28#32 := by
  have hw : d'.cvs = applyWrite d.cvs (.byte 18 (BitVec.ofNat 8 ((if r then 128 else 0) + k))) := by
    rw [hd']
    show (if hearing d.cvs a.value.toNat = true then _ else _ : Engine).cvs = _
    rw [if_pos hown, write_single]
    unfold permitted
    rw [hlock]
    rfl
  have key : ∀ x : BitVec 32, x ≠ 18#32 → d'.cvs x = d.cvs x := by
    intro x hx
    rw [hw]
    exact if_neg hx
  have h18 : d'.cvs 18#32 = BitVec.ofNat 8 ((if r then 128 else 0) + k) := by rw [hw]; rfl
  have hb : primaryByte d'.cvs = primaryByte d.cvs := by
    unfold primaryByte
    rw [key 28#32 (by decide), key 16#32 (by decide), key 0#32 (by decide)]
  have hp : primaryNumber d'.cvs = primaryNumber d.cvs := by
    unfold primaryNumber
    rw [hb, key 17#32 (by decide)]
  refine ⟨?_, hp, ?_, ?_, key 28#32 (by decide)⟩
  · unfold ownNumber
    rw [hb, hp]
  · unfold consistNumber
    rw [key 19#32 (by decide), h20, h18, BitVec.toNat_ofNat]
    cases r <;> simp <;> omega
  · rw [h18]
    have key : ∀ (r : Bool) (k : Fin 128),
        (BitVec.ofNat 8 ((if r then 128 else 0) + k)).getLsbD 7 = r := by decide +kernel
    exact key r ⟨k, hk⟩

/-- A locomotive that is not concerned. -/
theorem unconcerned (d : Engine) (a : Address) (r : Bool) (k : Nat) (p : Packet)
    (h : hearing d.cvs a.value.toNat = false) : d.obey p (.consist a r k) = (d, []) :=
  Prod.ext (if_neg (by rw [h]; exact Bool.false_ne_true)) rfl

theorem run_drives (d : Engine) (cmds : List Command) (hp : ∀ c ∈ cmds, ∃ p, c.packet = .ok p) :
    d.run (cmds.map .drive) = (d, cmds.flatMap fun c =>
      if hearing d.cvs c.addr.value.toNat then
        AddressedCall.asks (!(d.cvs 28#32).getLsbD 1) (turned d.cvs c.addr.value.toNat)
          (BitVec.ofNat 16 c.addr.value.toNat) c.call
      else []) := by
  induction cmds with
  | nil => rfl
  | cons c cmds ih =>
    obtain ⟨p, hc⟩ := hp c (by simp)
    rw [List.map_cons, Engine.run_cons d (o := .drive c) hc]
    have := ih fun c hm => hp c (by simp [hm])
    show ((d.run _).1, _ ++ (d.run _).2) = _
    rw [this]
    rfl

/-- **C90** Double heading: two locomotives are put into one consist, the second one the other way round,
and then every driving command is to the consist.  Both make the same calls, with the same speeds and
functions, but opposite directions. -/
theorem C90_double_heading (m1 m2 : BitVec 32 → Byte) (s1 s1' s2 s2' : Rx) (a1 a2 : Address) (k : Nat)
    (hk : 0 < k ∧ k < 128) (cmds : List Command) (hc : ∀ c ∈ cmds, c.Legal ∧ c.addr.value.toNat = k)
    (hp : ∀ o ∈ [.consist a1 false k, .consist a2 true k] ++ cmds.map Order.drive, ∃ p, o.packet = .ok p)
    (h1 : Does m1 s1 s1' ([.consist a1 false k, .consist a2 true k] ++ cmds.map .drive))
    (h2 : Does m2 s2 s2' ([.consist a1 false k, .consist a2 true k] ++ cmds.map .drive))
    (hown1 : ownNumber (mem m1 s1.trace) = some a1.value.toNat)
    (hown2 : ownNumber (mem m2 s2.trace) = some a2.value.toNat)
    (hne : a1.value.toNat ≠ a2.value.toNat) (h0 : a1.value.toNat ≠ 0 ∧ a2.value.toNat ≠ 0)
    (hk1 : a1.value.toNat ≠ k ∧ a2.value.toNat ≠ k)
    (hfree : consistNumber (mem m2 s2.trace) ≠ a1.value.toNat)
    (hlock : locks (mem m1 s1.trace) = false ∧ locks (mem m2 s2.trace) = false)
    (h20 : mem m1 s1.trace 19#32 = 0#8 ∧ mem m2 s2.trace 19#32 = 0#8)
    (hsteps : (mem m1 s1.trace 28#32).getLsbD 1 = (mem m2 s2.trace 28#32).getLsbD 1) :
    drivingCalls s2 s2' = (drivingCalls s1 s1').map mirror := by
  rw [h1.2, h2.2]
  change ownNumber (engineOf m1 s1).cvs = _ at hown1
  change ownNumber (engineOf m2 s2).cvs = _ at hown2
  change consistNumber (engineOf m2 s2).cvs ≠ _ at hfree
  change locks (engineOf m1 s1).cvs = _ ∧ locks (engineOf m2 s2).cvs = _ at hlock
  change (engineOf m1 s1).cvs 19#32 = _ ∧ (engineOf m2 s2).cvs 19#32 = _ at h20
  change BitVec.getLsbD ((engineOf m1 s1).cvs 28#32) 1 = BitVec.getLsbD ((engineOf m2 s2).cvs 28#32) 1 at hsteps
  clear h1 h2
  generalize engineOf m1 s1 = d1 at *
  generalize engineOf m2 s2 = d2 at *
  obtain ⟨p1, hp1⟩ := hp (.consist a1 false k) (by simp)
  obtain ⟨p2, hp2⟩ := hp (.consist a2 true k) (by simp)
  have hpr : ∀ {c : BitVec 32 → Byte} {n : Nat}, ownNumber c = some n → primaryNumber c = n := by
    intro c n h
    unfold ownNumber at h
    dsimp only at h
    split at h
    · exact Option.some.inj h
    · cases h
  have hpc : ∀ c ∈ cmds, ∃ p, c.packet = .ok p := fun c hm => hp (.drive c) (by simp [hm])
  -- what a member of the consist does
  have member : ∀ (d : Engine) (r : Bool), consistNumber d.cvs = k → primaryNumber d.cvs ≠ k →
      (d.cvs 18#32).getLsbD 7 = r → (d.run (cmds.map .drive)).2 = cmds.flatMap fun c =>
        AddressedCall.asks (!(d.cvs 28#32).getLsbD 1) r (BitVec.ofNat 16 k) c.call := by
    intro d r g1 g2 g3
    rw [run_drives d cmds hpc]
    refine flatMap_congr_mem _ _ _ fun c hm => ?_
    rw [(hc c hm).2, if_pos (by unfold hearing; simp [g1])]
    unfold turned
    rw [if_neg (Ne.symm g2), g3]
  -- the first locomotive
  have hear1 : hearing d1.cvs a1.value.toNat = true := by unfold hearing; simp [hown1]
  obtain ⟨b1, b2, b3, b4, b5⟩ := joins d1 a1 false k p1 hear1 hlock.1 h20.1 hk.2 _ rfl
  have hear1' : hearing (d1.obey p1 (.consist a1 false k)).1.cvs a2.value.toNat = false := by
    unfold hearing
    rw [b1, hown1, b3]
    simp [h0.2, hne, hk1.2]
  -- the second one
  have hear2' : hearing d2.cvs a1.value.toNat = false := by
    unfold hearing
    rw [hown2]
    simp [h0.1, Ne.symm hne, Ne.symm hfree]
  have hear2 : hearing d2.cvs a2.value.toNat = true := by unfold hearing; simp [hown2]
  obtain ⟨c1, c2, c3, c4, c5⟩ := joins d2 a2 true k p2 hear2 hlock.2 h20.2 hk.2 _ rfl
  have r1 : (d1.run ([.consist a1 false k, .consist a2 true k] ++ cmds.map .drive)).2 =
      ((d1.obey p1 (.consist a1 false k)).1.run (cmds.map .drive)).2 := by
    show (d1.run (.consist a1 false k :: .consist a2 true k :: cmds.map .drive)).2 = _
    rw [Engine.run_cons _ hp1]
    dsimp only
    rw [Engine.run_cons _ hp2, unconcerned _ a2 true k p2 hear1']
    rfl
  have r2 : (d2.run ([.consist a1 false k, .consist a2 true k] ++ cmds.map .drive)).2 =
      ((d2.obey p2 (.consist a2 true k)).1.run (cmds.map .drive)).2 := by
    show (d2.run (.consist a1 false k :: .consist a2 true k :: cmds.map .drive)).2 = _
    rw [Engine.run_cons _ hp1, unconcerned _ a1 false k p1 hear2']
    dsimp only
    rw [Engine.run_cons _ hp2]
    rfl
  rw [r1, r2, member _ false b3 (by rw [b2, hpr hown1]; exact hk1.1) b4,
    member _ true c3 (by rw [c2, hpr hown2]; exact hk1.2) c4, List.map_flatMap]
  refine flatMap_congr_mem _ _ _ fun c _ => ?_
  rw [mirror_asks, b5, c5, hsteps]

/-! ### The long address -/

/-- **C90** The long address on the main: after the short form packet came twice, a locomotive that is not
locked has the new number and no longer the old one, unless that is the number of its consist. -/
theorem C90_new_address (m : BitVec 32 → Byte) (s s' : Rx) (a : Address) (n : Nat) (hn : n < 10240) (p : Packet)
    (hp : (Order.short a (.address n)).packet = .ok p) (hfresh : s.lastOwnCvPacket ≠ p)
    (hown : ownNumber (mem m s.trace) = some a.value.toNat)
    (hc : a.value.toNat ≠ consistNumber (mem m s.trace)) (hlock : locks (mem m s.trace) = false)
    (h : Does m s s' [.short a (.address n), .short a (.address n)]) :
    ∀ k, hearing (mem m s'.trace) k = true ↔ k = 0 ∨ k = n ∨ k = consistNumber (mem m s.trace) := by
  have he := congrArg Engine.cvs h.1
  change mem m s'.trace = _ at he
  change ownNumber (engineOf m s).cvs = _ at hown
  change _ ≠ consistNumber (engineOf m s).cvs at hc
  change locks (engineOf m s).cvs = _ at hlock
  change (engineOf m s).last ≠ p at hfresh
  show ∀ k, _ ↔ _ ∨ _ ∨ k = consistNumber (engineOf m s).cvs
  generalize engineOf m s = d at *
  have hpr : programmable d.cvs a.value.toNat = true := by unfold programmable; simp [hown, hc]
  have e1 : d.obey p (.short a (.address n)) = (d.counted p, []) := by
    have : (d.counted p).write ((ShortForm.address n).writes (d.counted p).count) = d.counted p := by
      unfold Engine.counted
      rw [if_neg hfresh]
      rfl
    exact Prod.ext (by
      show (if programmable d.cvs a.value.toNat = true then _ else _) = _
      rw [if_pos hpr, this]) rfl
  have e2 : ((d.counted p).obey p (.short a (.address n))).1 =
      ((d.counted p).counted p).write [.byte 16 (BitVec.ofNat 8 (192 + n / 256)), .byte 17 (BitVec.ofNat 8 n),
        .bit 28 true 5] := by
    have : ((d.counted p).counted p).count = 2 := by
      unfold Engine.counted
      dsimp only
      rw [if_neg hfresh, if_pos rfl]
    show (if programmable d.cvs a.value.toNat = true then _ else _) = _
    rw [if_pos hpr, this]
    rfl
  rw [Engine.run_cons d hp, e1] at he
  dsimp only at he
  rw [Engine.run_cons _ hp, e2] at he
  change mem m s'.trace = (((d.counted p).counted p).write _).cvs at he
  have hw : (((d.counted p).counted p).write [.byte 16 (BitVec.ofNat 8 (192 + n / 256)),
      .byte 17 (BitVec.ofNat 8 n), .bit 28 true 5]).cvs = applyWrite (applyWrite (applyWrite d.cvs
        (.byte 16 (BitVec.ofNat 8 (192 + n / 256)))) (.byte 17 (BitVec.ofNat 8 n))) (.bit 28 true 5) := by
    unfold Engine.write permitted
    show (if _ then _ else _ : Engine).cvs = _
    rw [if_pos]
    · rfl
    · show ([_, _, _] : List Access).all (fun a => !locks d.cvs || _) = true
      rw [hlock]
      rfl
  rw [hw] at he
  have h16 : mem m s'.trace 16#32 = BitVec.ofNat 8 (192 + n / 256) := by rw [he]; rfl
  have h17 : mem m s'.trace 17#32 = BitVec.ofNat 8 n := by rw [he]; rfl
  have h18 : mem m s'.trace 18#32 = d.cvs 18#32 := by rw [he]; rfl
  have h19 : mem m s'.trace 19#32 = d.cvs 19#32 := by rw [he]; rfl
  have h28 : (mem m s'.trace 28#32).getLsbD 5 = true := by
    rw [he]
    show (setBit (d.cvs 28#32) 5#32 true).getLsbD 5 = true
    generalize d.cvs 28#32 = x
    revert x
    decide +kernel
  have hb : (primaryByte (mem m s'.trace)).toNat = 192 + n / 256 := by
    unfold primaryByte
    rw [h28, if_pos rfl, h16, BitVec.toNat_ofNat, Nat.mod_eq_of_lt (by omega)]
  have hown' : ownNumber (mem m s'.trace) = some n := by
    unfold ownNumber primaryNumber
    dsimp only
    rw [hb, if_pos (by omega), if_pos (by omega), h17, BitVec.toNat_ofNat]
    congr 1
    omega
  have hcon : consistNumber (mem m s'.trace) = consistNumber d.cvs := by
    unfold consistNumber
    rw [h18, h19]
  intro k
  unfold hearing
  rw [hown', hcon]
  simp only [Bool.or_eq_true, decide_eq_true_eq, Option.some.injEq]
  grind

/-! ### What it does not do -/

/-- A locomotive like the one of the examples, but with CV29 bit 0 set: its normal direction is the other
one. -/
def turnedCvs (cv : BitVec 32) : Byte := if cv = 28#32 then 0x0B#8 else exampleCvs cv

/-- A packet and its execution. -/
def told (p : Packet) : List RxOp := hears p ++ [.execute 0 0]

/-- **C90** "A locomotive that is in a consist in its normal direction goes the same way whether a speed
command is to its own number or to the consist" is false: CV29 bit 0 is not applied to commands to the
consist. -/
theorem C90_normal_direction_false : ¬ ∀ (m : BitVec 32 → Byte) (ops : List RxOp) (s s1 s2 : Rx) (a k : Nat)
    (b : Byte) (p q : Packet), ({} : Rx).run (memEnv m) (.init :: ops) = .ok s → s.serviceMode = false →
    s.deque = [] → s.addrs.logon.value = 0#16 → 0 < k → ownNumber (mem m s.trace) = some a →
    consistNumber (mem m s.trace) = k → (mem m s.trace 18#32).getLsbD 7 = false →
    (Command.mk { value := a, type := .short } (.advancedSpeed b)).packet = .ok p →
    (Command.mk { value := k, type := .short } (.advancedSpeed b)).packet = .ok q →
    s.run (memEnv m) (told p) = .ok s1 → s.run (memEnv m) (told q) = .ok s2 →
    directions (drivingCalls s s1) = directions (drivingCalls s s2) := by
  intro h
  have key : holdsAfter (({} : Rx).run (memEnv turnedCvs) (.init :: told [3#8, 0x12#8, 5#8, 0x14#8])) (fun s =>
      decide (s.serviceMode = false ∧ s.deque = [] ∧ s.addrs.logon.value = 0#16 ∧
        ownNumber (mem turnedCvs s.trace) = some 3 ∧ consistNumber (mem turnedCvs s.trace) = 5 ∧
        (mem turnedCvs s.trace 18#32).getLsbD 7 = false) &&
      holdsAfter (s.run (memEnv turnedCvs) (told [3#8, 0x3F#8, 0x86#8, 0xBA#8])) (fun s1 =>
        holdsAfter (s.run (memEnv turnedCvs) (told [5#8, 0x3F#8, 0x86#8, 0xBC#8])) (fun s2 =>
          decide (directions (drivingCalls s s1) ≠ directions (drivingCalls s s2))))) = true := by
    decide +kernel
  obtain ⟨s, h1, h2⟩ := holdsAfter_ok key
  rw [Bool.and_eq_true, decide_eq_true_eq] at h2
  obtain ⟨⟨g1, g2, g3, g4, g5, g6⟩, h3⟩ := h2
  obtain ⟨s1, h4, h5⟩ := holdsAfter_ok h3
  obtain ⟨s2, h6, h7⟩ := holdsAfter_ok h5
  exact of_decide_eq_true h7 (h turnedCvs _ s s1 s2 3 5 0x86#8 _ _ h1 g1 g2 g3 (by decide) g4 g5 g6
    (by decide +kernel) (by decide +kernel) h4 h6)

/-- **C90** "A locomotive in a consist ignores speed commands to its own number" is false, though the
standard governs speed and direction of such a locomotive by the consist alone. -/
theorem C90_consist_alone_false : ¬ ∀ (m : BitVec 32 → Byte) (ops : List RxOp) (s s1 : Rx) (a k : Nat)
    (b : Byte) (p : Packet), ({} : Rx).run (memEnv m) (.init :: ops) = .ok s → s.serviceMode = false →
    s.deque = [] → s.addrs.logon.value = 0#16 → 0 < k → a ≠ k → ownNumber (mem m s.trace) = some a →
    consistNumber (mem m s.trace) = k →
    (Command.mk { value := a, type := .short } (.advancedSpeed b)).packet = .ok p →
    s.run (memEnv m) (told p) = .ok s1 → drivingCalls s s1 = [] := by
  intro h
  have key : holdsAfter (({} : Rx).run exampleEnv (.init :: told [3#8, 0x12#8, 5#8, 0x14#8])) (fun s =>
      decide (s.serviceMode = false ∧ s.deque = [] ∧ s.addrs.logon.value = 0#16 ∧
        ownNumber (mem exampleCvs s.trace) = some 3 ∧ consistNumber (mem exampleCvs s.trace) = 5) &&
      holdsAfter (s.run exampleEnv (told [3#8, 0x3F#8, 0x86#8, 0xBA#8])) (fun s1 =>
        decide (drivingCalls s s1 ≠ []))) = true := by
    decide +kernel
  obtain ⟨s, h1, h2⟩ := holdsAfter_ok key
  rw [Bool.and_eq_true, decide_eq_true_eq] at h2
  obtain ⟨⟨g1, g2, g3, g4, g5⟩, h3⟩ := h2
  obtain ⟨s1, h4, h5⟩ := holdsAfter_ok h3
  exact of_decide_eq_true h5 (h exampleCvs _ s s1 3 5 0x86#8 _ h1 g1 g2 g3 (by decide) (by decide) g4 g5
    (by decide +kernel) h4)

/-- **C90** "A locomotive that is in no consist goes the same way whether a speed command is to its own
number or to all locomotives" is false: CV29 bit 0 is not applied to commands to all of them. -/
theorem C90_all_direction_false : ¬ ∀ (m : BitVec 32 → Byte) (ops : List RxOp) (s s1 s2 : Rx) (a : Nat)
    (b : Byte) (p q : Packet), ({} : Rx).run (memEnv m) (.init :: ops) = .ok s → s.serviceMode = false →
    s.deque = [] → s.addrs.logon.value = 0#16 → ownNumber (mem m s.trace) = some a →
    mem m s.trace 18#32 = 0#8 → mem m s.trace 19#32 = 0#8 →
    (Command.mk { value := a, type := .short } (.advancedSpeed b)).packet = .ok p →
    (Command.mk { value := 0, type := .broadcast } (.advancedSpeed b)).packet = .ok q →
    s.run (memEnv m) (told p) = .ok s1 → s.run (memEnv m) (told q) = .ok s2 →
    directions (drivingCalls s s1) = directions (drivingCalls s s2) := by
  intro h
  have key : holdsAfter (({} : Rx).run (memEnv turnedCvs) (.init :: [])) (fun s =>
      decide (s.serviceMode = false ∧ s.deque = [] ∧ s.addrs.logon.value = 0#16 ∧
        ownNumber (mem turnedCvs s.trace) = some 3 ∧ mem turnedCvs s.trace 18#32 = 0#8 ∧
        mem turnedCvs s.trace 19#32 = 0#8) &&
      holdsAfter (s.run (memEnv turnedCvs) (told [3#8, 0x3F#8, 0x86#8, 0xBA#8])) (fun s1 =>
        holdsAfter (s.run (memEnv turnedCvs) (told [0#8, 0x3F#8, 0x86#8, 0xB9#8])) (fun s2 =>
          decide (directions (drivingCalls s s1) ≠ directions (drivingCalls s s2))))) = true := by
    decide +kernel
  obtain ⟨s, h1, h2⟩ := holdsAfter_ok key
  rw [Bool.and_eq_true, decide_eq_true_eq] at h2
  obtain ⟨⟨g1, g2, g3, g4, g5, g6⟩, h3⟩ := h2
  obtain ⟨s1, h4, h5⟩ := holdsAfter_ok h3
  obtain ⟨s2, h6, h7⟩ := holdsAfter_ok h5
  exact of_decide_eq_true h7 (h turnedCvs _ s s1 s2 3 0x86#8 _ _ h1 g1 g2 g3 g4 g5 g6
    (by decide +kernel) (by decide +kernel) h4 h6)

/-- A locomotive like the one of the examples that was in consist 200: CV20 is 2. -/
def farConsistCvs (cv : BitVec 32) : Byte := if cv = 19#32 then 2#8 else exampleCvs cv

/-- **C90** "After a consist control packet the locomotive is in the consist the packet names" is false: the
packet only changes CV19, and a value of CV20 stays in force. -/
theorem C90_consist_control_false : ¬ ∀ (m : BitVec 32 → Byte) (ops : List RxOp) (s s1 : Rx) (a k : Nat)
    (r : Bool) (p : Packet), ({} : Rx).run (memEnv m) (.init :: ops) = .ok s → s.serviceMode = false →
    s.deque = [] → s.addrs.logon.value = 0#16 → ownNumber (mem m s.trace) = some a →
    locks (mem m s.trace) = false → k < 128 →
    (Order.consist { value := a, type := .short } r k).packet = .ok p →
    s.run (memEnv m) (told p) = .ok s1 → consistNumber (mem m s1.trace) = k := by
  intro h
  have key : holdsAfter (({} : Rx).run (memEnv farConsistCvs) (.init :: [])) (fun s =>
      decide (s.serviceMode = false ∧ s.deque = [] ∧ s.addrs.logon.value = 0#16 ∧
        ownNumber (mem farConsistCvs s.trace) = some 3 ∧ locks (mem farConsistCvs s.trace) = false) &&
      holdsAfter (s.run (memEnv farConsistCvs) (told [3#8, 0x12#8, 5#8, 0x14#8])) (fun s1 =>
        decide (consistNumber (mem farConsistCvs s1.trace) = 205))) = true := by
    decide +kernel
  obtain ⟨s, h1, h2⟩ := holdsAfter_ok key
  rw [Bool.and_eq_true, decide_eq_true_eq] at h2
  obtain ⟨⟨g1, g2, g3, g4, g5⟩, h3⟩ := h2
  obtain ⟨s1, h4, h5⟩ := holdsAfter_ok h3
  have := h farConsistCvs _ s s1 3 5 false _ h1 g1 g2 g3 g4 g5 (by decide) (by decide +kernel) h4
  rw [of_decide_eq_true h5] at this
  cases this

/-! ### Examples -/

/-- Another locomotive, with number 7. -/
def secondCvs (cv : BitVec 32) : Byte := if cv = 0#32 then 7#8 else exampleCvs cv

/-- Locomotives 3 and 7 head a train with number 5, the second one the other way round. -/
def trainOrders : List Order :=
  [.consist { value := 3, type := .short } false 5, .consist { value := 7, type := .short } true 5] ++
    [⟨{ value := 5, type := .short }, .advancedSpeed 0x86#8⟩, ⟨{ value := 5, type := .short }, .f4f0 0x01#8⟩].map
      .drive

/-- The packets, each followed by a call of `execute`. -/
def trainOps : List RxOp :=
  [[3#8, 0x12#8, 5#8, 0x14#8], [7#8, 0x13#8, 5#8, 0x11#8], [5#8, 0x3F#8, 0x86#8, 0xBC#8],
    [5#8, 0x90#8, 0x95#8]].flatMap told

example : trainOrders.map Order.packet =
    [.ok [3#8, 0x12#8, 5#8, 0x14#8], .ok [7#8, 0x13#8, 5#8, 0x11#8], .ok [5#8, 0x3F#8, 0x86#8, 0xBC#8],
      .ok [5#8, 0x90#8, 0x95#8]] := by decide +kernel

example : ∀ o ∈ trainOrders, o.Legal := by
  intro o ho
  simp only [trainOrders, List.map_cons, List.map_nil, List.cons_append, List.nil_append, List.mem_cons,
    List.not_mem_nil, or_false] at ho
  rcases ho with rfl | rfl | rfl | rfl
  · exact ⟨.inr (.inl ⟨rfl, by decide, by decide⟩), by decide⟩
  · exact ⟨.inr (.inl ⟨rfl, by decide, by decide⟩), by decide⟩
  · exact ⟨.inr (.inl ⟨rfl, by decide, by decide⟩), trivial⟩
  · exact ⟨.inr (.inl ⟨rfl, by decide, by decide⟩), trivial⟩

/-- The same while automatic logon goes on without an assignment, the decoder is initialised again, and
is disabled for a while; the callbacks come at any time. -/
def busyOps : List RxOp :=
  told [3#8, 0x12#8, 5#8, 0x14#8] ++ .callbackByte 0 5#8 :: hears [254#8, 0xFF#8, 2#8, 1#8, 7#8, 5#8] ++
    [.disable, .enable, .init, .biDiChannel1, .biDiChannel2] ++ told [7#8, 0x13#8, 5#8, 0x11#8] ++
    [.callbackBit 0 true] ++ told [5#8, 0x3F#8, 0x86#8, 0xBC#8] ++ told [5#8, 0x90#8, 0x95#8]

example : holdsAfter (({} : Rx).run logonEnv [.init]) (fun s =>
    decide (s.serviceMode = false ∧ s.cfg.logonEnabled = true) &&
    holdsAfter (s.run logonEnv busyOps) (fun s' =>
      decide (Along (fun x => x.logon.assigned = false) logonEnv s busyOps ∧
        s'.logon.cidBack = 513#16 ∧
        (executed logonEnv s busyOps).map .ok = trainOrders.map Order.packet ∧
        drivingCalls s s' = [.direction 5#16 true, .speed 5#16 10, .function 5#16 0x1F#32 1#32]))) = true := by
  decide +kernel

/-- Both are ready, and the packets are executed one by one. -/
def readyFor (m : BitVec 32 → Byte) (a : Nat) (p : Rx → Rx → Bool) : Bool :=
  holdsAfter (({} : Rx).run (memEnv m) [.init]) (fun s =>
    decide (s.serviceMode = false ∧ s.deque = [] ∧ s.link.state = .preamble ∧ ownNumber (mem m s.trace) = some a ∧
      consistNumber (mem m s.trace) = 0 ∧ locks (mem m s.trace) = false ∧ mem m s.trace 19#32 = 0#8) &&
    holdsAfter (s.run (memEnv m) trainOps) (fun s' =>
      decide ((executed (memEnv m) s trainOps).map .ok = trainOrders.map Order.packet) && p s s'))

example : readyFor exampleCvs 3 (fun s s' => decide (drivingCalls s s' = [.direction 5#16 true, .speed 5#16 10,
    .function 5#16 0x1F#32 1#32])) = true := by decide +kernel

example : readyFor secondCvs 7 (fun s s' => decide (drivingCalls s s' = [.direction 5#16 false, .speed 5#16 10,
    .function 5#16 0x1F#32 1#32])) = true := by decide +kernel

/-- A new long address for locomotive 3. -/
example : (Order.short { value := 3, type := .short } (.address 1000)).packet =
      .ok [3#8, 0xF4#8, 0xC3#8, 0xE8#8, 0xDC#8] ∧
    holdsAfter (({} : Rx).run exampleEnv [.init]) (fun s =>
      decide (s.lastOwnCvPacket ≠ [3#8, 0xF4#8, 0xC3#8, 0xE8#8, 0xDC#8] ∧ ownNumber (mem exampleCvs s.trace) = some 3 ∧
        consistNumber (mem exampleCvs s.trace) = 0 ∧ locks (mem exampleCvs s.trace) = false) &&
      holdsAfter (s.run exampleEnv ([[3#8, 0xF4#8, 0xC3#8, 0xE8#8, 0xDC#8], [3#8, 0xF4#8, 0xC3#8, 0xE8#8, 0xDC#8]].flatMap
        told)) (fun s' => decide (ownNumber (mem exampleCvs s'.trace) = some 1000))) = true := by
  decide +kernel

/-- Locomotive 3 becomes locomotive 7 and is driven. -/
def renumbered : List Order :=
  [.long { value := 3, type := .short } .write (.byte 0 7#8), .long { value := 3, type := .short } .write (.byte 0 7#8),
    .drive ⟨{ value := 7, type := .short }, .advancedSpeed 0x86#8⟩]

/-- The station's calls. -/
def renumberingStation : List TxOp :=
  [.init { bidi := true }, .bytes [3#8, 0xEC#8, 0#8, 7#8, 0xE8#8], .bytes [3#8, 0xEC#8, 0#8, 7#8, 0xE8#8],
    .bytes [7#8, 0x3F#8, 0x86#8, 0xBE#8]] ++ List.replicate 500 .transmit

instance (c : BitVec 32 → Byte) : Decidable (HasAddress c) :=
  inferInstanceAs (Decidable ((c 28#32).getLsbD 5 = true ∨ (c 0#32).toNat < 192 ∨ 231 < (c 0#32).toNat))

/-- It is enough to look at the beginnings of the list. -/
theorem keepsNumber_of {d : Engine} {os : List Order}
    (h : ∀ k ≤ os.length, HasAddress (d.run (os.take k)).1.cvs) : d.KeepsNumber os := by
  intro k
  by_cases hk : k ≤ os.length
  · exact h k hk
  · have := h os.length (Nat.le_refl _)
    rw [List.take_of_length_le (i := k) (by omega)]
    rwa [List.take_length] at this

example : ∀ o ∈ renumbered, o.Legal := by
  intro o ho
  simp only [renumbered, List.mem_cons, List.not_mem_nil, or_false] at ho
  rcases ho with rfl | rfl | rfl
  · exact ⟨.inr (.inl ⟨rfl, by decide, by decide⟩), Nat.zero_lt_succ _⟩
  · exact ⟨.inr (.inl ⟨rfl, by decide, by decide⟩), Nat.zero_lt_succ _⟩
  · exact ⟨.inr (.inl ⟨rfl, by decide, by decide⟩), trivial⟩

example :
    (match ({ s := {} } : TxHist).run 4 renumberingStation, ({} : Rx).run exampleEnv [.init] with
    | .ok h, .ok s =>
      decide (h.acc.map (fun a => Except.ok a.2) = renumbered.map Order.packet ∧ s.serviceMode = false ∧ s.deque = [] ∧
        s.link.state = .preamble ∧ s.link.bitCount ≤ 18 ∧
        (∀ k ≤ renumbered.length, HasAddress ((engineOf exampleCvs s).run (renumbered.take k)).1.cvs) ∧
        Measured (crossings none true [] h.out) (exactTimes none true [] h.out)) &&
      holdsAfter (s.run exampleEnv (polled ((exactTimes none true [] h.out).map (·, 0, 0, 0)))) (fun s' =>
        decide (ownNumber (mem exampleCvs s'.trace) = some 7 ∧
          drivingCalls s s' = [.direction 7#16 true, .speed 7#16 10]))
    | _, _ => false) = true := by decide +kernel

/-- An order after which there is no address. -/
example : (Order.long { value := 3, type := .short } .write (.byte 0 200#8)).packet =
      .ok [3#8, 0xEC#8, 0#8, 200#8, 0x27#8] ∧
    holdsAfter (({} : Rx).run exampleEnv [.init]) (fun s =>
      decide (¬ HasAddress ((engineOf exampleCvs s).run
        [.long { value := 3, type := .short } .write (.byte 0 200#8),
          .long { value := 3, type := .short } .write (.byte 0 200#8)]).1.cvs) &&
      (match s.run exampleEnv ([[3#8, 0xEC#8, 0#8, 200#8, 0x27#8], [3#8, 0xEC#8, 0#8, 200#8, 0x27#8]].flatMap told) with
      | .ok _ => false
      | .error f => decide (f = .oob))) = true := by decide +kernel

end Dcc
