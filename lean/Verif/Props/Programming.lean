import Verif.Lemmas.RxProgramming
import Verif.Props.RxConfig
import Verif.Props.RxLink
/-! A session on the programming track, from the command station to the CVs: C79. -/
namespace Dcc
open Spec

/-! ### C79: what the decoder does about what the programmer sends -/

/-- What a decoder with nothing to execute does, if the durations are those of the packets `items`. -/
theorem session_items {e : Env} {m : BitVec 32 → Byte} (hm : Memory e m) {s s' : Rx} (hr : Reachable e s)
    (hs : Settled m s) (hdq : s.deque = []) {ops : List RxOp} (ho : s.run e ops = .ok s') (hi : .init ∉ ops)
    (hd : .disable ∉ ops) (hcb : ∀ i v, .callbackByte i v ∉ ops) (hcb' : ∀ i v, .callbackBit i v ∉ ops)
    (hf : NeverFull e s ops) {items : List ServiceItem} (hleg : ∀ i ∈ items, i.Legal) {l' : Link}
    {os : List LinkOut} (h1 : s.link.run (recvTimes ops) = .ok (l', os))
    (h2 : items.map ServiceItem.packet = (packetsOf os).map .ok) (hin : Served (deviceOf m s) items) :
    ∃ done waiting, items = done ++ waiting ∧ waiting.map ServiceItem.packet = s'.deque.map .ok ∧
      deviceOf m s' = ((deviceOf m s).run done).1 ∧ sessionCalls s s' = ((deviceOf m s).run done).2 ∧
      Settled m s' := by
  have hnl : ∀ p ∈ packetsOf os, isLogon p = false := by
    intro p hp
    have : (Except.ok p : R Packet) ∈ items.map ServiceItem.packet := by
      rw [h2]; exact List.mem_map_of_mem hp
    obtain ⟨i, h3, h4⟩ := List.mem_map.mp this
    exact (ServiceItem.valid (hleg i h3) h4).2
  obtain ⟨os', h5, h6⟩ := run_interleaved e ops s s' ho hd hf
  rw [h1] at h5
  simp only [Except.ok.injEq, Prod.mk.injEq] at h5
  obtain ⟨-, rfl⟩ := h5
  have hfifo := C27_fifo e ops s s' hr ho
  rw [hdq, List.nil_append, h6, List.filter_eq_self.mpr (by
    intro p hp; simp [hnl p hp])] at hfifo
  rw [hfifo, List.map_append] at h2
  obtain ⟨i1, i2, rfl, h7, h8⟩ := List.map_eq_append_iff.mp h2
  have hin1 : Served (deviceOf m s) i1 := by
    clear h2 h7 h8 hleg
    generalize deviceOf m s = d at hin
    induction i1 generalizing d with
    | nil => trivial
    | cons i is ih => exact ⟨hin.1, ih _ hin.2⟩
  obtain ⟨h9, h10, -, h11⟩ := session_run hm ops s s' i1 hr hs hi hd hcb hcb' hf ho (by
    intro l os' hos
    rw [h1] at hos
    simp only [Except.ok.injEq, Prod.mk.injEq] at hos
    obtain ⟨-, rfl⟩ := hos
    exact hnl) (fun i hm => hleg i (by simp [hm])) h7 hin1
  exact ⟨i1, i2, rfl, h8, h9, h10, h11⟩

/-- What a programmer asked for and what the station sent: its own idle packets in between. -/
private theorem sent_packets (sent : List (Option ServiceItem)) :
    (sent.map (·.getD .idle)).map ServiceItem.packet = sent.map (sentAs ServiceItem.packet) := by
  rw [List.map_map]
  refine List.map_congr_left fun i _ => ?_
  cases i <;> rfl

/-- **C79** A command station only accepted packets of a programmer: resets, idle packets and direct mode
packets.  A decoder whose class is a memory of CVs gets every duration the station transmits; anything
except `init`, `disable` and the callbacks may be called meanwhile, in any order; `receive` never meets
a full queue.  Then what the station sent are the packets accepted, in order and with idle packets in
between, up to those `unsent`.  If the direct mode packets among them arrive in service mode, or the
decoder has none of the addresses 112 to 127 then, the CVs, the mode and the calls the user's class
gets are those of the abstract device after the packets `done`; the others are in the decoder's
queue. -/
theorem C79_station_to_cvs_partial (n : Nat) (txOps : List TxOp) (h : TxHist)
    (ht : ({ s := {} } : TxHist).run n txOps = .ok h) (cmds : List ServiceItem) (hc : ∀ c ∈ cmds, c.Legal)
    (hacc : h.acc.map (fun a => Except.ok a.2) = cmds.map ServiceItem.packet)
    (e : Env) (m : BitVec 32 → Byte) (hm : Memory e m) (s s' : Rx) (hr : Reachable e s) (hs : Settled m s)
    (hdq : s.deque = []) (hw : s.link.state = .preamble) (ops : List RxOp) (ho : s.run e ops = .ok s')
    (hi : .init ∉ ops) (hd : .disable ∉ ops) (hcb : ∀ i v, .callbackByte i v ∉ ops)
    (hcb' : ∀ i v, .callbackBit i v ∉ ops) (hf : NeverFull e s ops)
    (htimes : recvTimes ops = h.out.map (·.duration)) :
    ∃ (sent : List (Option ServiceItem)) (unsent : List ServiceItem), cmds = sent.filterMap id ++ unsent ∧
      (unsent.length = h.s.size n ∨
        unsent.length = h.s.size n + 1 ∧ h.s.packetCount < h.s.current.length) ∧
      (Served (deviceOf m s) (sent.map (·.getD .idle)) →
        ∃ done waiting, sent.map (·.getD .idle) = done ++ waiting ∧
          waiting.map ServiceItem.packet = s'.deque.map .ok ∧
          deviceOf m s' = ((deviceOf m s).run done).1 ∧ sessionCalls s s' = ((deviceOf m s).run done).2) := by
  obtain ⟨sent, unsent, l', os, h1, h2, h3, h4⟩ := station_sent ServiceItem.packet n txOps h ht cmds
    (fun c hm p hp => (ServiceItem.valid (hc c hm) hp).1) hacc s.link (hr.recvInv.link.synced hw)
  refine ⟨sent, unsent, h3, h4, fun hin => ?_⟩
  obtain ⟨done, waiting, h5, h6, h7, h8, -⟩ := session_items hm hr hs hdq ho hi hd hcb hcb' hf (by
    intro i hi
    obtain ⟨x, hx, rfl⟩ := List.mem_map.mp hi
    cases x with
    | none => trivial
    | some c =>
      refine hc c ?_
      rw [h3]
      exact List.mem_append_left _ (List.mem_filterMap.mpr ⟨_, hx, rfl⟩)) (by rw [htimes]; exact h1)
    (by rw [sent_packets]; exact h2) hin
  exact ⟨done, waiting, h5, h6, h7, h8⟩

/-- **C79** Without a fault as a hypothesis: a main loop that calls `execute` after every call of `receive`,
with room for two packets, does not fault as long as the CVs have an address, and at most one packet
waits, the one whose end bit was received last. -/
theorem C79_main_loop_partial (n : Nat) (txOps : List TxOp) (h : TxHist)
    (ht : ({ s := {} } : TxHist).run n txOps = .ok h) (cmds : List ServiceItem) (hc : ∀ c ∈ cmds, c.Legal)
    (hacc : h.acc.map (fun a => Except.ok a.2) = cmds.map ServiceItem.packet)
    (e : Env) (hroom : 2 ≤ e.rxDeque) (m : BitVec 32 → Byte) (hm : Memory e m) (s : Rx)
    (hr : Reachable e s) (hs : Settled m s) (hdq : s.deque = []) (hw : s.link.state = .preamble)
    (xs : List (Nat × Nat × Int × Nat)) (htimes : xs.map (·.1) = h.out.map (·.duration)) :
    ∃ (sent : List (Option ServiceItem)) (unsent : List ServiceItem), cmds = sent.filterMap id ++ unsent ∧
      (unsent.length = h.s.size n ∨
        unsent.length = h.s.size n + 1 ∧ h.s.packetCount < h.s.current.length) ∧
      (Served (deviceOf m s) (sent.map (·.getD .idle)) →
        KeepsAddress (deviceOf m s) (sent.map (·.getD .idle)) →
        ∃ s', s.run e (polled xs) = .ok s' ∧ ∃ done waiting, sent.map (·.getD .idle) = done ++ waiting ∧
          waiting.length ≤ (if s'.packetEnd then 1 else 0) ∧
          deviceOf m s' = ((deviceOf m s).run done).1 ∧ sessionCalls s s' = ((deviceOf m s).run done).2) := by
  obtain ⟨hf, hend⟩ := polled_neverFull e hroom xs s hr (by simp [hdq]) (fun _ => hdq)
  have htm : recvTimes (polled xs) = h.out.map (·.duration) := by
    rw [← htimes]
    clear hf hend htimes
    induction xs with
    | nil => rfl
    | cons x xs ih =>
      have : recvTimes (polled (x :: xs)) = x.1 :: recvTimes (polled xs) := rfl
      rw [this, ih]; rfl
  have hops : ∀ op ∈ polled xs, op.isReceive = true ∨ op.isExecute = true := by
    intro op hop
    unfold polled at hop
    obtain ⟨x, _, hop⟩ := List.mem_flatMap.mp hop
    simp only [List.mem_cons, List.not_mem_nil, or_false] at hop
    rcases hop with rfl | rfl
    · exact .inl rfl
    · exact .inr rfl
  have hno : ∀ op, op.isReceive = false → op.isExecute = false → op ∉ polled xs := by
    intro op h5 h6 hm
    rcases hops op hm with h | h
    · rw [h5] at h; cases h
    · rw [h6] at h; cases h
  obtain ⟨sent, unsent, l', os, h1, h2, h3, h4⟩ := station_sent ServiceItem.packet n txOps h ht cmds
    (fun c hm p hp => (ServiceItem.valid (hc c hm) hp).1) hacc s.link (hr.recvInv.link.synced hw)
  refine ⟨sent, unsent, h3, h4, fun hin hka => ?_⟩
  have hleg : ∀ i ∈ sent.map (·.getD .idle), i.Legal := by
    intro i hi
    obtain ⟨x, hx, rfl⟩ := List.mem_map.mp hi
    cases x with
    | none => trivial
    | some c =>
      refine hc c ?_
      rw [h3]
      exact List.mem_append_left _ (List.mem_filterMap.mpr ⟨_, hx, rfl⟩)
  rw [← sent_packets] at h2
  obtain ⟨s', ho⟩ := session_total hm (polled xs) s l' os _ hr hs hops hf (by rw [htm]; exact h1) hleg
    (by rw [hdq]; exact h2) hin hka
  obtain ⟨done, waiting, h5, h6, h7, h8, -⟩ := session_items hm hr hs hdq ho (hno _ rfl rfl) (hno _ rfl rfl)
    (fun _ _ => hno _ rfl rfl) (fun _ _ => hno _ rfl rfl) hf hleg (by rw [htm]; exact h1) h2 hin
  refine ⟨s', ho, done, waiting, h5, ?_, h7, h8⟩
  obtain ⟨h9, h10⟩ := hend s' ho
  have hlen : waiting.length = s'.deque.length := by simpa using congrArg List.length h6
  cases hpe : s'.packetEnd
  · rw [h10 hpe] at hlen; simp [hlen]
  · simp only [if_true]; omega

/-- **C79** It is enough that the direct mode packets arrive in service mode. -/
theorem C79_served (d : Device) (items : List ServiceItem) (h : InService d.service items) : Served d items :=
  served_of_inService items d h

/-- The programmer's packets, and the station's queue runs empty behind the reset packet. -/
def dryProgrammer : List TxOp :=
  [.init {}, .bytes [0#8, 0#8, 0#8]] ++ List.replicate 250 .transmit ++
    [.bytes [0x74#8, 0x75#8, 0x00#8, 0x01#8]] ++ List.replicate 200 .transmit

/-- A decoder with address 116. -/
def dryEnv : Env := memEnv fun cv => if cv = 0#32 then 116#8 else exampleCvs cv

/-- **C79** Otherwise the locomotive may run off: the station sends an idle packet because its queue is
empty, the decoder with address 116 leaves service mode, and the request to verify CV118 is a speed
command for it. -/
theorem C79_dry_false : ∃ (h : TxHist) (s s' : Rx), ({ s := {} } : TxHist).run 16 dryProgrammer = .ok h ∧
    h.acc.map (fun a => Except.ok a.2) =
      [ServiceItem.reset, .direct .verify (.byte 117 0#8)].map ServiceItem.packet ∧
    ({} : Rx).run dryEnv [.init] = .ok s ∧
    s.run dryEnv (polled (h.out.map fun o => (o.duration, 0, 0, 0))) = .ok s' ∧
    sessionCalls s s' =
      [.serviceModeHook true, .serviceModeHook false, .direction 116#16 true, .speed 116#16 67] := by
  have key : (match ({ s := {} } : TxHist).run 16 dryProgrammer, ({} : Rx).run dryEnv [.init] with
      | .ok h, .ok s => match s.run dryEnv (polled (h.out.map fun o => (o.duration, 0, 0, 0))) with
        | .ok s' => decide (h.acc.map (fun a => Except.ok a.2) =
            [ServiceItem.reset, .direct .verify (.byte 117 0#8)].map ServiceItem.packet ∧ sessionCalls s s' =
            [.serviceModeHook true, .serviceModeHook false, .direction 116#16 true, .speed 116#16 67])
        | .error _ => false
      | _, _ => false) = true := by decide +kernel
  cases h1 : ({ s := {} } : TxHist).run 16 dryProgrammer with
  | error f => rw [h1] at key; cases key
  | ok h =>
    cases h2 : ({} : Rx).run dryEnv [.init] with
    | error f => rw [h1, h2] at key; cases key
    | ok s =>
      rw [h1, h2] at key
      dsimp only at key
      cases h3 : s.run dryEnv (polled (h.out.map fun o => (o.duration, 0, 0, 0))) with
      | error f => rw [h3] at key; cases key
      | ok s' =>
        rw [h3] at key
        obtain ⟨h4, h5⟩ := of_decide_eq_true key
        exact ⟨h, s, s', rfl, h4, rfl, h3, h5⟩

/-! ### C79: what that means for the programmer -/

/-- **C79** A decoder outside service mode gets idle packets, then at least one reset packet, then
requests, each of them sent at least twice and followed by any number of reset packets, no two in a row
the same and the first one not the one counted last.  Then each request is performed exactly once. -/
theorem C79_requests (d : Device) (hd : d.service = false) (idles resets : Nat) (reqs : List Request)
    (hleg : ∀ r ∈ reqs, r.access.Legal ∧ 2 ≤ r.times) (halt : Alternating reqs)
    (hlast : ∀ r ∈ reqs.head?, .ok d.last ≠ (ServiceItem.direct r.kind r.access).packet) :
    let items := List.replicate idles .idle ++ List.replicate (resets + 1) .reset ++ reqs.flatMap Request.items
    (d.run items).1.cvs = (performAll d.cvs reqs).1 ∧ (d.run items).1.service = true ∧
      (d.run items).2 = .serviceModeHook true :: (performAll d.cvs reqs).2.flatten := by
  have h1 : d.run (List.replicate idles .idle) = (d, []) := by
    have h1 : d.step .idle = (d, []) := by unfold Device.step; simp only [hd, Bool.false_eq_true, if_false]
    induction idles with
    | zero => rfl
    | succ n ih => rw [List.replicate_succ, Device.run, h1, ih]; rfl
  have h2 : d.run (List.replicate (resets + 1) .reset) = ({ d with service := true }, [.serviceModeHook true]) := by
    have h2 : d.step .reset = ({ d with service := true }, [.serviceModeHook true]) := by
      unfold Device.step; simp only [hd, Bool.false_eq_true, if_false]
    rw [List.replicate_succ, Device.run, h2]
    dsimp only
    rw [run_resets _ _ rfl]
    rfl
  obtain ⟨h3, h4, h5⟩ := run_requests reqs { d with service := true } rfl hleg halt hlast
  dsimp only
  rw [Device.run_append, Device.run_append, h1]
  dsimp only
  rw [h2]
  refine ⟨h3, h4, ?_⟩
  rw [h5]
  rfl

/-- **C79** Reading a CV is such a list of requests. -/
theorem C79_read_requests (cv times resets : Nat) (hcv : cv < 1024) (ht : 2 ≤ times) :
    (∀ r ∈ readRequests cv times resets, r.access.Legal ∧ 2 ≤ r.times) ∧
      Alternating (readRequests cv times resets) := by
  refine ⟨?_, by simp [readRequests, List.range_succ, Alternating]⟩
  intro r hr
  unfold readRequests at hr
  obtain ⟨pos, hp, rfl⟩ := List.mem_map.mp hr
  exact ⟨⟨hcv, List.mem_range.mp hp⟩, ht⟩

/-- **C79** Reading a CV bit by bit changes no CV, and the bits acknowledged are those of its value, unless
the CVs are locked. -/
theorem C79_read (c : BitVec 32 → Byte) (cv times resets : Nat) (hl : locks c = false) :
    (performAll c (readRequests cv times resets)).1 = c ∧
      valueOf (answers (performAll c (readRequests cv times resets)).2) = (c (BitVec.ofNat 32 cv)).toNat := by
  have h := performAll_verify c times resets ((List.range 8).map fun pos => .bit cv true pos)
  rw [List.map_map] at h
  have hr : readRequests cv times resets =
    (List.range 8).map ((fun a => (⟨.verify, a, times, resets⟩ : Request)) ∘ fun pos => .bit cv true pos) := rfl
  rw [hr, h]
  refine ⟨rfl, ?_⟩
  rw [← valueOf_bits]
  unfold answers
  rw [List.map_map, List.map_map]
  congr 1
  refine List.map_congr_left fun pos _ => ?_
  simp only [Function.comp_apply]
  have hp : permitted (locks c) .verify (.bit cv true pos) = true := by simp [permitted, hl]
  unfold performed
  rw [if_pos hp]
  unfold acknowledged accessCall
  cases hb : (c (BitVec.ofNat 32 cv)).getLsbD pos <;> simp [hb]

/-- **C79** Locked CVs look like zero. -/
theorem C79_read_locked (c : BitVec 32 → Byte) (cv times resets : Nat) (hl : locks c = true) :
    valueOf (answers (performAll c (readRequests cv times resets)).2) = 0 := by
  have h := performAll_verify c times resets ((List.range 8).map fun pos => .bit cv true pos)
  rw [List.map_map] at h
  have hr : readRequests cv times resets =
    (List.range 8).map ((fun a => (⟨.verify, a, times, resets⟩ : Request)) ∘ fun pos => .bit cv true pos) := rfl
  rw [hr, h]
  have hz : (0 : Nat) = (0#8).toNat := rfl
  rw [hz, ← valueOf_bits]
  unfold answers
  rw [List.map_map, List.map_map]
  congr 1
  refine List.map_congr_left fun pos _ => ?_
  have hp : permitted (locks c) .verify (.bit cv true pos) = false := by
    simp [permitted, hl]
  simp [performed, hp]

/-- **C79** What was written is read back: the write is acknowledged, and the bits acknowledged afterwards
are those written, unless the CVs are locked after it.  Locked CVs must be unlocked by writing CV15. -/
theorem C79_write_read (c : BitVec 32 → Byte) (cv times resets times' resets' : Nat) (b : Byte)
    (hl : locks c = false ∨ cv = 14) (hl' : locks (applyWrite c (.byte cv b)) = false) :
    let r := performAll c (⟨.write, .byte cv b, times, resets⟩ :: readRequests cv times' resets')
    r.1 = applyWrite c (.byte cv b) ∧ (answers r.2).head? = some true ∧ valueOf (answers r.2.tail) = b.toNat := by
  have hp : permitted (locks c) .write (.byte cv b) = true := by
    rcases hl with hl | rfl
    · simp [permitted, hl]
    · simp [permitted, Access.cv]
  have hw : performed c .write (.byte cv b) =
      (applyWrite c (.byte cv b), [accessCall c .write (.byte cv b), .serviceAck]) := by
    unfold performed
    rw [if_pos hp]
    rfl
  obtain ⟨h1, h2⟩ := C79_read (applyWrite c (.byte cv b)) cv times' resets' hl'
  dsimp only
  simp only [performAll, hw]
  refine ⟨h1, by simp [answers], ?_⟩
  rw [List.tail_cons, h2]
  simp [applyWrite]

/-! ### C79: examples -/

/-- The user's class of the examples is a memory. -/
theorem exampleEnv_memory : Memory exampleEnv exampleCvs where
  reads _ _ := rfl
  sync := rfl
  syncRead := rfl
  readByte _ _ _ := rfl
  readBit _ _ _ _ := rfl
  writeByte _ _ _ := rfl
  writeBit _ _ _ _ := rfl

/-- A decoder is settled after its first `init`. -/
example (s : Rx) (h : ({} : Rx).run exampleEnv [.init] = .ok s) : Reachable exampleEnv s ∧ Settled exampleCvs s := by
  have hm := exampleEnv_memory
  have hr : Reachable exampleEnv s := Reachable.of_run h
  have h' : ({} : Rx).init exampleEnv = .ok s := by
    simpa [Rx.run, Rx.step, bind_eq_ok] using h
  have hf := (frame_init exampleEnv {}).out _ h'
  exact ⟨hr, hf.store, hf.assigned, by rw [hf.logonAddr]; rfl, (init_reflects hm.toMemoryLike h').1⟩

/-- Write 5 to CV3 and read bits 2 and 3. -/
def exampleRequests : List Request :=
  [⟨.write, .byte 2 5#8, 2, 0⟩, ⟨.verify, .bit 2 true 2, 2, 1⟩, ⟨.verify, .bit 2 true 3, 2, 1⟩]

/-- They are legal, no two in a row are the same, and the first one is not the (empty) one counted last. -/
example : (∀ r ∈ exampleRequests, r.access.Legal ∧ 2 ≤ r.times) ∧ Alternating exampleRequests ∧
    (∀ r ∈ exampleRequests.head?, (.ok [] : R Packet) ≠ (ServiceItem.direct r.kind r.access).packet) := by
  refine ⟨?_, ?_, ?_⟩
  · intro r hr
    simp only [exampleRequests, List.mem_cons, List.not_mem_nil, or_false] at hr
    rcases hr with rfl | rfl | rfl
    · exact ⟨show 2 < 1024 by decide, by decide⟩
    · exact ⟨show 2 < 1024 ∧ 2 < 8 by decide, by decide⟩
    · exact ⟨show 2 < 1024 ∧ 3 < 8 by decide, by decide⟩
  · simp [exampleRequests, Alternating]
  · intro r hr
    simp only [exampleRequests, List.head?_cons, Option.mem_def, Option.some.injEq] at hr
    subst hr
    decide +kernel

/-- The CVs of the example have an address and are not locked, neither before nor after the write. -/
example : HasAddress exampleCvs ∧ locks exampleCvs = false ∧
    HasAddress (applyWrite exampleCvs (.byte 2 5#8)) ∧ locks (applyWrite exampleCvs (.byte 2 5#8)) = false := by
  unfold HasAddress
  decide +kernel

/-- Locked CVs, and unlocking them by writing CV15. -/
example : let c : BitVec 32 → Byte := fun cv => if cv = 14#32 then 1#8 else if cv = 15#32 then 2#8 else 0#8
    locks c = true ∧ locks (applyWrite c (.byte 14 2#8)) = false := by
  decide +kernel

/-- The packets of the programmer. -/
def exampleItems : List ServiceItem := .reset :: exampleRequests.flatMap Request.items

/-- The station's calls. -/
def exampleProgrammer : List TxOp :=
  .init {} :: (exampleItems.filterMap fun i => i.packet.toOption.map .bytes) ++ List.replicate 1000 .transmit

/-- Direct mode packets are sent in service mode. -/
example : InService false exampleItems := by
  simp [exampleItems, exampleRequests, Request.items, InService, List.replicate_succ]

example :
    (match ({ s := {} } : TxHist).run 16 exampleProgrammer, ({} : Rx).run exampleEnv [.init] with
    | .ok h, .ok s =>
      decide (h.acc.map (fun a => Except.ok a.2) = exampleItems.map ServiceItem.packet ∧ s.deque = [] ∧
        s.link.state = .preamble) &&
      (match s.run exampleEnv (polled (h.out.map fun o => (o.duration, 0, 0, 0))) with
      | .ok s' => decide (s'.deque = [] ∧ sessionCalls s s' = [.serviceModeHook true, .writeCvByte 2#32 5#8 5#8,
          .serviceAck, .readCvBit 2#32 true 2#32 true, .serviceAck, .readCvBit 2#32 true 3#32 false] ∧
          mem exampleCvs s'.trace 2#32 = 5#8)
      | .error _ => false)
    | _, _ => false) = true := by decide +kernel

end Dcc
