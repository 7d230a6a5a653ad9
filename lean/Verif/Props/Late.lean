import Verif.Lemmas.RxLate
import Verif.Props.Final
import Verif.Props.Settle
import Verif.Props.Track
/-! A locomotive put on the track while the command station is sending: C108. -/
namespace Dcc
open Spec

/-! ### C108 -/

/-- **C108** A decoder that has just been switched on begins to listen after the calls of `transmit` of `h1`, in the
middle of a half bit, a packet or a cutout.  Its input sees the polarity; the first interval it measures may be
anything, each half bit after that is measured as anything within the limits of RCN-210.  Then what arrives in the
receive queue are the packets sent but the first `i`, in order, without logon packets.  Of those it misses even the last
one had begun at least 14 calls of `transmit` before: a packet of which only the first 13 half bits are over is received,
and nothing is received that was not sent. -/
theorem C108_arrivals (n : Nat) (cfg : TxConfig) (txOps more : List TxOp) (h1 h : TxHist)
    (ht1 : ({ s := {} } : TxHist).run n (.init cfg :: txOps) = .ok h1) (ht : h1.run n more = .ok h)
    (hinv : ∀ c, .init c ∈ txOps ++ more → c.invert = cfg.invert) (hv : ∀ a ∈ h.acc, ValidPacket a.2)
    (e : Env) (s s' : Rx) (hr : Reachable e s) (hs : s.link.state = .preamble) (hb : s.link.bitCount = 0)
    (ops : List RxOp) (ho : s.run e ops = .ok s') (hd : .disable ∉ ops) (hf : NeverFull e s ops)
    (seen : Bool) (before : List Nat)
    (htimes : Measured (crossings none seen before (h.out.drop h1.out.length)) (recvTimes ops)) :
    ∃ (sent : List (Spec.Segment × Packet)) (c : Spec.Segment × Packet) (rest : List Packet) (i : Nat),
      h.out = (sent ++ [c]).flatMap (fun g => g.1.outs) ∧
      (∀ g ∈ sent ++ [c], g.1.Ok Spec.ValidConfig ∧
        ((g.1.frame = none ∧ g.2 = [0xFF#8, 0x00#8, 0xFF#8]) ∨
          ∃ c, (c, g.2) ∈ h.acc ∧ g.1.frame = some (Spec.packetWave c g.2))) ∧
      (∀ g ∈ sent, g.1.Complete Spec.ValidConfig) ∧
      h.acc.map (·.2) = ((sent ++ [c]).filter (·.1.frame.isSome)).map (·.2) ++ rest ∧
      arrivals e s ops = ((sent.map (·.2) ++ if c.1.cut.isEmpty then [] else [c.2]).drop i).filter
        (fun p => !isLogon p) ∧
      ∀ m, m + 1 = i → (((sent ++ [c]).take m).flatMap fun g => g.1.outs).length + 14 ≤ h1.out.length := by
  obtain ⟨gs, c, rest, l', os, i, h2, h3, h4, h5, -, -, h6, h7, h8, -⟩ := station_late n cfg txOps more h1 h ht1 ht
    hinv hv seen before _ htimes s.link (hr.recvInv.link.synced hs) hb
  obtain ⟨os', h9, h10⟩ := run_interleaved e ops s s' ho hd hf
  rw [h6] at h9
  cases h9
  exact ⟨gs, c, rest, i, h2, h3, h4, h5, by rw [h10, h7], h8⟩

/-- **C108** From the throttle to the motor: the commands fall into those that were `missed`, those `done` since, those
`waiting` in the decoder and those `unsent`.  Missed are only commands of which the transmission had begun: everything
the station had in its queue when the decoder began to listen, or accepted later, is done, in order. -/
theorem C108_throttle_to_motor (n : Nat) (cfg : TxConfig) (txOps more : List TxOp) (h1 h : TxHist)
    (ht1 : ({ s := {} } : TxHist).run n (.init cfg :: txOps) = .ok h1) (ht : h1.run n more = .ok h)
    (hinv : ∀ c, .init c ∈ txOps ++ more → c.invert = cfg.invert) (cmds : List Command) (hc : ∀ c ∈ cmds, c.Legal)
    (hacc : h.acc.map (fun a => Except.ok a.2) = cmds.map Command.packet)
    (e : Env) (s s' : Rx) (hr : Reachable e s) (hready : Ready e s) (hb : s.link.bitCount = 0)
    (ops : List RxOp) (ho : s.run e ops = .ok s') (hi : .init ∉ ops) (hd : .disable ∉ ops)
    (hf : NeverFull e s ops) (seen : Bool) (before : List Nat)
    (htimes : Measured (crossings none seen before (h.out.drop h1.out.length)) (recvTimes ops)) :
    ∃ missed done waiting unsent : List Command, cmds = missed ++ done ++ waiting ++ unsent ∧
      missed.length + h1.s.size n ≤ h1.acc.length ∧
      drivingCalls s s' = done.flatMap (Command.calls s) ∧
      waiting.map Command.packet = (s'.deque.filter (· ≠ idleBytes)).map .ok ∧
      (unsent.length = h.s.size n ∨ unsent.length = h.s.size n + 1 ∧ h.s.bidiCount = 0) := by
  obtain ⟨ms, items, unsent, l', os, h2, h3, rfl, h5, h6⟩ := heard_late Command.packet n cfg txOps more h1 h ht1 ht hinv
    cmds (fun c hm p hp => Command.valid (hc c hm) hp) hacc seen before _ htimes s.link
    (hr.recvInv.link.synced hready.waiting) hb
  rw [← Item.packet_sentAs] at h3
  obtain ⟨i1, i2, rfl, h7, h8⟩ := drive_items hr hready ho hi hd hf (by
    rintro i hm c rfl
    exact hc c (List.mem_append_left _ (List.mem_append_right _ (List.mem_filterMap.mpr ⟨_, hm, rfl⟩)))) h2 h3
  exact ⟨ms, i1.filterMap id, i2.filterMap id, unsent, by simp, h5, h7, h8, h6⟩

theorem recvTimes_polled (xs : List (Nat × Nat × Int × Nat)) : recvTimes (polled xs) = xs.map (·.1) := by
  induction xs with
  | nil => rfl
  | cons x xs ih =>
    have : recvTimes (polled (x :: xs)) = x.1 :: recvTimes (polled xs) := rfl
    rw [this, ih]; rfl

theorem polled_only (xs : List (Nat × Nat × Int × Nat)) :
    ∀ op ∈ polled xs, op.isReceive = true ∨ op.isExecute = true := by
  intro op hop
  unfold polled at hop
  obtain ⟨x, _, hop⟩ := List.mem_flatMap.mp hop
  simp only [List.mem_cons, List.not_mem_nil, or_false] at hop
  rcases hop with rfl | rfl
  · exact .inl rfl
  · exact .inr rfl

/-- **C108** Without a fault as a hypothesis, for a main loop that calls `execute` after every call of `receive`:
nothing faults, whatever the station was just doing when the decoder began to listen. -/
theorem C108_main_loop (n : Nat) (cfg : TxConfig) (txOps more : List TxOp) (h1 h : TxHist)
    (ht1 : ({ s := {} } : TxHist).run n (.init cfg :: txOps) = .ok h1) (ht : h1.run n more = .ok h)
    (hinv : ∀ c, .init c ∈ txOps ++ more → c.invert = cfg.invert) (cmds : List Command) (hc : ∀ c ∈ cmds, c.Legal)
    (hacc : h.acc.map (fun a => Except.ok a.2) = cmds.map Command.packet)
    (e : Env) (hroom : 2 ≤ e.rxDeque) (s : Rx) (hr : Reachable e s) (hready : Ready e s)
    (hb : s.link.bitCount = 0) (xs : List (Nat × Nat × Int × Nat)) (seen : Bool) (before : List Nat)
    (htimes : Measured (crossings none seen before (h.out.drop h1.out.length)) (xs.map (·.1))) :
    ∃ s', s.run e (polled xs) = .ok s' ∧
      ∃ missed done waiting unsent : List Command, cmds = missed ++ done ++ waiting ++ unsent ∧
        missed.length + h1.s.size n ≤ h1.acc.length ∧
        drivingCalls s s' = done.flatMap (Command.calls s) ∧
        waiting.length ≤ (if s'.packetEnd then 1 else 0) ∧
        (unsent.length = h.s.size n ∨ unsent.length = h.s.size n + 1 ∧ h.s.bidiCount = 0) := by
  obtain ⟨hf, hend⟩ := polled_neverFull e hroom xs s hr (by simp [hready.deque]) (fun _ => hready.deque)
  have hops := polled_only xs
  rw [← recvTimes_polled] at htimes
  obtain ⟨ms, items, unsent, l', os, h2, h3, h4, -, -⟩ := heard_late Command.packet n cfg txOps more h1 h ht1 ht hinv
    cmds (fun c hm p hp => Command.valid (hc c hm) hp) hacc seen before _ htimes s.link
    (hr.recvInv.link.synced hready.waiting) hb
  rw [← Item.packet_sentAs] at h3
  obtain ⟨s', ho⟩ := drive_total e (polled xs) s l' os hr hready.mode hops hf h2 (by
    intro p hp
    rw [hready.deque, List.nil_append] at hp
    have : (Except.ok p : R Packet) ∈ (packetsOf os).map .ok := List.mem_map_of_mem hp
    rw [← h3] at this
    obtain ⟨i, hm, hip⟩ := List.mem_map.mp this
    refine ⟨i, ?_, hip⟩
    rintro c rfl
    refine hc c ?_
    rw [h4]
    exact List.mem_append_left _ (List.mem_append_right _ (List.mem_filterMap.mpr ⟨_, hm, rfl⟩)))
  have hno : ∀ op, op.isReceive = false → op.isExecute = false → op ∉ polled xs := by
    intro op h5 h6 hm
    rcases hops op hm with h | h
    · rw [h5] at h; cases h
    · rw [h6] at h; cases h
  obtain ⟨ms, done, waiting, uns, h4, h5, h6, h7, h8⟩ := C108_throttle_to_motor n cfg txOps more h1 h ht1 ht hinv cmds hc
    hacc e s s' hr hready hb (polled xs) ho (hno _ rfl rfl) (hno _ rfl rfl) hf seen before htimes
  refine ⟨s', ho, ms, done, waiting, uns, h4, h5, h6, ?_, h8⟩
  obtain ⟨h9, h10⟩ := hend s' ho
  have hlen : waiting.length ≤ s'.deque.length := by
    have := congrArg List.length h7
    simp only [List.length_map] at this
    rw [this]
    exact List.length_filter_le _ _
  cases hpe : s'.packetEnd
  · rw [h10 hpe] at hlen; simpa using hlen
  · simp only [if_true]; omega

theorem lastSet_isSome {α} {sets : α → Setting → Option Int} {ys : List α} {x : Setting} {a : α} (ha : a ∈ ys)
    (h : (sets a x).isSome = true) : (lastSet sets ys x).isSome = true := by
  unfold lastSet
  rw [List.findSome?_isSome_iff]
  exact ⟨a, by simpa using ha, h⟩

/-- **C108** A locomotive put on the track late ends up as if it had been there all the time: whatever a command sets
that was in the queue of the station when the decoder began to listen, or accepted later, is in the end as the last of
all commands set it - provided that the commands not done yet do not set it. -/
theorem C108_final (n : Nat) (cfg : TxConfig) (txOps more : List TxOp) (h1 h : TxHist)
    (ht1 : ({ s := {} } : TxHist).run n (.init cfg :: txOps) = .ok h1) (ht : h1.run n more = .ok h)
    (hinv : ∀ c, .init c ∈ txOps ++ more → c.invert = cfg.invert) (cmds : List Command) (hc : ∀ c ∈ cmds, c.Legal)
    (hacc : h.acc.map (fun a => Except.ok a.2) = cmds.map Command.packet)
    (e : Env) (s s' : Rx) (hr : Reachable e s) (hready : Ready e s) (hb : s.link.bitCount = 0)
    (ops : List RxOp) (ho : s.run e ops = .ok s') (hi : .init ∉ ops) (hd : .disable ∉ ops)
    (hf : NeverFull e s ops) (seen : Bool) (before : List Nat)
    (htimes : Measured (crossings none seen before (h.out.drop h1.out.length)) (recvTimes ops)) :
    ∃ first open' : List Command, cmds = first ++ open' ∧ open'.length ≤ s'.deque.length + h.s.size n + 1 ∧
      ∀ x, (∃ c ∈ cmds.drop (h1.acc.length - h1.s.size n), (c.sets s x).isSome = true) →
        (∀ c ∈ open', c.sets s x = none) → finalOf s'.trace x = lastSet (Command.sets s) cmds x := by
  obtain ⟨ms, done, waiting, unsent, rfl, h2, h3, h4, h5⟩ := C108_throttle_to_motor n cfg txOps more h1 h ht1 ht hinv
    cmds hc hacc e s s' hr hready hb ops ho hi hd hf seen before htimes
  refine ⟨ms ++ done, waiting ++ unsent, by simp, ?_, ?_⟩
  · have hlen : waiting.length ≤ s'.deque.length := by
      have := congrArg List.length h4
      simp only [List.length_map] at this
      rw [this]
      exact List.length_filter_le _ _
    rw [List.length_append]
    omega
  · rintro x ⟨c, hm, hset⟩ hopen
    have hlast : lastSet (Command.sets s) (waiting ++ unsent) x = none := lastSet_none hopen
    have hin : c ∈ done := by
      rw [show h1.acc.length - h1.s.size n = ms.length + (h1.acc.length - h1.s.size n - ms.length) by omega,
        ← List.drop_drop, List.append_assoc, List.append_assoc, List.drop_left] at hm
      rcases List.mem_append.mp (List.mem_of_mem_drop hm) with hm | hm
      · exact hm
      · rw [hopen c hm] at hset; cases hset
    have hsome := lastSet_isSome (sets := Command.sets s) hin hset
    rw [final_of_calls hr ho h3 x, all_calls_sets s done (fun c hm => hc c (by simp [hm])), List.append_assoc,
      lastSet_append, hlast, Option.none_or, lastSet_append]
    cases hx : lastSet (Command.sets s) done x
    · rw [hx] at hsome; cases hsome
    · rfl

/-- **C108** In the end: the station has got no more commands for long enough, and the main loop calls `execute` after
every call of `receive`.  Then nothing faults, all commands are done but those of which the transmission had begun when
the decoder began to listen, and whatever one of the commands done sets is as the last of all commands set it. -/
theorem C108_all_done (n : Nat) (cfg : TxConfig) (txOps more : List TxOp) (h1 h0 h : TxHist)
    (ht1 : ({ s := {} } : TxHist).run n (.init cfg :: txOps) = .ok h1) (ht : h1.run n more = .ok h0)
    (m : Nat) (hr0 : h0.run n (List.replicate m .transmit) = .ok h)
    (hm : (h0.s.size n + 1) * longest + idling < m)
    (hinv : ∀ c, .init c ∈ txOps ++ more → c.invert = cfg.invert) (cmds : List Command) (hc : ∀ c ∈ cmds, c.Legal)
    (hacc : h.acc.map (fun a => Except.ok a.2) = cmds.map Command.packet)
    (e : Env) (hroom : 2 ≤ e.rxDeque) (s : Rx) (hr : Reachable e s) (hready : Ready e s)
    (hb : s.link.bitCount = 0) (xs : List (Nat × Nat × Int × Nat)) (seen : Bool) (before : List Nat)
    (htimes : Measured (crossings none seen before (h.out.drop h1.out.length)) (xs.map (·.1))) :
    ∃ s', s.run e (polled xs) = .ok s' ∧
      ∃ missed done : List Command, cmds = missed ++ done ∧ missed.length + h1.s.size n ≤ h1.acc.length ∧
        drivingCalls s s' = done.flatMap (Command.calls s) ∧
        ∀ x, (∃ c ∈ cmds.drop (h1.acc.length - h1.s.size n), (c.sets s x).isSome = true) →
          finalOf s'.trace x = lastSet (Command.sets s) cmds x := by
  obtain ⟨hf, hend⟩ := polled_neverFull e hroom xs s hr (by simp [hready.deque]) (fun _ => hready.deque)
  have hops := polled_only xs
  rw [← recvTimes_polled] at htimes
  obtain ⟨ms, items, l', os, front, back, h2, h3, h4, h5, h6, h7, h8⟩ := heard_late_settled Command.packet n cfg txOps
    more h1 h0 h ht1 ht m 1 hr0 (by omega) hinv cmds (fun c hm p hp => Command.valid (hc c hm) hp) hacc seen before _
    htimes s.link (hr.recvInv.link.synced hready.waiting) hb
  rw [← Item.packet_sentAs] at h3
  have hleg : ∀ i ∈ items, Item.Legal i := by
    rintro i hm c rfl
    exact hc c (h4 ▸ List.mem_append_right _ (List.mem_filterMap.mpr ⟨_, hm, rfl⟩))
  have hpk : ∀ p ∈ packetsOf os, ∃ i : Item, i.Legal ∧ i.packet = .ok p := by
    intro p hp
    have : (Except.ok p : R Packet) ∈ (packetsOf os).map .ok := List.mem_map_of_mem hp
    rw [← h3] at this
    obtain ⟨i, hm, hip⟩ := List.mem_map.mp this
    exact ⟨i, hleg i hm, hip⟩
  obtain ⟨s', ho⟩ := drive_total e (polled xs) s l' os hr hready.mode hops hf h2 (by
    intro p hp
    rw [hready.deque, List.nil_append] at hp
    exact hpk p hp)
  have hno : ∀ op, op.isReceive = false → op.isExecute = false → op ∉ polled xs := by
    intro op h5 h6 hm
    rcases hops op hm with h | h
    · rw [h5] at h; cases h
    · rw [h6] at h; cases h
  obtain ⟨i1, i2, rfl, h9, h10⟩ := drive_items hr hready ho (hno _ rfl rfl) (hno _ rfl rfl) hf hleg h2 h3
  obtain ⟨ex, hex⟩ := waiting_last hr hready ho (hno _ rfl rfl) hf h2 fun p hp =>
    let ⟨i, h5, h6⟩ := hpk p hp
    i.not_logon h5 h6
  -- what waits is an idle packet
  have hidle : s'.deque.filter (· ≠ idleBytes) = [] := by
    refine List.filter_eq_nil_iff.mpr fun p hp => ?_
    have hsuf : s'.deque <:+ back := by
      have h11 : s'.deque <:+ packetsOf os := ⟨ex, hex.symm⟩
      have h12 : back <:+ packetsOf os := ⟨front, h6.symm⟩
      exact List.suffix_of_suffix_length_le h11 h12 (by have := (hend s' ho).1; omega)
    simp [h8 p (hsuf.subset hp)]
  rw [hidle] at h10
  have h11 : i2.filterMap id = [] := by simpa using h10
  rw [List.filterMap_append, h11, List.append_nil] at h4
  refine ⟨s', ho, ms, i1.filterMap id, h4, h5, h9, ?_⟩
  rintro x ⟨c, hm, hset⟩
  have hin : c ∈ i1.filterMap id := by
    rw [h4, show h1.acc.length - h1.s.size n = ms.length + (h1.acc.length - h1.s.size n - ms.length) by omega,
      ← List.drop_drop, List.drop_left] at hm
    exact List.mem_of_mem_drop hm
  have hsome := lastSet_isSome (sets := Command.sets s) hin hset
  rw [final_of_calls hr ho h9 x, all_calls_sets s _ (fun c hm => hc c (h4 ▸ List.mem_append_right _ hm)), h4,
    lastSet_append]
  cases hx : lastSet (Command.sets s) (i1.filterMap id) x
  · rw [hx] at hsome; cases hsome
  · rfl

/-! ### Examples -/

/-- A station with a speed for locomotive 3 that begins to send it after 95 calls of `transmit`, and gets F0 and F3
after `k` calls. -/
def lateStation (k : Nat) : List TxOp := .init {} :: .bytes [3#8, 0x3F#8, 0x86#8, 0xBA#8] :: List.replicate k .transmit

def lateMore (m : Nat) : List TxOp := .bytes [3#8, 0x94#8, 0x97#8] :: List.replicate m .transmit

def lateCommands : List Command := [loco3 (.advancedSpeed 0x86#8), loco3 (.f4f0 0x09#8)]

/-- What a decoder does that is switched on after `k` calls, if its input shows `seen` then: `p` of the two histories
of the station, the decoder before and the decoder behind. -/
def switchedOn (k m : Nat) (seen : Bool) (p : TxHist → TxHist → Rx → Rx → Bool) : Bool :=
  match ({ s := {} } : TxHist).run 4 (lateStation k), ({} : Rx).run exampleEnv [.init] with
  | .ok h1, .ok s =>
    (match h1.run 4 (lateMore m) with
    | .ok h =>
      let ts := exactTimes none seen [1000] (h.out.drop h1.out.length)
      decide (s.serviceMode = false ∧ s.deque = [] ∧ s.link.state = .preamble ∧ s.link.bitCount = 0 ∧
        h.acc.map (fun a => Except.ok a.2) = lateCommands.map Command.packet) &&
      decide (Measured (crossings none seen [1000] (h.out.drop h1.out.length)) ts) &&
      (match s.run exampleEnv (polled (ts.map (·, 0, 0, 0))) with
      | .ok s' => p h1 h s s'
      | .error _ => false)
    | _ => false)
  | _, _ => false

example : ∀ c ∈ lateCommands, c.Legal := by
  intro c hc
  simp only [lateCommands, List.mem_cons, List.not_mem_nil, or_false] at hc
  rcases hc with rfl | rfl
  · exact ⟨.inr (.inl ⟨rfl, by decide, by decide⟩), trivial⟩
  · exact ⟨.inr (.inl ⟨rfl, by decide, by decide⟩), trivial⟩

/-- Switched on in the first byte of the speed, or in its preamble when 14 calls are over: only the functions are
heard.  The locomotive does not run, but has its functions as all the commands set them. -/
example : ∀ k ∈ [(150, true), (150, false), (109, true)],
    switchedOn k.1 (309 - k.1) k.2 (fun h1 h s s' =>
      decide (h1.acc.length = 1 ∧ h1.s.size 4 = 0 ∧ h.s.size 4 = 0 ∧ s'.deque = [] ∧
        drivingCalls s s' = [lateCommands[1]].flatMap (Command.calls s)) &&
      decide (∀ x ∈ [Setting.function 0, .function 3, .function 4],
        finalOf s'.trace x = lastSet (Command.sets s) lateCommands x) &&
      decide (finalOf s'.trace .speed = none)) = true := by decide +kernel

/-- Switched on one call before that, with either polarity, or while the packet before is sent: everything is heard.  So
the 14 calls of `C108_arrivals` are exact. -/
example : ∀ k ∈ [(108, true), (108, false), (92, true), (30, false), (0, true)],
    switchedOn k.1 (309 - k.1) k.2 (fun _ _ s s' =>
      decide (drivingCalls s s' = lateCommands.flatMap (Command.calls s))) = true := by decide +kernel

/-- The hypotheses of `C108_all_done`: the functions are being sent when the station gets no more commands. -/
example :
    (match ({ s := {} } : TxHist).run 4 (lateStation 150), ({} : Rx).run exampleEnv [.init] with
    | .ok h1, .ok s =>
      (match h1.run 4 (lateMore 59) with
      | .ok h0 =>
        (match h0.run 4 (List.replicate 487 .transmit) with
        | .ok h =>
          let ts := exactTimes none true [1000] (h.out.drop h1.out.length)
          decide ((h0.s.size 4 + 1) * longest + idling < 487 ∧ h1.acc.length = 1 ∧ h1.s.size 4 = 0 ∧
            h.acc.map (fun a => Except.ok a.2) = lateCommands.map Command.packet) &&
          decide (Measured (crossings none true [1000] (h.out.drop h1.out.length)) ts) &&
          (match s.run exampleEnv (polled (ts.map (·, 0, 0, 0))) with
          | .ok s' => decide (drivingCalls s s' = [lateCommands[1]].flatMap (Command.calls s) ∧
              ∀ x ∈ [Setting.function 0, .function 1, .function 3, .function 4],
                finalOf s'.trace x = lastSet (Command.sets s) lateCommands x)
          | .error _ => false)
        | _ => false)
      | _ => false)
    | _, _ => false) = true := by decide +kernel

end Dcc
