import Verif.Lemmas.RxSync
import Verif.Spec.Memory
/-!
Properties C23-C28, C30, C31 and C59: from half bits to queued packets.  `e` is the user class and
build configuration, states are those reached by any sequence of public calls (`Reachable`).
-/
namespace Dcc
open Spec (recvOps recvTimes NeverFull arrivals executed exampleEnv holdsAfter)

/-! ### C23 -/

/-- **C23** Feeding the half bits of any valid packet, sent with any accepted configuration, to a
receiver that waits for a preamble and has room in its queue appends exactly this packet, sets
`packetEnd()` and the received address and leaves the receiver waiting for a preamble.  Nothing else
changes but the statistics of preambles and packets. -/
theorem C23_legal_packet_received (e : Env) (s : Rx) (hr : Reachable e s)
    (hs : s.link.state = .preamble) (hroom : s.deque.length < e.rxDeque)
    (cfg : TxConfig) (hc : cfg.accepted = true) (p : Packet) (hp : ValidPacket p)
    (hl : p.head? ≠ some 254#8) (xs : List (Nat × Nat))
    (hx : bytes2timings p cfg = .ok (xs.map (·.1))) :
    ∃ l a, decodeAddress p = .ok a ∧ l.state = .preamble ∧ l.packetEnd = true ∧
      s.run e (recvOps xs) = .ok { s with
        link := l
        deque := s.deque ++ [p]
        addrs := { s.addrs with received := a }
        preambleCount := s.preambleCount + 1
        packetCount := s.packetCount + 1 } := by
  have hw : xs.map (·.1) = Spec.packetWave cfg p := by
    rw [bytes2timings_ok p cfg hp.max] at hx
    exact (Except.ok.inj hx).symm
  have hl' : isLogon p = false := by simpa [isLogon] using hl
  obtain ⟨a, ha, _⟩ := decodeAddress_three p hp.min
  refine ⟨Link.after p, a, ha, rfl, rfl, ?_⟩
  rw [recv_packet e s cfg ((accepted_iff cfg).mp hc) p hp hl' hs hr.recvInv.link hroom xs hw,
    addrOf_ok ha]

/-- A fresh receiver meets the hypotheses. -/
example : Reachable exampleEnv {} ∧ ({} : Rx).link.state = .preamble ∧
    ({} : Rx).deque.length < exampleEnv.rxDeque ∧ ({} : TxConfig).accepted = true ∧
    ValidPacket [3#8, 0x3F#8, 0x80#8, 0xBC#8] :=
  ⟨.start, rfl, by decide, by decide, ⟨by decide, by decide, by decide⟩⟩

/-! ### C24 -/

/-- **C24** A decoder waiting for a preamble gets every duration a command station transmits, in
any history of the station, with any other calls in between (except `disable()`), `receive()` never
being called with a full queue.  Then there are the packets `sent` on the track, each with its half
bits and cutout: idle packets and, in order, the packets accepted by the station (those not yet on
the track are `rest`).  What arrives in the receive queue are exactly the packets whose half bits
were all sent, in order; only logon packets are not queued. -/
theorem C24_station_to_decoder (n : Nat) (txOps : List TxOp) (h : TxHist)
    (ht : ({ s := {} } : TxHist).run n txOps = .ok h)
    (hv : ∀ a ∈ h.acc, ValidPacket a.2)
    (e : Env) (s s' : Rx) (hr : Reachable e s) (hs : s.link.state = .preamble) (ops : List RxOp)
    (ho : s.run e ops = .ok s') (hd : .disable ∉ ops) (hf : NeverFull e s ops)
    (htimes : recvTimes ops = h.out.map (·.duration)) :
    ∃ (sent : List (Spec.Segment × Packet)) (rest : List Packet),
      h.out = sent.flatMap (fun g => g.1.outs) ∧
      (∀ g ∈ sent, g.1.Ok Spec.ValidConfig ∧
        ((g.1.frame = none ∧ g.2 = [0xFF#8, 0x00#8, 0xFF#8]) ∨
          ∃ c, (c, g.2) ∈ h.acc ∧ g.1.frame = some (Spec.packetWave c g.2))) ∧
      (∀ g ∈ sent.dropLast, g.1.halves.length = g.1.wave.length) ∧
      h.acc.map (·.2) = (sent.filter (·.1.frame.isSome)).map (·.2) ++ rest ∧
      arrivals e s ops =
        ((sent.filter fun g => g.1.halves.length == g.1.wave.length).map (·.2)).filter
          (fun p => !isLogon p) := by
  obtain ⟨gs, c, rest, l', os, hout, hok, hcomp, _, _, h2, _, h4, h5⟩ :=
    station_track n txOps h ht hv s.link (hr.recvInv.link.synced hs)
  obtain ⟨os', h6, h7⟩ := run_interleaved e ops s s' ho hd hf
  rw [htimes, h4] at h6
  cases h6
  exact ⟨gs ++ [c], rest, hout, hok, by simpa using hcomp, h2, by rw [h7, h5]⟩

/-- A history of a station with a speed packet (and the cutout) and a decoder that receives all of
it and executes meanwhile. -/
def exampleTx : List TxOp := .init { bidi := true } :: .bytes [3#8, 0x3F#8, 0x80#8, 0xBC#8] ::
  List.replicate 220 .transmit

/-- The durations of the example. -/
def exampleTimes : List Nat :=
  match ({ s := {} } : TxHist).run 4 exampleTx with
  | .ok h => h.out.map (·.duration)
  | .error _ => []

example :
    let ops := (recvOps (exampleTimes.map (·, 0))).take 100 ++ [.execute 0 0] ++
      (recvOps (exampleTimes.map (·, 0))).drop 100
    exampleTimes.length = 220 ∧ recvTimes ops = exampleTimes ∧
    holdsAfter (({} : Rx).run exampleEnv ops) (fun _ => true) = true ∧ NeverFull exampleEnv {} ops ∧
    arrivals exampleEnv {} ops = [[0xFF#8, 0#8, 0xFF#8], [3#8, 0x3F#8, 0x80#8, 0xBC#8]] := by
  refine ⟨by decide +kernel, by decide +kernel, by decide +kernel, by decide +kernel, by decide +kernel⟩

/-! ### C25 -/

/-- **C25** Whatever is received and called in whatever order: every packet in the receive queue
has 3 to `DCC_MAX_PACKET_SIZE` bytes with exclusive-or 0. -/
theorem C25_only_valid_packets_queued (e : Env) (s : Rx) (h : Reachable e s) :
    ∀ p ∈ s.deque, 3 ≤ p.length ∧ p.length ≤ maxPacketSize ∧ exor p = 0#8 :=
  fun p hp => let v := (h.recvInv.valid p hp).1; ⟨v.min, v.max, v.sum⟩

/-! ### C26 -/

/-- **C26** From any state (in the middle of whatever) with room for one more byte in the packet
being assembled, two packets from legal transmitters are received while other calls (except
`disable()`) are made in between and the queue is never full: afterwards the receiver waits for a
preamble, and the second packet is the last one that arrived (unless it is a logon packet).  At
most two other packets arrived: a valid one completed by the first preamble and the first packet. -/
theorem C26_resync (e : Env) (s s' : Rx) (hr : Reachable e s)
    (hlen : s.link.packet.length < maxPacketSize)
    (c1 c2 : TxConfig) (h1 : c1.accepted = true) (h2 : c2.accepted = true) (p1 p2 : Packet)
    (hp1 : ValidPacket p1) (hp2 : ValidPacket p2) (ops : List RxOp) (ho : s.run e ops = .ok s')
    (hd : .disable ∉ ops) (hf : NeverFull e s ops)
    (hx : recvTimes ops = Spec.packetWave c1 p1 ++ Spec.packetWave c2 p2) :
    s'.link.state = .preamble ∧ ∃ before, before.length ≤ 2 ∧
      arrivals e s ops = before ++ if isLogon p2 then [] else [p2] := by
  obtain ⟨l1, os, os', h3, h4, h5, h6⟩ := resync s.link c1 ((accepted_iff c1).mp h1) p1 hp1
    hr.recvInv.link hlen
  have h7 := run_packet l1 c2 ((accepted_iff c2).mp h2) p2 hp2 h4.state h4.byte h4.checksum
  have h8 := Link.run_append_ok _ _ h3 h7
  obtain ⟨os2, h9, h10⟩ := run_interleaved e ops s s' ho hd hf
  rw [hx, h8] at h9
  simp only [Except.ok.injEq, Prod.mk.injEq] at h9
  obtain ⟨h9, rfl⟩ := h9
  refine ⟨by rw [← h9]; rfl, (packetsOf (os ++ os')).filter (fun p => !isLogon p), ?_, ?_⟩
  · refine Nat.le_trans (List.length_filter_le _ _) ?_
    have e1 : (packetsOf os).length ≤ 1 := by
      rcases h5 with ⟨_, h5⟩ | h5 | h5 | ⟨b, h5⟩ <;> rw [h5] <;> simp
    have e2 : (packetsOf os').length ≤ 1 := by rcases h6 with h6 | h6 <;> rw [h6] <;> simp
    simp only [packetsOf, List.filterMap_append, List.length_append] at e1 e2 ⊢
    omega
  · rw [h10]
    have : packetsOf (os ++ os' ++ [.start, .packet p2]) = packetsOf (os ++ os') ++ [p2] := by
      simp [packetsOf]
    rw [this, List.filter_append]
    cases hl : isLogon p2 <;> simp [hl]

/-- **C26** The same without faults as a hypothesis: if the packet being assembled and the two
packets are no logon packets and there is room for all of them, receiving the two packets cannot
fault, and the second one is the last in the queue. -/
theorem C26_resync_total (e : Env) (s : Rx) (hr : Reachable e s)
    (hlen : s.link.packet.length < maxPacketSize) (hlog : isLogon s.link.packet = false)
    (hroom : s.deque.length + 3 < e.rxDeque)
    (c1 c2 : TxConfig) (h1 : c1.accepted = true) (h2 : c2.accepted = true) (p1 p2 : Packet)
    (hp1 : ValidPacket p1) (hp2 : ValidPacket p2) (hl1 : isLogon p1 = false)
    (hl2 : isLogon p2 = false) (xs : List (Nat × Nat))
    (hx : xs.map (·.1) = Spec.packetWave c1 p1 ++ Spec.packetWave c2 p2) :
    ∃ s' before, s.run e (recvOps xs) = .ok s' ∧ s'.link.state = .preamble ∧
      s'.packetEnd = true ∧ before.length ≤ 2 ∧ s'.deque = s.deque ++ before ++ [p2] := by
  obtain ⟨l1, os, os', h3, h4, h5, h6⟩ := resync s.link c1 ((accepted_iff c1).mp h1) p1 hp1
    hr.recvInv.link hlen
  have h7 := run_packet l1 c2 ((accepted_iff c2).mp h2) p2 hp2 h4.state h4.byte h4.checksum
  have h8 := Link.run_append_ok _ _ h3 h7
  have hval := LinkInv.run_packets _ hr.recvInv.link h8
  have hpk : packetsOf (os ++ os' ++ [.start, .packet p2]) = packetsOf os ++ packetsOf os' ++ [p2] := by
    simp [packetsOf]
  have e1 : (packetsOf os).length ≤ 1 := by
    rcases h5 with ⟨_, h5⟩ | h5 | h5 | ⟨b, h5⟩ <;> rw [h5] <;> simp
  have e2 : (packetsOf os').length ≤ 1 := by rcases h6 with h6 | h6 <;> rw [h6] <;> simp
  have hnl : ∀ p ∈ packetsOf (os ++ os' ++ [.start, .packet p2]), isLogon p = false := by
    intro p hp
    have hv := hval p hp
    rw [hpk, List.mem_append, List.mem_append] at hp
    rcases hp with (hp | hp) | hp
    · rcases h5 with ⟨_, h5⟩ | h5 | h5 | ⟨b, h5⟩ <;> rw [h5] at hp <;> simp at hp
      · rw [hp]; exact hlog
      · have := hv.min
        rw [hp] at this ⊢
        cases hq : s.link.packet with
        | nil => rw [hq] at this; simp at this
        | cons x r =>
          rw [hq] at hlog
          simpa [isLogon] using hlog
    · rcases h6 with h6 | h6 <;> rw [h6] at hp <;> simp at hp
      rw [hp]; exact hl1
    · simp at hp; rw [hp]; exact hl2
  have h9 := recv_outs e xs s _ _ (by rw [hx]; exact h8) hnl (by
    rw [hpk]; simp only [List.length_append, List.length_cons, List.length_nil]; omega)
  refine ⟨_, packetsOf os ++ packetsOf os', h9, rfl, rfl, ?_, ?_⟩
  · simp only [List.length_append]; omega
  · show (s.outs _).deque = _
    rw [outs_deque, hpk]
    simp only [List.append_assoc]

/-- A receiver in the middle of a data byte meets the hypotheses. -/
example : holdsAfter (({} : Rx).run exampleEnv (recvOps (List.replicate 20 (58, 0) ++
      List.replicate 4 (100, 0) ++ List.replicate 5 (58, 0))))
    (fun s => s.link.state = .data && s.link.packet.length < maxPacketSize &&
      !isLogon s.link.packet && s.deque.length + 3 < exampleEnv.rxDeque) = true := by decide +kernel

/-! ### C27 -/

/-- **C27** The receive queue never holds more than `DCC_RX_DEQUE_SIZE` packets. -/
theorem C27_queue_bounded (e : Env) (s : Rx) (h : Reachable e s) : s.deque.length ≤ e.rxDeque :=
  h.recvInv.room

/-- **C27** While the queue is full `receive` changes nothing but the state of packet assembly. -/
theorem C27_full_adds_nothing (e : Env) (s : Rx) (time rand : Nat) (h : s.deque.length = e.rxDeque) :
    ∃ l, s.receive e time rand = .ok { s with link := l } :=
  let ⟨l, h1, _⟩ := receive_full e s time rand h
  ⟨l, h1⟩

/-- What a call does to the queue. -/
theorem step_queue (e : Env) (s s' : Rx) (hi : RecvInv e s) (op : RxOp) (h : s.step e op = .ok s') :
    s.deque ++ (if op.isReceive then s'.deque.drop s.deque.length else []) =
      (if op.isExecute && !s.packetEnd then s.deque.take 1 else []) ++ s'.deque := by
  by_cases hr : ∃ t r, op = .receive t r
  · obtain ⟨t, r, rfl⟩ := hr
    have h : s.receive e t r = .ok s' := h
    simp only [RxOp.isReceive, RxOp.isExecute, if_true, Bool.false_and, Bool.false_eq_true, if_false,
      List.nil_append]
    by_cases hf : s.deque.length = e.rxDeque
    · obtain ⟨l, h1, _⟩ := receive_full e s t r hf
      rw [h] at h1
      cases h1
      simp
    · obtain ⟨out, _, h2⟩ := receive_spec e s s' t r h (Nat.lt_of_le_of_ne hi.room hf)
      rw [h2.deque.2]
      simp
  · have hnr : op.isReceive = false := by
      cases op <;> first | rfl | exact absurd ⟨_, _, rfl⟩ hr
    rw [hnr]
    simp only [Bool.false_eq_true, if_false, List.append_nil]
    by_cases hd : op = .disable
    · subst hd
      rw [(step_disable e s s' h).2]
      simp [RxOp.isExecute]
    · rw [(step_other e s s' op h (fun t r ho => hr ⟨t, r, ho⟩) hd).2]
      split
      · exact (List.take_append_drop 1 s.deque).symm
      · rfl

/-- **C27** First in, first out: in any sequence of calls the packets in the queue at the start
followed by those that arrive are the packets handled by `execute`, in order, followed by those
still in the queue. -/
theorem C27_fifo (e : Env) (ops : List RxOp) : ∀ (s s' : Rx), Reachable e s → s.run e ops = .ok s' →
    s.deque ++ arrivals e s ops = executed e s ops ++ s'.deque := by
  induction ops with
  | nil => intro s s' _ h; cases h; simp [arrivals, executed]
  | cons op ops ih =>
    intro s s' hr h
    rw [Rx.run, bind_eq_ok] at h
    obtain ⟨s1, h1, h2⟩ := h
    have h3 := ih s1 s' (hr.step op h1) h2
    have h4 := step_queue e s s1 hr.recvInv op h1
    simp only [arrivals, executed, h1]
    rw [← List.append_assoc, h4, List.append_assoc, h3, List.append_assoc]

/-- Both lists of `C27_fifo` are not trivial: a packet is received, the receiver gets one more half
bit and executes it. -/
example :
    let ops := recvOps ((Spec.packetWave {} [0xFF#8, 0#8, 0xFF#8] ++ [58]).map (·, 0)) ++ [.execute 0 0]
    holdsAfter (({} : Rx).run exampleEnv ops) (fun s => s.deque.isEmpty) = true ∧
    arrivals exampleEnv {} ops = [[0xFF#8, 0#8, 0xFF#8]] ∧
    executed exampleEnv {} ops = [[0xFF#8, 0#8, 0xFF#8]] := by
  refine ⟨by decide +kernel, by decide +kernel, by decide +kernel⟩

/-! ### C28 -/

/-- What `packetEnd()` says after `receive`. -/
theorem receive_packetEnd (e : Env) (s s' : Rx) (hi : RecvInv e s) (time rand : Nat)
    (h : s.receive e time rand = .ok s') :
    (s'.packetEnd = true → s'.packetCount = s.packetCount + 1 ∧ ValidPacket s'.link.packet ∧
      (isLogon s'.link.packet = false → s'.deque = s.deque ++ [s'.link.packet]) ∧
      (isLogon s'.link.packet = true → s'.deque = s.deque)) ∧
    (s'.packetEnd = false → s'.packetCount = s.packetCount ∧ s'.deque = s.deque) := by
  by_cases hf : s.deque.length = e.rxDeque
  · obtain ⟨l, h1, h2, _⟩ := receive_full e s time rand hf
    rw [h] at h1
    cases h1
    refine ⟨fun hp => ?_, fun _ => ⟨rfl, rfl⟩⟩
    have : l.packetEnd = true := hp
    rw [h2] at this
    cases this
  · obtain ⟨out, h1, h2⟩ := receive_spec e s s' time rand h (Nat.lt_of_le_of_ne hi.room hf)
    obtain ⟨_, h3, h4⟩ := hi.link.step h1
    have hpe : s'.packetEnd = s'.link.packetEnd := rfl
    rcases out with _ | (_ | p | _)
    · have : s'.link.packetEnd = false := Bool.eq_false_iff.mpr fun hp => by
        obtain ⟨p, hp⟩ := h4 hp; cases hp
      have h2 : s' = _ := h2
      rw [hpe, this, h2]
      exact ⟨nofun, fun _ => ⟨rfl, rfl⟩⟩
    · have : s'.link.packetEnd = false := Bool.eq_false_iff.mpr fun hp => by
        obtain ⟨p, hp⟩ := h4 hp; cases hp
      have h2 : s' = _ := h2
      rw [hpe, this, h2]
      exact ⟨nofun, fun _ => ⟨rfl, rfl⟩⟩
    · obtain ⟨hv, b, hb⟩ := h3 p rfl
      have he : s'.link.packetEnd = true := by rw [hb]; rfl
      have hpk : s'.link.packet = p := by rw [hb]; rfl
      rw [hpe, he, hpk]
      refine ⟨fun _ => ⟨?_, hv, ?_, ?_⟩, nofun⟩
      · obtain ⟨a, _, h5⟩ := h2
        split at h5
        · exact h5.packetCount
        · rw [h5]
      · intro hl
        rw [h2.deque.2]
        simp [queued, hl]
      · intro hl
        rw [h2.deque.2]
        simp [queued, hl]
    · have : s'.link.packetEnd = false := Bool.eq_false_iff.mpr fun hp => by
        obtain ⟨p, hp⟩ := h4 hp; cases hp
      have h2 : s' = _ := h2
      rw [hpe, this, h2]
      exact ⟨nofun, fun _ => ⟨rfl, rfl⟩⟩

/-- **C28** After `receive`, `packetEnd()` is true exactly if this call completed a valid packet:
it was added to the queue, or it is a logon packet, which is handled at once.  (`packetCount` counts
completed packets.) -/
theorem C28_packet_end (e : Env) (s s' : Rx) (hr : Reachable e s) (time rand : Nat)
    (h : s.receive e time rand = .ok s') :
    (s'.packetEnd = true → s'.packetCount = s.packetCount + 1 ∧ ValidPacket s'.link.packet ∧
      (isLogon s'.link.packet = false → s'.deque = s.deque ++ [s'.link.packet]) ∧
      (isLogon s'.link.packet = true → s'.deque = s.deque)) ∧
    (s'.packetEnd = false → s'.packetCount = s.packetCount ∧ s'.deque = s.deque) :=
  receive_packetEnd e s s' hr.recvInv time rand h

/-- **C28** No other call changes `packetEnd()`. -/
theorem C28_packet_end_kept (e : Env) (s s' : Rx) (op : RxOp) (h : s.step e op = .ok s')
    (hr : ∀ t r, op ≠ .receive t r) : s'.packetEnd = s.packetEnd := by
  by_cases hd : op = .disable
  · subst hd
    rcases (step_disable e s s' h).1 with h1 | h1 <;> simp [Rx.packetEnd, h1, Link.reset]
  · simp [Rx.packetEnd, (step_other e s s' op h hr hd).1]

/-- **C28** While `packetEnd()` is true `execute` returns false and does nothing. -/
theorem C28_packet_end_blocks (e : Env) (s : Rx) (now : Int) (rand : Nat) (h : s.packetEnd = true) :
    s.execute e now rand = .ok (s, false) := by
  simp [Rx.execute, h]

/-- **C28** At every half bit before the last one of a packet `packetEnd()` is false, at the last
one it is true. -/
theorem C28_packet_end_timing (e : Env) (s : Rx) (hr : Reachable e s)
    (hs : s.link.state = .preamble) (hroom : s.deque.length < e.rxDeque)
    (cfg : TxConfig) (hc : cfg.accepted = true) (p : Packet) (hp : ValidPacket p)
    (hl : isLogon p = false) (k : Nat) (hk : 0 < k) (xs : List (Nat × Nat))
    (hx : xs.map (·.1) = (Spec.packetWave cfg p).take k) :
    ∃ s', s.run e (recvOps xs) = .ok s' ∧
      (s'.packetEnd = true ↔ (Spec.packetWave cfg p).length ≤ k) := by
  have hcfg := (accepted_iff cfg).mp hc
  by_cases hlen : (Spec.packetWave cfg p).length ≤ k
  · rw [List.take_of_length_le hlen] at hx
    refine ⟨_, recv_packet e s cfg hcfg p hp hl hs hr.recvInv.link hroom xs hx, ?_⟩
    simp [Rx.packetEnd, Link.after, hlen]
  · have hsy := hr.recvInv.link.synced hs
    obtain ⟨w, hw, h1⟩ := run_packet_init s.link cfg hcfg p hp hsy.state hsy.byte hsy.checksum
    have hwl : k ≤ w.length := by
      rw [hw] at hlen
      simp only [List.length_append, List.length_cons, List.length_nil] at hlen
      omega
    rw [hw, List.take_append_of_le_length hwl] at hx
    rw [← List.take_append_drop k w] at h1
    obtain ⟨l2, q1, q2, h3, _, h4⟩ := Link.run_prefix _ _ h1
    have h5 : packetsOf [LinkOut.start] = packetsOf q1 ++ packetsOf q2 := by rw [h4]; simp [packetsOf]
    have h6 : packetsOf [LinkOut.start] = [] := rfl
    rw [h6] at h5
    have h7 : packetsOf q1 = [] := (List.append_eq_nil_iff.mp h5.symm).1
    have h8 := recv_outs e xs s l2 q1 (by rw [hx]; exact h3) (by simp [h7]) (by simp [h7]; exact hroom)
    refine ⟨_, h8, ?_⟩
    simp only [hlen, iff_false]
    intro hpe
    have hpe : l2.packetEnd = true := hpe
    have hne : w.take k ≠ [] := by
      intro hn
      have := congrArg List.length hn
      rw [List.length_take, List.length_nil] at this
      omega
    obtain ⟨p', hp'⟩ := Link.run_packetEnd _ hne hr.recvInv.link h3 hpe
    rw [h7] at hp'
    cases hp'

/-! ### C30 -/

/-- **C30** Negation: nineteen bytes in a row (of any value, sent with any accepted configuration)
overflow the packet buffer of a receiver that waits for a preamble.  The packet buffer is
`std`-like storage of 18 bytes without check in release builds. -/
theorem C30_no_overflow_false (e : Env) (s : Rx) (hr : Reachable e s)
    (hs : s.link.state = .preamble) (hroom : s.deque.length < e.rxDeque)
    (cfg : TxConfig) (hc : cfg.accepted = true) (bs : List Byte) (hb : maxPacketSize < bs.length)
    (xs : List (Nat × Nat)) (hx : xs.map (·.1) = Spec.packetWave cfg bs) :
    s.run e (recvOps xs) = .error .overflow := by
  have hcfg := (accepted_iff cfg).mp hc
  have hsy := hr.recvInv.link.synced hs
  obtain ⟨w, t, w', hw, l1, h1, h2⟩ := run_overflow s.link cfg hcfg bs hb hsy
  rw [hw] at hx
  obtain ⟨ys, zs, rfl, hy, hz⟩ := List.map_eq_append_iff.mp hx
  obtain ⟨z, zs, rfl, hz1, _⟩ := List.map_eq_cons_iff.mp hz
  have h3 := recv_outs e ys s l1 [.start] (by rw [hy]; exact h1) (by simp [packetsOf])
    (by simpa [packetsOf] using hroom)
  have h0 : recvOps (ys ++ z :: zs) = recvOps ys ++ (.receive z.1 z.2 :: recvOps zs) := by simp [recvOps]
  rw [h0, run_append e _ _ s _ h3, Rx.run]
  show (Rx.receive e _ z.1 z.2 >>= _) = _
  rw [receive_overflow e _ z.1 z.2 (by rw [hz1]; exact h2) (by
    simp only [outs_deque]; simpa [packetsOf] using hroom)]
  rfl

/-- **C30** (partial) Nothing a command station of this library sends overflows the packet buffer
or causes any other fault in `receive`, as long as the packets are valid, none is a logon packet and
`receive()` is not called with a full queue: at any point of any history (`ops` so far, any calls in
between) the call of `receive` with the next duration succeeds.  Missing: times that do not come from
such a station, for which the statement is false, and logon packets (see C54). -/
theorem C30_no_overflow_partial (n : Nat) (txOps : List TxOp) (h : TxHist)
    (ht : ({ s := {} } : TxHist).run n txOps = .ok h)
    (hv : ∀ a ∈ h.acc, ValidPacket a.2 ∧ isLogon a.2 = false)
    (e : Env) (s s' : Rx) (hr : Reachable e s) (hs : s.link.state = .preamble) (ops : List RxOp)
    (ho : s.run e ops = .ok s') (hd : .disable ∉ ops) (hf : NeverFull e s ops)
    (hroom : s'.deque.length < e.rxDeque) (time rand : Nat) (later : List Nat)
    (htimes : h.out.map (·.duration) = recvTimes ops ++ time :: later) :
    ∃ s'', s'.receive e time rand = .ok s'' := by
  obtain ⟨done, cur, i⟩ := TxInv.reachable txOps h ht
  obtain ⟨sent, rest, h1, h2, h3⟩ := name_packets (done ++ [cur]) h.acc (h.s.queue n) i.acc_eq
  have hne : sent ≠ [] := by intro hn; rw [hn] at h1; simp at h1
  obtain ⟨gs, c, rfl⟩ : ∃ gs c, sent = gs ++ [c] := ⟨_, _, (List.dropLast_concat_getLast hne).symm⟩
  rw [List.map_append, List.map_cons, List.map_nil] at h1
  obtain ⟨hg1, hg2⟩ := List.append_inj' h1 (by simp)
  have hcur : c.1 = cur := by simpa using hg2
  have hout : h.out = (gs ++ [c]).flatMap (fun g => g.1.outs) := by
    rw [i.out_eq, List.flatMap_append, List.flatMap_append, ← hg1, List.flatMap_map, hcur.symm]
    simp
  have hcomp : ∀ g ∈ gs, g.1.halves.length = g.1.wave.length := by
    intro g hg
    exact (i.done_ok g.1 (by rw [← hg1]; exact List.mem_map_of_mem hg)).2.halves
  have hnl : ∀ g ∈ gs ++ [c], isLogon g.2 = false := by
    intro g hg
    rcases h3 g hg with ⟨_, hi⟩ | ⟨cf, hm, _⟩
    · rw [hi]; rfl
    · exact (hv _ hm).2
  have hcar : ∀ g ∈ gs ++ [c], g.1.Ok Spec.ValidConfig ∧ Carries g.1 g.2 := by
    intro g hg
    constructor
    · rcases List.mem_append.mp hg with hg | hg
      · exact (i.done_ok g.1 (by rw [← hg1]; exact List.mem_map_of_mem hg)).1
      · rw [List.mem_singleton.mp hg, hcur]; exact i.cur_ok
    rcases h3 g hg with ⟨hn, hi⟩ | ⟨cf, hm, hfr⟩
    · exact ⟨{}, by simp [Spec.ValidConfig], by rw [hi]; exact idle_valid,
        by rw [hi, Spec.Segment.wave, hn]; rfl⟩
    · exact ⟨cf, (i.acc_ok _ hm).1, (hv _ hm).1, by rw [Spec.Segment.wave, hfr]; rfl⟩
  obtain ⟨l', os, h4, h5⟩ := run_segments gs c s.link (hr.recvInv.link.synced hs) hcar hcomp
  obtain ⟨os', h6, h7⟩ := run_interleaved e ops s s' ho hd hf
  rw [← hout, htimes] at h4
  obtain ⟨l3, o, qs, h8, h9⟩ := Link.run_snoc _ _ _ h6 h4
  refine receive_total e s' time rand l3 o h8 ?_ hroom
  intro p hp
  have hm : p ∈ packetsOf os := by rw [h9, hp]; simp [packetsOf]
  rw [h5] at hm
  obtain ⟨g, hg, rfl⟩ := List.mem_map.mp hm
  exact hnl g (List.mem_filter.mp hg).1

/-! ### C31 -/

/-- **C31** `time2bit` takes exactly 52..64 for a one and 90..10000 for a zero. -/
theorem C31_time2bit (t : Nat) : (time2bit t = .b1 ↔ 52 ≤ t ∧ t ≤ 64) ∧
    (time2bit t = .b0 ↔ 90 ≤ t ∧ t ≤ 10000) ∧
    (time2bit t = .invalid ↔ t < 52 ∨ 64 < t ∧ t < 90 ∨ 10000 < t) := by
  unfold time2bit
  split
  · refine ⟨?_, ?_, ?_⟩ <;> simp <;> omega
  · split
    · refine ⟨?_, ?_, ?_⟩ <;> simp <;> omega
    · refine ⟨?_, ?_, ?_⟩ <;> simp <;> omega

/-- **C31** Any other time changes nothing but `packetEnd()`, which becomes false. -/
theorem C31_invalid_time (e : Env) (s : Rx) (t rand : Nat) (h : t < 52 ∨ 64 < t ∧ t < 90 ∨ 10000 < t) :
    s.receive e t rand = .ok { s with link := { s.link with packetEnd := false } } := by
  have := (C31_time2bit t).2.2.mpr h
  simp [Rx.receive, this]

/-- **C31** The exact duration does not matter: two times of the same class have the same effect. -/
theorem C31_class_only (e : Env) (s : Rx) (t t' rand : Nat)
    (h : 52 ≤ t ∧ t ≤ 64 ∧ 52 ≤ t' ∧ t' ≤ 64 ∨ 90 ≤ t ∧ t ≤ 10000 ∧ 90 ≤ t' ∧ t' ≤ 10000) :
    s.receive e t rand = s.receive e t' rand := by
  have : time2bit t = time2bit t' := by
    rcases h with h | h
    · rw [(C31_time2bit t).1.mpr ⟨h.1, h.2.1⟩, (C31_time2bit t').1.mpr h.2.2]
    · rw [(C31_time2bit t).2.1.mpr ⟨h.1, h.2.1⟩, (C31_time2bit t').2.1.mpr h.2.2]
  simp only [Rx.receive, this]

/-! ### C59 -/

/-- **C59** Negation: a disabled receiver receives any packet just like an enabled one. -/
theorem C59_disable_stops_reception_false (e : Env) (s : Rx) (hr : Reachable e s)
    (hroom : s.deque.length < e.rxDeque) (hs : s.enabled = true)
    (cfg : TxConfig) (hc : cfg.accepted = true) (p : Packet) (hp : ValidPacket p)
    (hl : isLogon p = false) (xs : List (Nat × Nat)) (hx : xs.map (·.1) = Spec.packetWave cfg p) :
    ∃ s', s.run e (.disable :: recvOps xs) = .ok s' ∧ s'.enabled = false ∧
      s'.deque = s.deque ++ [p] ∧ s'.packetEnd = true := by
  have h1 : s.step e .disable = .ok { s with enabled := false, link := s.link.reset } := by
    simp [Rx.step, Rx.disable, hs, Rx.reset]
  have h2 := recv_packet e { s with enabled := false, link := s.link.reset } cfg
    ((accepted_iff cfg).mp hc) p hp hl rfl hr.recvInv.link.reset hroom xs hx
  refine ⟨_, by rw [Rx.run, h1, ok_bind, h2], rfl, rfl, rfl⟩

/-- **C59** (partial) What `disable()` does: an enabled receiver drops the packet it is assembling
and waits for a preamble; queue, configuration and everything else stay; on a disabled receiver it
does nothing, and it never calls the user.  Missing: stopping the reception. -/
theorem C59_disable_partial (s : Rx) :
    (s.enabled = true → ∃ l, s.disable = { s with enabled := false, link := l } ∧
      l.state = .preamble ∧ l.bitCount = 0) ∧
    (s.enabled = false → s.disable = s) := by
  constructor
  · intro h
    exact ⟨s.link.reset, by simp [Rx.disable, h, Rx.reset], rfl, rfl⟩
  · intro h
    simp [Rx.disable, h]

example : ∃ s, ({} : Rx).run exampleEnv [.enable] = .ok s ∧ s.enabled = true ∧
    s.deque.length < exampleEnv.rxDeque := ⟨_, rfl, rfl, by decide⟩

end Dcc
