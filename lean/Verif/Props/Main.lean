import Verif.Lemmas.RxMainTalk
import Verif.Props.Programming
/-! Programming on the main and the answers in channel 2: C80. -/
namespace Dcc
open Spec

/-! ### C80: what the decoder does about CV accesses on the main, and what it answers -/

/-- **C80** A decoder outside service mode whose class is a memory of CVs, with no value waiting to be
transmitted.  Anything except `init`, `disable` and the callbacks may be called in any order, `receive`
never meets a full queue, and no logon packet is received.  If the packets executed neither enter service
mode nor are consist control or CV accesses in the short form, the CVs are those of the abstract device,
and what a command station understands in the cutouts after CV accesses is what that device answers. -/
theorem C80_history_partial (e : Env) (m : BitVec 32 → Byte) (hm : Memory e m) (s s' : Rx)
    (hr : Reachable e s) (hs : Settled m s) (hmode : s.serviceMode = false) (hq : s.q.pom = [])
    (ops : List RxOp) (hi : .init ∉ ops) (hd : .disable ∉ ops) (hcb : ∀ i v, .callbackByte i v ∉ ops)
    (hcb' : ∀ i v, .callbackBit i v ∉ ops) (hf : NeverFull e s ops) (h : s.run e ops = .ok s')
    (hl : ∀ l os, s.link.run (recvTimes ops) = .ok (l, os) → ∀ p ∈ packetsOf os, isLogon p = false)
    (hon : ∀ p ∈ executed e s ops, OnMain p) :
    mem m s'.trace = ((mainDeviceOf m s).run (mainSteps e s ops)).1.cvs ∧
      (sent (inChannel2 .cv) e s ops).map understood =
        ((mainDeviceOf m s).run (mainSteps e s ops)).2.map some := by
  obtain ⟨h1, -, -, h2⟩ := main_run hm ops s s' (mainDeviceOf m s) hr hs hmode ⟨rfl, rfl, by rw [hq]; rfl⟩
    hi hd hcb hcb' hf h hl hon
  exact ⟨h1.cvs, h2⟩

/-- **C80** A command station that leaves a cutout after every packet: each round, the decoder receives a
packet, transmits in the cutout, and executes the packet with the next half bit. -/
theorem C80_rounds_partial (e : Env) (m : BitVec 32 → Byte) (hm : Memory e m) (s s' : Rx)
    (hr : Reachable e s) (hs : Settled m s) (hready : Ready e s) (hq : s.q.pom = []) (rs : List Round)
    (hl : ∀ r ∈ rs, r.Legal) (h : s.run e (rs.flatMap Round.ops) = .ok s') :
    mem m s'.trace = ((mainDeviceOf m s).hearAll (rs.map (·.packet))).1.cvs ∧
      (sent (inChannel2 .cv) e s (rs.flatMap Round.ops)).map understood =
        ((mainDeviceOf m s).hearAll (rs.map (·.packet))).2.map some := by
  obtain ⟨h1, -, -, h2⟩ := main_rounds hm rs s s' (mainDeviceOf m s) hr hs hready ⟨rfl, rfl, by rw [hq]; rfl⟩ hl h
  exact ⟨h1.cvs, h2⟩

/-- **C80** What the abstract device does about requests to it: reads are answered with the content of the
CV, writes with the value written, each after an ACK, and the CVs are those after the writes. -/
theorem C80_requests (a : Address) (ha : LocoAddress a) (d : MainDevice) (ht : Talks d.cvs a)
    (rs : List PomRequest) (hrs : ∀ r ∈ rs, r.Legal) (hch : Changing rs)
    (hfirst : ∀ r ∈ rs.head?, .ok d.last ≠ r.packet a) (ps : List Packet)
    (hps : rs.flatMap (fun r => List.replicate r.times (r.packet a)) = ps.map .ok) :
    (d.hearAll ps).1.cvs = pomCvs d.cvs rs ∧ (d.hearAll ps).2 = pomMessages d.cvs rs :=
  hear_requests ha rs ps d hrs hch ht hfirst hps

/-- **C80** From the builders to the CVs and back to the command station: among the packets sent, the CV
accesses in the long form are those of the requests; there may be any others in between.  Then the station
reads what is in the CVs, and the CVs are those after the writes. -/
theorem C80_talk_partial (e : Env) (m : BitVec 32 → Byte) (hm : Memory e m) (s s' : Rx)
    (hr : Reachable e s) (hs : Settled m s) (hready : Ready e s) (hq : s.q.pom = [])
    (a : Address) (ha : LocoAddress a) (ht : Talks (mem m s.trace) a)
    (reqs : List PomRequest) (hreqs : ∀ r ∈ reqs, r.Legal) (hch : Changing reqs)
    (hfirst : ∀ r ∈ reqs.head?, .ok s.lastOwnCvPacket ≠ r.packet a) (rs : List Round) (hl : ∀ r ∈ rs, r.Legal)
    (hps : reqs.flatMap (fun r => List.replicate r.times (r.packet a)) =
      ((rs.map (·.packet)).filter isPom).map .ok)
    (h : s.run e (rs.flatMap Round.ops) = .ok s') :
    mem m s'.trace = pomCvs (mem m s.trace) reqs ∧
      (sent (inChannel2 .cv) e s (rs.flatMap Round.ops)).map understood =
        (pomMessages (mem m s.trace) reqs).map some := by
  obtain ⟨h1, h2⟩ := C80_rounds_partial e m hm s s' hr hs hready hq rs hl h
  rw [MainDevice.hearAll_filter] at h1 h2
  obtain ⟨h3, h4⟩ := C80_requests a ha (mainDeviceOf m s) ht reqs hreqs hch hfirst _ hps
  exact ⟨h1.trans h3, h2.trans (by rw [h4]; rfl)⟩

/-- **C80** The packets of a request: there is one for every access, it is valid, and it tells the accesses
apart. -/
theorem C80_packets (a : Address) (ha : LocoAddress a) (k : Kind) (x : Access) (hx : x.Legal) :
    ∃ p, (pomCall k x).run a = .ok p ∧ ValidPacket p ∧ isLogon p = false ∧ isPom p = true ∧ OnMain p ∧
      ∀ k' x', x'.Legal → (pomCall k' x').run a = .ok p → (k, x) = (k', x') := by
  obtain ⟨p, hp⟩ := pom_some ha k x
  obtain ⟨h1, h2, h3, h4, h5, h6, -⟩ := pom_packet ha k x hx hp
  exact ⟨p, hp, by assumption, by assumption, by unfold isPom; simp [h1, h2], by assumption,
    fun k' x' hx' hp' => pom_injective ha hx hx' hp hp'⟩

/-! ### C80: examples -/

/-- Read CV1, write 5 to CV3, read it, and write a bit of it. -/
def mainRequests : List PomRequest :=
  [⟨.verify, .byte 0 0#8, 2⟩, ⟨.write, .byte 2 5#8, 3⟩, ⟨.verify, .byte 2 0#8, 3⟩, ⟨.write, .bit 2 true 1, 4⟩]

/-- The packets, with an idle packet and a speed command in between. -/
def mainPackets : List Packet :=
  (mainRequests.flatMap fun r =>
    ([0xFF#8, 0x00#8, 0xFF#8] :: List.replicate r.times (((r.packet ⟨3#16, .short, false⟩).toOption).getD [])) ++
      [[0x03#8, 0x74#8, 0x77#8]])

/-- The rounds. -/
def mainRounds : List Round :=
  mainPackets.map fun p => ⟨p, (((bytes2timings p {}).toOption).getD []).map fun t => (t, 0), (58, 0), 0, 0⟩

/-- The answers. -/
def mainMessages : List Message :=
  [.ack, .value 3#8, .ack, .value 5#8, .ack, .value 5#8, .value 5#8, .ack, .value 1#8]

example : pomMessages exampleCvs mainRequests = mainMessages ∧ Talks exampleCvs ⟨3#16, .short, false⟩ ∧
    LocoAddress ⟨3#16, .short, false⟩ ∧ Changing mainRequests ∧ (∀ r ∈ mainRequests, r.Legal) := by
  refine ⟨by decide +kernel, ⟨by decide +kernel, .inl rfl, by decide +kernel, by decide +kernel, by decide +kernel⟩,
    by unfold LocoAddress; decide, by simp [mainRequests, Changing], ?_⟩
  intro r hr
  simp only [mainRequests, List.mem_cons, List.not_mem_nil, or_false] at hr
  rcases hr with rfl | rfl | rfl | rfl
  · exact ⟨show 0 < 1024 by decide, by decide, by simp⟩
  · exact ⟨show 2 < 1024 by decide, by decide, fun _ => by decide +kernel⟩
  · exact ⟨show 2 < 1024 by decide, by decide, by simp⟩
  · exact ⟨show 2 < 1024 ∧ 1 < 8 by decide, by decide, fun _ => by decide +kernel⟩

/-- The rounds are legal, and the CV accesses among the packets are those of the requests. -/
example : (∀ r ∈ mainRounds, r.Legal) ∧
    mainRequests.flatMap (fun r => List.replicate r.times (r.packet ⟨3#16, .short, false⟩)) =
      ((mainRounds.map (·.packet)).filter isPom).map .ok := by
  refine ⟨?_, by decide +kernel⟩
  have hpk : ∀ p ∈ mainPackets, p ∈ mainPackets.take 2 ++ [[0x03#8, 0x74#8, 0x77#8]] ++
      (mainRequests.drop 1).map fun r => ((r.packet ⟨3#16, .short, false⟩).toOption).getD [] := by decide +kernel
  have hall : ∀ p ∈ mainPackets.take 2 ++ [[0x03#8, 0x74#8, 0x77#8]] ++
      ((mainRequests.drop 1).map fun r => ((r.packet ⟨3#16, .short, false⟩).toOption).getD []),
      (3 ≤ p.length ∧ p.length ≤ maxPacketSize ∧ exor p = 0#8) ∧ isLogon p = false ∧
        bytes2timings p {} = .ok (((bytes2timings p {}).toOption).getD []) ∧
        (locoNumber p = none ∨ (locoNumber p).getD 1 ≠ 0 ∧ ((afterAddress p).head?.all fun b => decide (¬ (16 ≤ b.toNat ∧ b.toNat < 32) ∧
          b.toNat < 240 ∧ (224 ≤ b.toNat → 3 ≤ (afterAddress p).length))) = true) := by
    decide +kernel
  intro r hr
  obtain ⟨p, hp, rfl⟩ := List.mem_map.mp hr
  obtain ⟨h1, h2, h3, h4⟩ := hall p (hpk p hp)
  refine ⟨⟨h1.1, h1.2.1, h1.2.2⟩, h2, fun n hn b hb => ?_, {}, by decide, ?_⟩
  · rw [hn] at h4
    rcases h4 with h4 | ⟨h4, h5⟩
    · cases h4
    rw [hb] at h5
    exact ⟨fun h => h4 h.1, of_decide_eq_true h5⟩
  · rw [List.map_map]
    exact h3.trans (by rw [show ((fun x : Nat × Nat => x.1) ∘ fun t => (t, 0)) = id from rfl, List.map_id])

example :
    (match ({} : Rx).run exampleEnv [.init] with
    | .ok s => decide (s.serviceMode = false ∧ s.deque = [] ∧ s.link.state = .preamble ∧ s.q.pom = [] ∧
        s.lastOwnCvPacket = []) &&
      (match s.run exampleEnv (mainRounds.flatMap Round.ops) with
      | .ok s' => decide ((sent (inChannel2 .cv) exampleEnv s (mainRounds.flatMap Round.ops)).map understood =
          mainMessages.map some ∧ mem exampleCvs s'.trace 2#32 = 7#8)
      | .error _ => false)
    | .error _ => false) = true := by decide +kernel

end Dcc
