import Verif.Lemmas.RxAttend
import Verif.Lemmas.RxTalk
import Verif.Props.DecoderTrack
import Verif.Props.Main
/-! A command station and a decoder whose program attends to the track: C103. -/
namespace Dcc
open Spec

private theorem ended {m : BitVec 32 → Byte} {d : Decoder} {s : Rx} {due : Bool} {pend : Option Packet}
    (h : At m d s due pend) : Ended m d s pend.toList (said d due pend) := by
  cases h with
  | idle _ _ h => exact .inl ⟨rfl, rfl, decoder_is h⟩
  | due p _ _ _ _ _ h => exact .inr ⟨p, rfl, .inl ⟨rfl, decoder_is h⟩⟩
  | answered p _ h => exact .inr ⟨p, rfl, .inr ⟨rfl, decoder_is h⟩⟩

/-- The track signal of a station that accepted these packets, as a link hears it. -/
private theorem heard_all {n : Nat} {cfg : TxConfig} {txOps : List TxOp} {h : TxHist}
    (ht : ({ s := {} } : TxHist).run n (.init cfg :: txOps) = .ok h)
    (hinv : ∀ c, .init c ∈ txOps → c.invert = cfg.invert)
    (hv : ∀ a ∈ h.acc, ValidPacket a.2 ∧ isLogon a.2 = false)
    {e : Env} {s : Rx} (hr : Reachable e s) (hw : s.link.state = .preamble) (hb : s.link.bitCount ≤ 18)
    {off : Option Bool} {seen : Bool} {before ts : List Nat} (htimes : Measured (crossings off seen before h.out) ts) :
    ∃ (sent : List (Option Packet)) (unsent : List Packet) (l : Link) (os : List LinkOut),
      s.link.run ts = .ok (l, os) ∧ sent.map (·.getD idleBytes) = packetsOf os ∧
      h.acc.map (·.2) = sent.filterMap id ++ unsent ∧
      (unsent.length = h.s.size n ∨ unsent.length = h.s.size n + 1 ∧ h.s.bidiCount = 0) ∧
      ∀ p ∈ packetsOf os, isLogon p = false := by
  obtain ⟨sent, unsent, l', os, h1, h2, h3, h4⟩ := heard_sent (fun p => (.ok p : R Packet)) n cfg txOps h ht hinv
    (h.acc.map (·.2)) (by
      intro c hc p hp
      obtain ⟨a, ha, rfl⟩ := List.mem_map.mp hc
      cases hp
      exact (hv a ha).1) (by rw [List.map_map]; rfl) off seen before _ htimes s.link (hr.recvInv.link.synced hw) hb
  have h2 := sent_all h2
  have hn := no_logon h3 (by
    intro p hp
    obtain ⟨a, ha, rfl⟩ := List.mem_map.mp hp
    exact (hv a ha).2)
  rw [h2] at hn
  exact ⟨sent, unsent, l', os, h1, h2, h3, h4, hn⟩

/-- **C103** A command station and a decoder with bidirectional communication, over the track signal with the
times the decoder measures, without a fault as a hypothesis.  The station has accepted any valid packets except
those of automatic logon.  The program of the decoder attends to the track: channel 2 is called once after
each packet, each packet is executed in time; anything else may be called, `disable` apart.  Then every packet
sent has been heard the way the abstract decoder does: first its cutout, then its execution; either the calls
and the messages are those of the abstract decoder, or executing one of the packets is a fault of it, and that
is the fault. -/
theorem C103_conversation (n : Nat) (cfg : TxConfig) (txOps : List TxOp) (h : TxHist)
    (ht : ({ s := {} } : TxHist).run n (.init cfg :: txOps) = .ok h)
    (hinv : ∀ c, .init c ∈ txOps → c.invert = cfg.invert)
    (hv : ∀ a ∈ h.acc, ValidPacket a.2 ∧ isLogon a.2 = false)
    (e : Env) (hroom : 2 ≤ e.rxDeque) (m : BitVec 32 → Byte) (hm : Memory e m) (s : Rx) (hr : Reachable e s)
    (hs : Settled m s) (d : Decoder) (hd : IsDecoder m s d) (hdq : s.deque = []) (hw : s.link.state = .preamble)
    (hpe : s.packetEnd = false) (hb : s.link.bitCount ≤ 18) (htp : s.tosTp ≤ s.lastPacketTp) (ops : List RxOp)
    (hatt : Attends e false s ops) (hc : ClockForward s.lastPacketTp ops)
    (off : Option Bool) (seen : Bool) (before : List Nat)
    (htimes : Measured (crossings off seen before h.out) (recvTimes ops)) :
    ∃ (sent : List (Option Packet)) (unsent done waiting : List Packet),
      h.acc.map (·.2) = sent.filterMap id ++ unsent ∧
      (unsent.length = h.s.size n ∨ unsent.length = h.s.size n + 1 ∧ h.s.bidiCount = 0) ∧
      sent.map (·.getD idleBytes) = done ++ waiting ∧
      match d.hearAll e.eastWest done with
      | none => s.run e ops = .error .oob
      | some (d', calls, messages) => ∃ s' late, s.run e ops = .ok s' ∧ sessionCalls s s' = calls ∧
          (Spec.sent (inChannel2 .cv) e s ops).map understood = (messages ++ late).map some ∧
          Ended m d' s' waiting late := by
  obtain ⟨sent, unsent, l', os, h1, h2, h3, h4, hn⟩ := heard_all ht hinv hv hr hw hb htimes
  have hat : At m d s false none := .idle hdq hpe (is_decoder hm hr hs hd)
  cases ho : s.run e ops with
  | error f =>
    obtain ⟨rfl, done, waiting, g1, g2⟩ := attended_fault hm hroom hr hs hat hatt ho h1 hn htp hc
    have g1 : packetsOf os = done ++ waiting := g1
    rw [← h2] at g1
    refine ⟨sent, unsent, done, waiting, h3, h4, g1, ?_⟩
    rw [g2]
  | ok s' =>
    obtain ⟨d', due', pend', done, calls, ms, msgs, w1, w2, -, -, w3, -⟩ := attended_run hm hroom ops s s' d false none
      l' os hr hs hat hatt ho h1 hn
    have g1 : packetsOf os = done ++ pend'.toList := w1.packets
    rw [← h2] at g1
    refine ⟨sent, unsent, done, pend'.toList, h3, h4, g1, ?_⟩
    rw [w1.hears]
    have hsaid : msgs = ms ++ said d' due' pend' := w1.said
    exact ⟨s', said d' due' pend', rfl, w1.calls, by rw [w3, hsaid], ended w2⟩

/-- The idle packet is none for a locomotive. -/
private theorem idle_proper (a : Address) : Proper a idleBytes ∧ pomTo a idleBytes = false := by
  have h1 : locoNumber idleBytes = none := by decide +kernel
  have h2 : pomTo a idleBytes = false := by unfold pomTo; rw [h1]; simp
  refine ⟨⟨fun n hn => ?_, fun h => (h h1).elim, fun h => ?_⟩, h2⟩
  · rw [h1] at hn; cases hn
  · rw [h2] at h; cases h

/-- **C103** Programming on the main from the builders to the CVs and back to the station, over the track
signal.  Among the packets accepted, the CV accesses in the long form to the address of the decoder and to all
are those of the requests; there may be any others in between that have their bytes, do not enter service mode
and are no consist control and no CV access in the short form.  Then there is no fault, the station never
hears anything but the answers to the requests in their order, and when all packets are sent and executed it has
heard all of them and the CVs are those after the writes. -/
theorem C103_programming (n : Nat) (cfg : TxConfig) (txOps : List TxOp) (h : TxHist)
    (ht : ({ s := {} } : TxHist).run n (.init cfg :: txOps) = .ok h)
    (hinv : ∀ c, .init c ∈ txOps → c.invert = cfg.invert)
    (hv : ∀ p ∈ h.acc, ValidPacket p.2 ∧ isLogon p.2 = false ∧ OnMain p.2 ∧ (locoNumber p.2 ≠ none → LongEnough p.2))
    (e : Env) (hroom : 2 ≤ e.rxDeque) (m : BitVec 32 → Byte) (hm : Memory e m) (s : Rx) (hr : Reachable e s)
    (hs : Settled m s) (hsm : s.serviceMode = false) (hdq : s.deque = [])
    (hw : s.link.state = .preamble) (hpe : s.packetEnd = false) (hb : s.link.bitCount ≤ 18)
    (htp : s.tosTp ≤ s.lastPacketTp) (d : Decoder) (hd : IsDecoder m s d)
    (a : Address) (ha : LocoAddress a) (htalk : Talks (mem m s.trace) a)
    (reqs : List PomRequest) (hreqs : ∀ r ∈ reqs, r.Legal) (hch : Changing reqs)
    (hfirst : ∀ r ∈ reqs.head?, .ok s.lastOwnCvPacket ≠ r.packet a)
    (hps : reqs.flatMap (fun r => List.replicate r.times (r.packet a)) =
      ((h.acc.map (·.2)).filter (pomTo a)).map .ok) (ops : List RxOp)
    (hatt : Attends e false s ops) (hc : ClockForward s.lastPacketTp ops)
    (off : Option Bool) (seen : Bool) (before : List Nat)
    (htimes : Measured (crossings off seen before h.out) (recvTimes ops)) :
    ∃ s' heard, s.run e ops = .ok s' ∧
      (Spec.sent (inChannel2 .cv) e s ops).map understood = heard.map some ∧
      heard <+: pomMessages (mem m s.trace) reqs ∧
      ∃ (sent : List (Option Packet)) (unsent done waiting : List Packet),
        h.acc.map (·.2) = sent.filterMap id ++ unsent ∧
        (unsent.length = h.s.size n ∨ unsent.length = h.s.size n + 1 ∧ h.s.bidiCount = 0) ∧
        sent.map (·.getD idleBytes) = done ++ waiting ∧ waiting.length ≤ 1 ∧
        (unsent = [] → waiting = [] →
          heard = pomMessages (mem m s.trace) reqs ∧ mem m s'.trace = pomCvs (mem m s.trace) reqs) := by
  obtain ⟨sent, unsent, done, waiting, h1, h2, h3, h4⟩ := C103_conversation n cfg txOps h ht hinv
    (fun p hp => ⟨(hv p hp).1, (hv p hp).2.1⟩) e hroom m hm s hr hs d hd hdq hw hpe hb htp ops hatt hc off seen before
    htimes
  have hds : d.service = false := hd.service ▸ hsm
  have htalk' : Talks d.cvs a := by rw [← hd.cvs]; exact htalk
  have hacc : ∀ p ∈ h.acc.map (·.2), Proper a p := by
    intro p hp
    obtain ⟨q, hq, rfl⟩ := List.mem_map.mp hp
    obtain ⟨-, -, g1, g2⟩ := hv q hq
    refine ⟨g1, g2, fun hto x hx => ?_⟩
    have : (Except.ok q.2 : R Packet) ∈ ((h.acc.map (·.2)).filter (pomTo a)).map .ok :=
      List.mem_map.mpr ⟨q.2, List.mem_filter.mpr ⟨hp, hto⟩, rfl⟩
    rw [← hps] at this
    obtain ⟨r, hr1, hr2⟩ := List.mem_flatMap.mp this
    have hr3 := (List.eq_of_mem_replicate hr2).symm
    obtain ⟨-, -, g3, -⟩ := pom_packet ha r.kind r.access (hreqs r hr1).1 hr3
    rw [g3] at hx
    have hx := Option.some.inj hx
    have h6 : r.kind = .write := congrArg Prod.fst hx
    have h7 : r.access = x := congrArg Prod.snd hx
    rw [← h7]
    exact ((hreqs r hr1).2.2 h6).2
  have hsent : ∀ p ∈ sent.map (·.getD idleBytes), Proper a p := by
    intro p hp
    obtain ⟨x, hx, rfl⟩ := List.mem_map.mp hp
    cases x with
    | none => exact (idle_proper a).1
    | some q =>
      refine hacc q ?_
      rw [h1]
      exact List.mem_append_left _ (List.mem_filterMap.mpr ⟨_, hx, rfl⟩)
  have hfilter : (sent.map (·.getD idleBytes)).filter (pomTo a) = (sent.filterMap id).filter (pomTo a) := by
    clear h1 h3 hsent
    induction sent with
    | nil => rfl
    | cons x xs ih =>
      cases x with
      | none =>
        rw [List.map_cons, List.filter_cons, List.filterMap_cons]
        show (if pomTo a idleBytes = true then _ else _) = _
        rw [(idle_proper a).2, if_neg Bool.false_ne_true]
        exact ih
      | some q =>
        rw [List.map_cons, List.filterMap_cons]
        show List.filter _ (q :: _) = List.filter _ (q :: _)
        rw [List.filter_cons, List.filter_cons, ih]
  obtain ⟨g1, g2⟩ := hear_requests ha reqs _ d.onMain hreqs hch htalk'
    (by rw [show d.onMain.last = d.last from rfl, ← hd.last]; exact hfirst) hps
  rw [show d.onMain.cvs = mem m s.trace from hd.cvs.symm] at g1 g2
  rw [← hearAll_to _ d.onMain htalk' hacc] at g1 g2
  -- What is heard by then is part of what is heard in all.
  have part : ∀ ps rest, sent.map (·.getD idleBytes) = ps ++ rest →
      (d.onMain.hearAll ps).2 <+: pomMessages (mem m s.trace) reqs := by
    intro ps rest hrest
    have hto : (d.onMain.hearAll (sent.map (·.getD idleBytes))).2 <+: pomMessages (mem m s.trace) reqs := by
      rw [hearAll_to _ d.onMain htalk' hsent, hfilter, ← g2, hearAll_to _ d.onMain htalk' hacc, h1, List.filter_append]
      exact hearAll_prefix _ _ _
    rw [hrest] at hto
    exact (hearAll_prefix _ _ _).trans hto
  obtain ⟨d', calls, k1, k2, k3, k4⟩ := hearAll_main (a := a) e.eastWest done d hds htalk' (fun p hp => hsent p (by
    rw [h3]; exact List.mem_append_left _ hp))
  rw [k1] at h4
  obtain ⟨s', late, w1, -, w3, w4⟩ := h4
  refine ⟨s', _, w1, w3, ?_, sent, unsent, done, waiting, h1, h2, h3, ?_, ?_⟩
  · rcases w4 with ⟨rfl, rfl, -⟩ | ⟨p, rfl, ⟨rfl, -⟩ | ⟨rfl, -⟩⟩
    · rw [List.append_nil]; exact part done _ h3
    · rw [List.append_nil]; exact part done _ h3
    · have := part (done ++ [p]) [] (by rw [List.append_nil]; exact h3)
      rw [MainDevice.hearAll_append, ← k2] at this
      have hh : (d'.onMain.hearAll [p]).2 = (d'.answered p).2 := by
        rw [MainDevice.hearAll, (answered_main d' p).2.2]
        exact List.append_nil _
      rw [hh] at this
      exact this
  · rcases w4 with ⟨rfl, -⟩ | ⟨p, rfl, -⟩ <;> simp
  · rintro rfl rfl
    rcases w4 with ⟨-, rfl, w5⟩ | ⟨p, hp, -⟩
    · rw [List.append_nil] at h3 h1 ⊢
      have heq : d.onMain.hearAll done = d.onMain.hearAll (h.acc.map (·.2)) := by
        rw [← h3, hearAll_to _ d.onMain htalk' hsent, hfilter, hearAll_to _ d.onMain htalk' hacc, h1]
      refine ⟨by rw [heq, g2], ?_⟩
      rw [w5.cvs, show d'.cvs = d'.onMain.cvs from rfl, k2, heq, g1]
    · cases hp

/-- **C103** A program that attends to the track: an interrupt per half bit that calls both channels in the
cutout after a packet, and a main loop that calls `execute` after each.  Its durations are those given, and the
clock goes forward if the times given do. -/
theorem C103_attending (e : Env) (hroom : 2 ≤ e.rxDeque) (s : Rx) (hr : Reachable e s) (hdq : s.deque = [])
    (xs : List (Nat × Nat × Int × Nat)) :
    Attends e false s (attending e s xs) ∧ recvTimes (attending e s xs) = xs.map (·.1) ∧
      ∀ last, ClockForward last (polled xs) → ClockForward last (attending e s xs) :=
  ⟨attending_attended e hroom xs s hr (by simp [hdq]) fun _ => hdq, attending_times e xs s,
    fun last => attending_clock e xs s last⟩

/-- Read CV1 twice and write 5 to CV3 three times. -/
def talkRequests : List PomRequest := [⟨.verify, .byte 0 0#8, 2⟩, ⟨.write, .byte 2 5#8, 3⟩]

/-- The packets of the requests to locomotive 3, with one of locomotive 4 and a speed in between. -/
def talkPackets : List Packet :=
  let r : Packet := [3#8, 0xE4#8, 0#8, 0#8, 0xE7#8]
  let w : Packet := [3#8, 0xEC#8, 2#8, 5#8, 0xE8#8]
  [r, r, [4#8, 0xE4#8, 0#8, 0#8, 0xE0#8], w, [3#8, 0x74#8, 0x77#8], w, w]

/-- The hypotheses about the requests are met. -/
example : talkRequests.flatMap (fun r => List.replicate r.times (r.packet ⟨3#16, .short, false⟩)) =
    (talkPackets.filter (pomTo ⟨3#16, .short, false⟩)).map .ok ∧
    Talks exampleCvs ⟨3#16, .short, false⟩ ∧ LocoAddress ⟨3#16, .short, false⟩ ∧ Changing talkRequests ∧
    (∀ r ∈ talkRequests, r.Legal) ∧
    (∀ p ∈ talkPackets, ValidPacket p ∧ isLogon p = false ∧ OnMain p ∧ (locoNumber p ≠ none → LongEnough p)) ∧
    pomMessages exampleCvs talkRequests = [.ack, .value 3#8, .ack, .value 5#8] := by
  refine ⟨by decide +kernel, ⟨by decide +kernel, .inl rfl, by decide +kernel, by decide +kernel, by decide +kernel⟩,
    by unfold LocoAddress; decide, by simp [talkRequests, Changing], ?_, ?_, by decide +kernel⟩
  · intro r hr
    simp only [talkRequests, List.mem_cons, List.not_mem_nil, or_false] at hr
    rcases hr with rfl | rfl
    · exact ⟨by show 0 < 1024; omega, by decide, nofun⟩
    · exact ⟨by show 2 < 1024; omega, by decide, fun _ => ⟨by decide, by decide +kernel⟩⟩
  · intro p hp
    have hon : OnMain p := by
      intro n hn b hb
      simp only [talkPackets, List.mem_cons, List.not_mem_nil, or_false] at hp
      rcases hp with rfl | rfl | rfl | rfl | rfl | rfl | rfl <;> cases hb <;> exact ⟨by decide +revert, by decide, by decide, by decide +kernel⟩
    simp only [talkPackets, List.mem_cons, List.not_mem_nil, or_false] at hp
    rcases hp with rfl | rfl | rfl | rfl | rfl | rfl | rfl <;>
      exact ⟨⟨by decide, by decide, by decide +kernel⟩, by decide +kernel, hon, by decide +kernel⟩

/-- The others are met, too, and the station hears the answers. -/
example :
    (match ({ s := {} } : TxHist).run 8 (stationOf talkPackets 1000), ({} : Rx).run exampleEnv [.init] with
    | .ok h, .ok s =>
      let ts := shaky (exactTimes none true [] h.out)
      let ops := attending exampleEnv s (ts.map (·, 0, 0, 0))
      decide (h.acc.map (·.2) = talkPackets ∧ s.serviceMode = false ∧ s.lastOwnCvPacket = [] ∧
        s.deque = [] ∧ s.link.state = .preamble ∧ s.packetEnd = false ∧ s.link.bitCount ≤ 18 ∧
        s.tosTp ≤ s.lastPacketTp ∧ Measured (crossings none true [] h.out) ts) &&
      holdsAfter (s.run exampleEnv ops) (fun s' => decide (mem exampleCvs s'.trace 2#32 = 5#8 ∧ s'.deque = [] ∧
        (Spec.sent (inChannel2 .cv) exampleEnv s ops).map understood =
          [some .ack, some (.value 3#8), some .ack, some (.value 5#8)]))
    | _, _ => false) = true := by decide +kernel

end Dcc
