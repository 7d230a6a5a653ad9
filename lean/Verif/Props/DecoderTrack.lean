import Verif.Lemmas.RxDecoderTotal
import Verif.Props.Decoder
import Verif.Props.RxFaults
import Verif.Props.Track
/-! What a command station is given is what the abstract decoder gets: C101 (faults) and C102. -/
namespace Dcc
open Spec

/-- **C101** Why a history of a decoder faults: because executing a packet is a fault of the abstract decoder
it is then, or the clock went back, a packet is longer than 18 bytes, a logon packet is too short or comes
while an answer to another one is waiting, or channel 2 is used when there is no packet to answer. -/
theorem C101_faults (e : Env) (m : BitVec 32 → Byte) (hm : Memory e m) (s : Rx) (hr : Reachable e s)
    (hs : Settled m s) (d : Decoder) (hd : IsDecoder m s d) (ops : List RxOp) (f : Fault)
    (hl : Along (fun x => x.logon.assigned = false) e s ops) (ho : s.run e ops = .error f) :
    ∃ before op after z d' calls messages, ops = before ++ op :: after ∧ s.run e before = .ok z ∧
      d.run e.eastWest (mainSteps e s before) = some (d', calls, messages) ∧ IsDecoder m z d' ∧
      ((∃ now rand p, op = .execute now rand ∧ front z = some p ∧ d'.execute e.eastWest p = none ∧ f = .oob) ∨
        (∃ now rand p, op = .execute now rand ∧ front z = some p ∧ searchPacket z p = true ∧
          now + 1000000000 ≤ z.tosTp ∧ f = .assertion) ∨
        (op.isReceive = true ∨ op = .biDiChannel2) ∧ FaultCause e z op f) := by
  obtain ⟨before, op, after, z, rfl, h1, h2⟩ := run_error ops s ho
  obtain ⟨d', calls, messages, g1, g2, -, -, g3⟩ := C101_history e m hm s z hr hs d hd before
    (along_prefix _ _ _ hl) h1
  refine ⟨before, op, after, z, d', calls, messages, rfl, h1, g1, g2, ?_⟩
  have hz := hr.run before h1
  have cause := C29_causes_partial e z hz op f h2
  cases op with
  | init =>
    obtain ⟨z', h3⟩ := init_total hm.toMemoryLike z g3.reflects.address
    have h2 : z.init e = .error f := h2
    rw [h3] at h2
    cases h2
  | execute now rand =>
    have h2 : z.execute e now rand = .error f := by
      simp only [Rx.step] at h2
      cases w : z.execute e now rand with
      | error g => rw [w] at h2; cases h2; rfl
      | ok y => rw [w] at h2; cases h2
    cases cause with
    | clock _ _ p hp hd h => exact .inr (.inl ⟨now, rand, p, rfl, hp, hd, h, rfl⟩)
    | _ =>
      refine .inl ⟨now, rand, _, rfl, by assumption, ?_, rfl⟩
      rename_i p hp _ _
      rcases meets_execute hm (is_decoder hm hz g3 g2) g3.store hz.lengths (by assumption) now rand with g | g
      · rw [h2] at g; cases g.1
      · rw [h2] at g
        revert g
        cases d'.execute e.eastWest _ with
        | none => exact fun _ => rfl
        | some => exact fun g => g.elim
  | receive => exact .inr (.inr ⟨.inl rfl, cause⟩)
  | biDiChannel2 => exact .inr (.inr ⟨.inr rfl, cause⟩)
  | _ => cases cause

/-! ### C102 -/

theorem sent_all {sent : List (Option Packet)} {ps : List Packet}
    (h : sent.map (sentAs fun p => (.ok p : R Packet)) = ps.map .ok) : sent.map (·.getD idleBytes) = ps := by
  have : sent.map (sentAs fun p => (.ok p : R Packet)) = (sent.map (·.getD idleBytes)).map .ok := by
    rw [List.map_map]
    refine List.map_congr_left fun x _ => ?_
    cases x <;> rfl
  rw [this] at h
  exact (List.map_inj_right fun a b h => by cases h; rfl).mp h

theorem no_logon {sent : List (Option Packet)} {unsent acc : List Packet} (h : acc = sent.filterMap id ++ unsent)
    (hn : ∀ p ∈ acc, isLogon p = false) : ∀ p ∈ sent.map (·.getD idleBytes), isLogon p = false := by
  intro p hp
  obtain ⟨x, hx, rfl⟩ := List.mem_map.mp hp
  cases x with
  | none => decide +kernel
  | some q =>
    refine hn q ?_
    rw [h]
    exact List.mem_append_left _ (List.mem_filterMap.mpr ⟨_, hx, rfl⟩)

/-- **C102** From the command station to the decoder, for all packets.  The station has accepted any valid
packets except those of automatic logon.  `sent` are the packets that have been on the track, idle packets
among them, `unsent` the others.  Anything but `disable` may be called, and `receive` never meets a full
queue.  Then the decoder has executed the packets `done` in the order they were accepted, with the cutouts
there were in between; it made the calls and gave the answers of the abstract decoder, and is what that one is
then. -/
theorem C102_station (n : Nat) (txOps : List TxOp) (h : TxHist) (ht : ({ s := {} } : TxHist).run n txOps = .ok h)
    (hv : ∀ a ∈ h.acc, ValidPacket a.2 ∧ isLogon a.2 = false)
    (e : Env) (m : BitVec 32 → Byte) (hm : Memory e m) (s s' : Rx) (hr : Reachable e s) (hs : Settled m s)
    (d : Decoder) (hd : IsDecoder m s d) (hdq : s.deque = []) (hw : s.link.state = .preamble) (ops : List RxOp)
    (ho : s.run e ops = .ok s') (hdis : .disable ∉ ops) (hf : NeverFull e s ops)
    (htimes : recvTimes ops = h.out.map (·.duration)) :
    ∃ (sent : List (Option Packet)) (unsent done waiting : List Packet),
      h.acc.map (·.2) = sent.filterMap id ++ unsent ∧
      (unsent.length = h.s.size n ∨
        unsent.length = h.s.size n + 1 ∧ h.s.packetCount < h.s.current.length) ∧
      sent.map (·.getD idleBytes) = done ++ waiting ∧ s'.deque = waiting ∧
      ∃ steps d' calls messages, executions steps = done ∧ d.run e.eastWest steps = some (d', calls, messages) ∧
        IsDecoder m s' d' ∧ sessionCalls s s' = calls ∧
        (Spec.sent (inChannel2 .cv) e s ops).map understood = messages.map some := by
  obtain ⟨sent, unsent, l', os, h1, h2, h3, h4⟩ := station_sent (fun p => (.ok p : R Packet)) n txOps h ht
    (h.acc.map (·.2)) (by
      intro c hc p hp
      obtain ⟨a, ha, rfl⟩ := List.mem_map.mp hc
      cases hp
      exact (hv a ha).1) (by rw [List.map_map]; rfl) s.link (hr.recvInv.link.synced hw)
  have h2 := sent_all h2
  have hn := no_logon h3 (by
    intro p hp
    obtain ⟨a, ha, rfl⟩ := List.mem_map.mp hp
    exact (hv a ha).2)
  rw [h2] at hn
  obtain ⟨g1, x, g2, g3, -, g4⟩ := track_decoder hm hr hs (is_decoder hm hr hs hd) ho hdis hf (by rw [htimes]; exact h1) hn
  rw [hdq, List.nil_append, ← h2] at g1
  exact ⟨sent, unsent, executed e s ops, s'.deque, h3, h4, g1, rfl, mainSteps e s ops, x.1, x.2.1, x.2.2,
    executions_mainSteps ops s, g2, decoder_is g3.is, g3.calls, g4⟩

/-- **C102** The same over the track signal, with the times a decoder measures. -/
theorem C102_track (n : Nat) (cfg : TxConfig) (txOps : List TxOp) (h : TxHist)
    (ht : ({ s := {} } : TxHist).run n (.init cfg :: txOps) = .ok h)
    (hinv : ∀ c, .init c ∈ txOps → c.invert = cfg.invert)
    (hv : ∀ a ∈ h.acc, ValidPacket a.2 ∧ isLogon a.2 = false)
    (e : Env) (m : BitVec 32 → Byte) (hm : Memory e m) (s s' : Rx) (hr : Reachable e s) (hs : Settled m s)
    (d : Decoder) (hd : IsDecoder m s d) (hdq : s.deque = []) (hw : s.link.state = .preamble)
    (hb : s.link.bitCount ≤ 18) (ops : List RxOp)
    (ho : s.run e ops = .ok s') (hdis : .disable ∉ ops) (hf : NeverFull e s ops)
    (off : Option Bool) (seen : Bool) (before : List Nat)
    (htimes : Measured (crossings off seen before h.out) (recvTimes ops)) :
    ∃ (sent : List (Option Packet)) (unsent done waiting : List Packet),
      h.acc.map (·.2) = sent.filterMap id ++ unsent ∧
      (unsent.length = h.s.size n ∨ unsent.length = h.s.size n + 1 ∧ h.s.bidiCount = 0) ∧
      sent.map (·.getD idleBytes) = done ++ waiting ∧ s'.deque = waiting ∧
      ∃ steps d' calls messages, executions steps = done ∧ d.run e.eastWest steps = some (d', calls, messages) ∧
        IsDecoder m s' d' ∧ sessionCalls s s' = calls ∧
        (Spec.sent (inChannel2 .cv) e s ops).map understood = messages.map some := by
  obtain ⟨sent, unsent, l', os, h1, h2, h3, h4⟩ := heard_sent (fun p => (.ok p : R Packet)) n cfg txOps h ht hinv
    (h.acc.map (·.2)) (by
      intro c hc p hp
      obtain ⟨a, ha, rfl⟩ := List.mem_map.mp hc
      cases hp
      exact (hv a ha).1) (by rw [List.map_map]; rfl) off seen before _ htimes s.link (hr.recvInv.link.synced hw) hb
  have h2 := sent_all h2
  have hn := no_logon h3 (by
    intro p hp
    obtain ⟨a, ha, rfl⟩ := List.mem_map.mp hp
    exact (hv a ha).2)
  rw [h2] at hn
  obtain ⟨g1, x, g2, g3, -, g4⟩ := track_decoder hm hr hs (is_decoder hm hr hs hd) ho hdis hf h1 hn
  rw [hdq, List.nil_append, ← h2] at g1
  exact ⟨sent, unsent, executed e s ops, s'.deque, h3, h4, g1, rfl, mainSteps e s ops, x.1, x.2.1, x.2.2,
    executions_mainSteps ops s, g2, decoder_is g3.is, g3.calls, g4⟩

/-- **C102** A main loop that calls `execute` after every call of `receive`, with room for two packets and a
clock that does not go back, without a fault as a hypothesis: either it does not fault, and all packets sent
except perhaps the one whose end bit was received last have been executed as the abstract decoder does, or
executing one of the packets sent is a fault of the abstract decoder, and that is the fault. -/
theorem C102_main_loop (n : Nat) (cfg : TxConfig) (txOps : List TxOp) (h : TxHist)
    (ht : ({ s := {} } : TxHist).run n (.init cfg :: txOps) = .ok h)
    (hinv : ∀ c, .init c ∈ txOps → c.invert = cfg.invert)
    (hv : ∀ a ∈ h.acc, ValidPacket a.2 ∧ isLogon a.2 = false)
    (e : Env) (hroom : 2 ≤ e.rxDeque) (m : BitVec 32 → Byte) (hm : Memory e m) (s : Rx) (hr : Reachable e s)
    (hs : Settled m s) (d : Decoder) (hd : IsDecoder m s d) (hdq : s.deque = []) (hw : s.link.state = .preamble)
    (hb : s.link.bitCount ≤ 18) (htp : s.tosTp ≤ s.lastPacketTp) (xs : List (Nat × Nat × Int × Nat))
    (hc : ClockForward s.lastPacketTp (polled xs)) (off : Option Bool) (seen : Bool) (before : List Nat)
    (htimes : Measured (crossings off seen before h.out) (xs.map (·.1))) :
    ∃ (sent : List (Option Packet)) (unsent done waiting : List Packet),
      h.acc.map (·.2) = sent.filterMap id ++ unsent ∧
      (unsent.length = h.s.size n ∨ unsent.length = h.s.size n + 1 ∧ h.s.bidiCount = 0) ∧
      sent.map (·.getD idleBytes) = done ++ waiting ∧
      match d.executeAll e.eastWest done with
      | none => s.run e (polled xs) = .error .oob
      | some (d', calls) => ∃ s', s.run e (polled xs) = .ok s' ∧ waiting.length ≤ (if s'.packetEnd then 1 else 0) ∧
          IsDecoder m s' d' ∧ sessionCalls s s' = calls := by
  obtain ⟨hf, hend⟩ := polled_neverFull e hroom xs s hr (by simp [hdq]) (fun _ => hdq)
  have htm : recvTimes (polled xs) = xs.map (·.1) := by
    clear hf hend htimes hc
    induction xs with
    | nil => rfl
    | cons x xs ih =>
      have : recvTimes (polled (x :: xs)) = x.1 :: recvTimes (polled xs) := rfl
      rw [this, ih]; rfl
  have hops : ∀ op ∈ polled xs, op.isReceive = true ∨ op.isExecute = true := by
    intro op hop
    unfold polled at hop
    obtain ⟨x, _, hop⟩ := List.mem_flatMap.mp hop
    simp only [List.mem_cons, List.not_mem_nil, or_false] at hop
    rcases hop with rfl | rfl
    · exact .inl rfl
    · exact .inr rfl
  have hno : ∀ op, op.isReceive = false → op.isExecute = false → op ∉ polled xs := by
    intro op h5 h6 hm
    rcases hops op hm with h | h
    · rw [h5] at h; cases h
    · rw [h6] at h; cases h
  obtain ⟨sent, unsent, l', os, h1, h2, h3, h4⟩ := heard_sent (fun p => (.ok p : R Packet)) n cfg txOps h ht hinv
    (h.acc.map (·.2)) (by
      intro c hc p hp
      obtain ⟨a, ha, rfl⟩ := List.mem_map.mp hc
      cases hp
      exact (hv a ha).1) (by rw [List.map_map]; rfl) off seen before _ htimes s.link (hr.recvInv.link.synced hw) hb
  have h2 := sent_all h2
  have hn := no_logon h3 (by
    intro p hp
    obtain ⟨a, ha, rfl⟩ := List.mem_map.mp hp
    exact (hv a ha).2)
  rw [h2] at hn
  rw [← htm] at h1
  have hi := is_decoder hm hr hs hd
  cases ho : s.run e (polled xs) with
  | error f =>
    obtain ⟨rfl, done, waiting, g1, g2⟩ := track_fault hm hr hs hi ho hops hf h1 hn htp hc
    rw [hdq, List.nil_append, ← h2] at g1
    refine ⟨sent, unsent, done, waiting, h3, h4, g1, ?_⟩
    rw [g2]
  | ok s' =>
    obtain ⟨g1, x, g2, g3, -, -⟩ := track_decoder hm hr hs hi ho (hno _ rfl rfl) hf h1 hn
    rw [hdq, List.nil_append, ← h2] at g1
    refine ⟨sent, unsent, executed e s (polled xs), s'.deque, h3, h4, g1, ?_⟩
    rw [mainSteps_executed _ (hno _ rfl rfl), run_executes] at g2
    cases hx : d.executeAll e.eastWest (executed e s (polled xs)) with
    | none => rw [hx] at g2; cases g2
    | some y =>
      rw [hx] at g2
      have g2 : some (y.1, y.2, []) = some x := g2
      cases g2
      refine ⟨s', rfl, ?_, decoder_is g3.is, g3.calls⟩
      obtain ⟨h9, h10⟩ := hend s' ho
      cases hpe : s'.packetEnd
      · simp [h10 hpe]
      · simp only [if_true]; omega

/-- A command station that accepts the packets and transmits. -/
def stationOf (ps : List Packet) (k : Nat) : List TxOp :=
  .init {} :: ps.map .bytes ++ List.replicate k .transmit

/-- The station accepts a write to CV3 twice and a function group.  The hypotheses are met, and the decoder
writes once and tells the user about the functions. -/
example : let w : Packet := [3#8, 0xEC#8, 2#8, 7#8, 0xEA#8]
    (match ({ s := {} } : TxHist).run 4 (stationOf [w, w, [3#8, 0x83#8, 0x80#8]] 520), ({} : Rx).run exampleEnv [.init] with
    | .ok h, .ok s =>
      let ts := shaky (exactTimes none true [] h.out)
      decide (h.acc.map (·.2) = [w, w, [3#8, 0x83#8, 0x80#8]] ∧ (∀ a ∈ h.acc, isLogon a.2 = false) ∧
        s.deque = [] ∧ s.link.state = .preamble ∧ s.link.bitCount ≤ 18 ∧ s.tosTp ≤ s.lastPacketTp ∧
        Measured (crossings none true [] h.out) ts) &&
      holdsAfter (s.run exampleEnv (polled (ts.map (·, 0, 0, 0)))) (fun s' => decide (sessionCalls s s' =
        [.writeCvByte 2#32 7#8 7#8, .function 3#16 0x1F#32 6#32])) &&
      (((Decoder.new exampleCvs).executeAll true [w, w, [3#8, 0x83#8, 0x80#8]]).any fun x => decide (x.2 =
        [.writeCvByte 2#32 7#8 7#8, .function 3#16 0x1F#32 6#32]))
    | _, _ => false) = true := by decide +kernel

/-- The other case: what the station accepted leaves the decoder without an address, and it faults where the
abstract decoder does. -/
example : let w : Packet := [3#8, 0xEC#8, 0#8, 200#8, 0x27#8]
    (match ({ s := {} } : TxHist).run 4 (stationOf [w, w] 520), ({} : Rx).run exampleEnv [.init] with
    | .ok h, .ok s =>
      let ts := exactTimes none true [] h.out
      decide (h.acc.map (·.2) = [w, w] ∧ Measured (crossings none true [] h.out) ts) &&
      (match s.run exampleEnv (polled (ts.map (·, 0, 0, 0))) with
      | .error .oob => true
      | _ => false) &&
      ((Decoder.new exampleCvs).executeAll true [w, w]).isNone
    | _, _ => false) = true := by decide +kernel

example : ClockForward 0 (polled [(58, 0, 0, 0), (58, 0, 7, 0)]) :=
  ⟨by decide, by decide, trivial⟩

end Dcc
