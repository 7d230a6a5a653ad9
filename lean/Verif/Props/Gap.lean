import Verif.Lemmas.RxGap
import Verif.Props.Late
/-! A disturbance on the track: C113. -/
namespace Dcc
open Spec

/-! ### C113 -/

/-- **C113** A decoder that waits for a packet hears the signal of a station from its first call of `transmit` on.  After
the calls of `h0` the signal is disturbed: the calls of `receive` of `noise` get any durations.  From the calls of `h1` on
the decoder hears the signal again.  Then there arrive, but for logon packets: the first `j` packets sent, among them all
that were over when the disturbance began; packets `within`, one and one more for each 76 half bits of the disturbance at
most; at most one packet `odd` that is put together from the disturbance and the signal behind it; and all packets sent
but the first `i`.  Of those, all but one had begun when the disturbance ended.  So no packet arrives twice, and
besides those the disturbance hits only the one that follows can be missed. -/
theorem C113_arrivals (n : Nat) (cfg : TxConfig) (txOps gap more : List TxOp) (h0 h1 h : TxHist)
    (ht0 : ({ s := {} } : TxHist).run n (.init cfg :: txOps) = .ok h0) (ht1 : h0.run n gap = .ok h1)
    (ht : h1.run n more = .ok h) (hinv : ∀ c, .init c ∈ txOps ++ gap ++ more → c.invert = cfg.invert)
    (hv : ∀ a ∈ h.acc, ValidPacket a.2)
    (e : Env) (s s' : Rx) (hr : Reachable e s) (hs : s.link.state = .preamble) (hb : s.link.bitCount ≤ 18)
    (ops noise ops' : List RxOp) (ho : s.run e (ops ++ noise ++ ops') = .ok s')
    (hd : .disable ∉ ops ++ noise ++ ops') (hf : NeverFull e s (ops ++ noise ++ ops'))
    (off : Option Bool) (seen0 seen : Bool) (before0 before : List Nat)
    (htimes0 : Measured (crossings off seen0 before0 h0.out) (recvTimes ops))
    (htimes : Measured (crossings none seen before (h.out.drop h1.out.length)) (recvTimes ops')) :
    ∃ (sent : List (Spec.Segment × Packet)) (c : Spec.Segment × Packet) (rest within odd : List Packet) (j i : Nat),
      h.out = (sent ++ [c]).flatMap (fun g => g.1.outs) ∧
      (∀ g ∈ sent ++ [c], g.1.Ok Spec.ValidConfig ∧
        ((g.1.frame = none ∧ g.2 = [0xFF#8, 0x00#8, 0xFF#8]) ∨
          ∃ c, (c, g.2) ∈ h.acc ∧ g.1.frame = some (Spec.packetWave c g.2))) ∧
      (∀ g ∈ sent, g.1.Complete Spec.ValidConfig) ∧
      h.acc.map (·.2) = ((sent ++ [c]).filter (·.1.frame.isSome)).map (·.2) ++ rest ∧
      76 * within.length ≤ (recvTimes noise).length + 76 ∧ odd.length ≤ 1 ∧ j ≤ i ∧
      arrivals e s (ops ++ noise ++ ops') =
        ((sent.map (·.2) ++ if c.1.cut.isEmpty then [] else [c.2]).take j ++ within ++ odd ++
          (sent.map (·.2) ++ if c.1.cut.isEmpty then [] else [c.2]).drop i).filter (fun p => !isLogon p) ∧
      (∀ m, (((sent ++ [c]).take (m + 1)).flatMap fun g => g.1.outs).length < h0.out.length → m < j) ∧
      ∀ m, m + 2 = i → (((sent ++ [c]).take m).flatMap fun g => g.1.outs).length < h1.out.length := by
  obtain ⟨os, h2, h3⟩ := run_interleaved e _ s s' ho hd hf
  rw [recvTimes, List.filterMap_append, List.filterMap_append] at h2
  obtain ⟨gs, c, rest, within, odd, j, i, h4, h5, h6, h7, -, h8, h9, h10, -, h11, h12, h13, -⟩ :=
    station_gap n cfg txOps gap more h0 h1 h ht0 ht1 ht hinv hv off seen0 seen before0 before _ (recvTimes noise) _ htimes0
      htimes s.link s'.link os (hr.recvInv.link.synced hs) hr.recvInv.link hb h2
  exact ⟨gs, c, rest, within, odd, j, i, h4, h5, h6, h7, h8, h9, h10, by rw [h3, h11], h12, h13⟩

/-- What idle packets are not. -/
theorem requests_arrive {h : TxHist} (y : List (Segment × Packet))
    (hok : ∀ g ∈ y, (g.1.frame = none ∧ g.2 = [0xFF#8, 0x00#8, 0xFF#8]) ∨
      ∃ c, (c, g.2) ∈ h.acc ∧ g.1.frame = some (packetWave c g.2)) :
    ((y.filter (·.1.frame.isSome)).map (·.2)).filter (· ≠ idleBytes) = (y.map (·.2)).filter (· ≠ idleBytes) := by
  induction y with
  | nil => rfl
  | cons g y ih =>
    have := ih fun g hg => hok g (List.mem_cons_of_mem _ hg)
    cases hg : g.1.frame with
    | none =>
      have hi : g.2 = idleBytes := by
        rcases hok g (by simp) with ⟨_, hi⟩ | ⟨_, _, hs⟩
        · exact hi
        · rw [hg] at hs; cases hs
      rw [List.filter_cons_of_neg (by simp [hg]), List.map_cons, List.filter_cons_of_neg (by simp [hi])]
      exact this
    | some w =>
      rw [List.filter_cons_of_pos (by simp [hg]), List.map_cons, List.map_cons, List.filter_cons, List.filter_cons, this]

/-- **C113** The packets the station was asked for: those `early` arrive before the disturbance, those `missed` do not
arrive, those `heard` arrive behind it.  Missed are those of which the transmission began during the disturbance, and two
more: the one it began in and the one it ended before.  Between them arrive only idle packets and what was put together
of the disturbance. -/
theorem C113_requests (n : Nat) (cfg : TxConfig) (txOps gap more : List TxOp) (h0 h1 h : TxHist)
    (ht0 : ({ s := {} } : TxHist).run n (.init cfg :: txOps) = .ok h0) (ht1 : h0.run n gap = .ok h1)
    (ht : h1.run n more = .ok h) (hinv : ∀ c, .init c ∈ txOps ++ gap ++ more → c.invert = cfg.invert)
    (hv : ∀ a ∈ h.acc, ValidPacket a.2)
    (e : Env) (s s' : Rx) (hr : Reachable e s) (hs : s.link.state = .preamble) (hb : s.link.bitCount ≤ 18)
    (ops noise ops' : List RxOp) (ho : s.run e (ops ++ noise ++ ops') = .ok s')
    (hd : .disable ∉ ops ++ noise ++ ops') (hf : NeverFull e s (ops ++ noise ++ ops'))
    (off : Option Bool) (seen0 seen : Bool) (before0 before : List Nat)
    (htimes0 : Measured (crossings off seen0 before0 h0.out) (recvTimes ops))
    (htimes : Measured (crossings none seen before (h.out.drop h1.out.length)) (recvTimes ops')) :
    ∃ early missed heard unsent odd arrived arrived' : List Packet,
      h.acc.map (·.2) = early ++ missed ++ heard ++ unsent ∧
      missed.length + h1.s.size n + h0.acc.length ≤ h1.acc.length + h0.s.size n + 2 ∧
      unsent.length ≤ h.s.size n + 1 ∧ 76 * odd.length ≤ (recvTimes noise).length + 152 ∧
      arrivals e s (ops ++ noise ++ ops') = (arrived ++ odd ++ arrived').filter (fun p => !isLogon p) ∧
      early.filter (· ≠ idleBytes) = arrived.filter (· ≠ idleBytes) ∧
      heard.filter (· ≠ idleBytes) = arrived'.filter (· ≠ idleBytes) := by
  obtain ⟨os, h2, h3⟩ := run_interleaved e _ s s' ho hd hf
  rw [recvTimes, List.filterMap_append, List.filterMap_append] at h2
  obtain ⟨gs, c, rest, within, odd, j, i, -, h5, -, h7, hrest, h8, h9, hji, hjl, h11, -, -, h14, h15⟩ :=
    station_gap n cfg txOps gap more h0 h1 h ht0 ht1 ht hinv hv off seen0 seen before0 before _ (recvTimes noise) _ htimes0
      htimes s.link s'.link os (hr.recvInv.link.synced hs) hr.recvInv.link hb h2
  obtain ⟨l, x, hlx, hx, hl⟩ : ∃ l x : List (Segment × Packet), gs ++ [c] = l ++ x ∧ x.length ≤ 1 ∧
      (gs.map (·.2) ++ if c.1.cut.isEmpty then [] else [c.2]) = l.map (·.2) := by
    cases c.1.cut.isEmpty
    · exact ⟨gs ++ [c], [], by simp, by simp, by simp⟩
    · exact ⟨gs, [c], rfl, by simp, by simp⟩
  rw [hl, ← List.map_drop, ← List.map_take] at h11
  rw [hl, List.length_map] at hjl
  have hidle : ∀ g ∈ l, (g.1.frame = none ∧ g.2 = [0xFF#8, 0x00#8, 0xFF#8]) ∨
      ∃ c, (c, g.2) ∈ h.acc ∧ g.1.frame = some (packetWave c g.2) :=
    fun g hg => (h5 g (by rw [hlx]; exact List.mem_append_left _ hg)).2
  have hmid : l.take j ++ (l.take i).drop j = l.take i := by
    have := List.take_append_drop j (l.take i)
    rwa [List.take_take, Nat.min_eq_left hji] at this
  have hsplit : l.filter (·.1.frame.isSome) = (l.take j).filter (·.1.frame.isSome) ++
      ((l.take i).drop j).filter (·.1.frame.isSome) ++ (l.drop i).filter (·.1.frame.isSome) := by
    rw [← List.filter_append, hmid, ← List.filter_append, List.take_append_drop]
  refine ⟨((l.take j).filter (·.1.frame.isSome)).map (·.2), (((l.take i).drop j).filter (·.1.frame.isSome)).map (·.2),
    ((l.drop i).filter (·.1.frame.isSome)).map (·.2), (x.filter (·.1.frame.isSome)).map (·.2) ++ rest, within ++ odd,
    (l.take j).map (·.2), (l.drop i).map (·.2), ?_, ?_, ?_, ?_, by rw [h3, h11]; simp,
    requests_arrive _ fun g hg => hidle g (List.mem_of_mem_take hg),
    requests_arrive _ fun g hg => hidle g (List.mem_of_mem_drop hg)⟩
  · rw [h7, hlx, List.filter_append, hsplit]
    simp
  · rw [hlx] at h14 h15
    rw [List.take_append_of_le_length hjl] at h14
    have h16 : List.Sublist ((l.take i).filter (·.1.frame.isSome))
        (((l ++ x).take (i - 1) ++ ((l ++ x).drop (i - 1)).take 1).filter (·.1.frame.isSome)) := by
      refine List.Sublist.filter _ ?_
      rw [← List.take_add]
      refine List.Sublist.trans ?_ (List.take_sublist_take_left (show i ≤ i - 1 + 1 by omega))
      rw [List.take_append]
      exact List.sublist_append_left _ _
    have h17 := h16.length_le
    rw [List.filter_append, List.length_append] at h17
    have h18 := List.length_filter_le (fun g : Segment × Packet => g.1.frame.isSome) (((l ++ x).drop (i - 1)).take 1)
    rw [List.length_take] at h18
    have h19 : ((l.take i).filter (·.1.frame.isSome)).length = ((l.take j).filter (·.1.frame.isSome)).length +
        (((l.take i).drop j).filter (·.1.frame.isSome)).length := by
      rw [← List.length_append, ← List.filter_append, hmid]
    rw [List.length_map]
    omega
  · have := List.length_filter_le (fun g : Segment × Packet => g.1.frame.isSome) x
    rw [List.length_append, List.length_map, hrest]
    omega
  · rw [List.length_append]
    omega

/-! ### Examples -/

/-- The station of C108 is heard for `k` calls of `transmit`, `m` calls are disturbed, 409 calls are made in all. -/
def disturbedTrack (k m : Nat) (noise : List Nat) (p : TxHist → TxHist → TxHist → List Packet → Bool) : Bool :=
  match ({ s := {} } : TxHist).run 4 (lateStation k), ({} : Rx).run exampleEnv [.init] with
  | .ok h0, .ok s =>
    (match h0.run 4 (.bytes [3#8, 0x94#8, 0x97#8] :: List.replicate m .transmit) with
    | .ok h1 =>
      (match h1.run 4 (List.replicate (409 - k - m) .transmit) with
      | .ok h =>
        let ts0 := exactTimes none true [] h0.out
        let ts := exactTimes none true [1000] (h.out.drop h1.out.length)
        decide (s.link.state = .preamble ∧ s.link.bitCount = 0) &&
        h.acc.all (fun a => decide (3 ≤ a.2.length ∧ a.2.length ≤ 18 ∧ exor a.2 = 0#8)) &&
        decide (NeverFull exampleEnv s (polled (ts0.map (·, 0, 0, 0)) ++ polled (noise.map (·, 0, 0, 0)) ++
          polled (ts.map (·, 0, 0, 0)))) &&
        decide (Measured (crossings none true [] h0.out) ts0) &&
        decide (Measured (crossings none true [1000] (h.out.drop h1.out.length)) ts) &&
        (match s.run exampleEnv (polled (ts0.map (·, 0, 0, 0)) ++ polled (noise.map (·, 0, 0, 0)) ++
          polled (ts.map (·, 0, 0, 0))) with
        | .ok _ => p h0 h1 h (arrivals exampleEnv s (polled (ts0.map (·, 0, 0, 0)) ++ polled (noise.map (·, 0, 0, 0)) ++
            polled (ts.map (·, 0, 0, 0))))
        | .error _ => false)
      | _ => false)
    | _ => false)
  | _, _ => false

/-- Noise in the middle of the packet for the speed: it is lost, and only it. -/
example : disturbedTrack 170 12 [20, 5, 300, 58, 58, 700, 11, 58] (fun h0 h1 h as => decide (h0.acc.length = 1 ∧
    h0.s.size 4 = 0 ∧ h1.acc.length = 2 ∧ h1.s.size 4 = 1 ∧ h.acc.length = 2 ∧
    as = [idleBytes, [3#8, 0x94#8, 0x97#8], idleBytes])) = true := by decide +kernel

/-- No contact from behind the second byte to the end of the packet: the preamble of the next one looks like data, and
this one is lost too. -/
example : disturbedTrack 167 41 [] (fun h0 h1 h as => decide (h0.acc.length = 1 ∧ h0.s.size 4 = 0 ∧ h1.acc.length = 2 ∧
    h1.s.size 4 = 1 ∧ h.acc.length = 2 ∧ as = [idleBytes, idleBytes])) = true := by decide +kernel

/-- A disturbance that holds packets itself: the first one is taken for the end of the packet it interrupts, the second
one arrives. -/
example : disturbedTrack 150 60 (packetWave {} [3#8, 0x61#8, 0x62#8] ++ packetWave {} [3#8, 0x61#8, 0x62#8])
    (fun _ _ _ as => decide (as = [idleBytes, [3#8, 0x61#8, 0x62#8], [3#8, 0x94#8, 0x97#8], idleBytes])) = true := by
  decide +kernel

end Dcc
