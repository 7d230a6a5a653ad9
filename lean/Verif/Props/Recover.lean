import Verif.Lemmas.RxRecover
import Verif.Props.Late
/-! A decoder that lost the track: C110. -/
namespace Dcc
open Spec

/-! ### C110 -/

/-- **C110** A decoder in any state it can get into - in the middle of a packet it heard the beginning of, after noise on
a dirty rail - hears the signal from the calls of `transmit` of `h1` on.  Its input sees the polarity; the first interval
it measures may be anything, each half bit after that is measured as anything within the limits of RCN-210.  Then what
arrives in the receive queue is at most one packet `odd` that is put together from before and behind, and all packets
sent but the first `i`, in order, without logon packets.  Of those it misses, all but the last one had begun when it heard
the signal again. -/
theorem C110_arrivals (n : Nat) (cfg : TxConfig) (txOps more : List TxOp) (h1 h : TxHist)
    (ht1 : ({ s := {} } : TxHist).run n (.init cfg :: txOps) = .ok h1) (ht : h1.run n more = .ok h)
    (hinv : ∀ c, .init c ∈ txOps ++ more → c.invert = cfg.invert) (hv : ∀ a ∈ h.acc, ValidPacket a.2)
    (e : Env) (s s' : Rx) (hr : Reachable e s)
    (ops : List RxOp) (ho : s.run e ops = .ok s') (hd : .disable ∉ ops) (hf : NeverFull e s ops)
    (seen : Bool) (before : List Nat)
    (htimes : Measured (crossings none seen before (h.out.drop h1.out.length)) (recvTimes ops)) :
    ∃ (sent : List (Spec.Segment × Packet)) (c : Spec.Segment × Packet) (rest odd : List Packet) (i : Nat),
      h.out = (sent ++ [c]).flatMap (fun g => g.1.outs) ∧
      (∀ g ∈ sent ++ [c], g.1.Ok Spec.ValidConfig ∧
        ((g.1.frame = none ∧ g.2 = [0xFF#8, 0x00#8, 0xFF#8]) ∨
          ∃ c, (c, g.2) ∈ h.acc ∧ g.1.frame = some (Spec.packetWave c g.2))) ∧
      (∀ g ∈ sent, g.1.Complete Spec.ValidConfig) ∧
      h.acc.map (·.2) = ((sent ++ [c]).filter (·.1.frame.isSome)).map (·.2) ++ rest ∧
      odd.length ≤ 1 ∧
      arrivals e s ops = (odd ++ (sent.map (·.2) ++ if c.1.cut.isEmpty then [] else [c.2]).drop i).filter
        (fun p => !isLogon p) ∧
      ∀ m, m + 2 = i → (((sent ++ [c]).take m).flatMap fun g => g.1.outs).length < h1.out.length := by
  obtain ⟨os, h2, h3⟩ := run_interleaved e ops s s' ho hd hf
  obtain ⟨gs, c, rest, odd, i, h4, h5, h6, h7, -, -, h8, h9, h10, -⟩ := station_recover n cfg txOps more h1 h ht1 ht
    hinv hv seen before _ htimes s.link s'.link os hr.recvInv.link h2
  exact ⟨gs, c, rest, odd, i, h4, h5, h6, h7, h8, by rw [h3, h9], h10⟩

/-- **C110** The packets the station was asked for fall into those `missed`, those `heard` and those `unsent`.  Missed
are only packets of which the transmission had begun when the decoder heard the signal again, and one more; all those
heard arrive in order, in front of them at most one packet and between them only idle packets. -/
theorem C110_requests (n : Nat) (cfg : TxConfig) (txOps more : List TxOp) (h1 h : TxHist)
    (ht1 : ({ s := {} } : TxHist).run n (.init cfg :: txOps) = .ok h1) (ht : h1.run n more = .ok h)
    (hinv : ∀ c, .init c ∈ txOps ++ more → c.invert = cfg.invert) (hv : ∀ a ∈ h.acc, ValidPacket a.2)
    (e : Env) (s s' : Rx) (hr : Reachable e s)
    (ops : List RxOp) (ho : s.run e ops = .ok s') (hd : .disable ∉ ops) (hf : NeverFull e s ops)
    (seen : Bool) (before : List Nat)
    (htimes : Measured (crossings none seen before (h.out.drop h1.out.length)) (recvTimes ops)) :
    ∃ missed heard unsent odd arrived : List Packet, h.acc.map (·.2) = missed ++ heard ++ unsent ∧
      missed.length + h1.s.size n ≤ h1.acc.length + 1 ∧ unsent.length ≤ h.s.size n + 1 ∧ odd.length ≤ 1 ∧
      arrivals e s ops = (odd ++ arrived).filter (fun p => !isLogon p) ∧
      heard.filter (· ≠ idleBytes) = arrived.filter (· ≠ idleBytes) := by
  obtain ⟨os, h2, h3⟩ := run_interleaved e ops s s' ho hd hf
  obtain ⟨gs, c, rest, odd, i, -, h5, -, h7, hrest, -, h8, h9, -, h10⟩ := station_recover n cfg txOps more h1 h ht1 ht
    hinv hv seen before _ htimes s.link s'.link os hr.recvInv.link h2
  obtain ⟨l, x, hlx, hx, hl⟩ : ∃ l x : List (Segment × Packet), gs ++ [c] = l ++ x ∧ x.length ≤ 1 ∧
      (gs.map (·.2) ++ if c.1.cut.isEmpty then [] else [c.2]) = l.map (·.2) := by
    cases c.1.cut.isEmpty
    · exact ⟨gs ++ [c], [], by simp, by simp, by simp⟩
    · exact ⟨gs, [c], rfl, by simp, by simp⟩
  rw [hl, ← List.map_drop] at h9
  refine ⟨((l.take i).filter (·.1.frame.isSome)).map (·.2), ((l.drop i).filter (·.1.frame.isSome)).map (·.2),
    (x.filter (·.1.frame.isSome)).map (·.2) ++ rest, odd, (l.drop i).map (·.2), ?_, ?_, ?_, h8, by rw [h3, h9], ?_⟩
  · have h11 : l.filter (·.1.frame.isSome) = (l.take i).filter (·.1.frame.isSome) ++
        (l.drop i).filter (·.1.frame.isSome) := by rw [← List.filter_append, List.take_append_drop]
    rw [h7, hlx, List.filter_append, h11]
    simp
  · rw [hlx] at h10
    have h11 : List.Sublist ((l.take i).filter (·.1.frame.isSome))
        (((l ++ x).take (i - 1) ++ ((l ++ x).drop (i - 1)).take 1).filter (·.1.frame.isSome)) := by
      refine List.Sublist.filter _ ?_
      rw [← List.take_add]
      refine List.Sublist.trans ?_ (List.take_sublist_take_left (show i ≤ i - 1 + 1 by omega))
      rw [List.take_append]
      exact List.sublist_append_left _ _
    have h12 := h11.length_le
    rw [List.filter_append, List.length_append] at h12
    have h13 := List.length_filter_le (fun g : Segment × Packet => g.1.frame.isSome) (((l ++ x).drop (i - 1)).take 1)
    rw [List.length_take] at h13
    rw [List.length_map]
    omega
  · have := List.length_filter_le (fun g : Segment × Packet => g.1.frame.isSome) x
    rw [List.length_append, List.length_map, hrest]
    omega
  · have hidle : ∀ g ∈ l.drop i, g.1.frame = none → g.2 = idleBytes := by
      intro g hg hn
      rcases (h5 g (by rw [hlx]; exact List.mem_append_left _ (List.mem_of_mem_drop hg))).2 with ⟨_, hi⟩ | ⟨_, _, hs⟩
      · exact hi
      · rw [hn] at hs; cases hs
    generalize l.drop i = y at hidle
    induction y with
    | nil => rfl
    | cons g y ih =>
      have := ih fun g hg => hidle g (List.mem_cons_of_mem _ hg)
      cases hg : g.1.frame with
      | none =>
        rw [List.filter_cons_of_neg (by simp [hg]), List.map_cons, List.filter_cons_of_neg (by simp [hidle g (by simp) hg])]
        exact this
      | some w =>
        rw [List.filter_cons_of_pos (by simp [hg]), List.map_cons, List.map_cons, List.filter_cons, List.filter_cons, this]

/-! ### Examples -/

/-- A decoder that heard the first `m` half bits of the speed for locomotive 3, and nothing since. -/
def lostTrack (m : Nat) : R Rx := ({} : Rx).run exampleEnv (.init ::
  ((packetWave {} [3#8, 0x3F#8, 0x86#8, 0xBA#8]).take m).map fun t => .receive t 0)

/-- What a decoder does that hears the station of C108 again after `k` calls of `transmit`. -/
def hearsAgain (m k : Nat) (p : TxHist → TxHist → Rx → List Packet → Bool) : Bool :=
  match ({ s := {} } : TxHist).run 4 (lateStation k), lostTrack m with
  | .ok h1, .ok s =>
    (match h1.run 4 (lateMore (309 - k)) with
    | .ok h =>
      let ts := exactTimes none true [1000] (h.out.drop h1.out.length)
      decide (Measured (crossings none true [1000] (h.out.drop h1.out.length)) ts) &&
      (match s.run exampleEnv (polled (ts.map (·, 0, 0, 0))) with
      | .ok _ => p h1 h s (arrivals exampleEnv s (polled (ts.map (·, 0, 0, 0))))
      | .error _ => false)
    | _ => false)
  | _, _ => false

/-- It heard three bytes and hears the last one, of the next time the speed is sent: the packet is put together from
both. -/
example : hearsAgain 88 183 (fun h1 _ s as => decide (s.link.state = .endbit ∧ h1.acc.length = 1 ∧ h1.s.size 4 = 0 ∧
    as = [[3#8, 0x3F#8, 0x86#8, 0xBA#8], [3#8, 0x94#8, 0x97#8]])) = true := by decide +kernel

/-- It heard two bytes and the zero behind them: the preamble of the speed looks like data, and the speed is lost though
it had not begun. -/
example : hearsAgain 72 95 (fun h1 h s as => decide (s.link.state = .data ∧ h1.acc.length = 1 ∧ h.acc.length = 2 ∧
    as = [[3#8, 0x94#8, 0x97#8]])) = true := by decide +kernel

/-- The same while the idle packet before the speed begins: this one is lost. -/
example : hearsAgain 72 0 (fun h1 _ s as => decide (s.link.state = .data ∧ h1.acc.length = 1 ∧ h1.s.size 4 = 1 ∧
    as = [[3#8, 0x3F#8, 0x86#8, 0xBA#8], [3#8, 0x94#8, 0x97#8]])) = true := by decide +kernel

end Dcc
