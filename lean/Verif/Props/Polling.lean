import Verif.Lemmas.RxHeardTime
import Verif.Props.Throttle
import Verif.Props.Track
/-! How often `execute` has to be called: C76. -/
namespace Dcc
open Spec

/-! ### C76 -/

/-- **C76** Whatever comes from the track: if `execute` is called at least every 4013 µs and there is
room for two packets, `receive` never meets a full queue and never more than one packet waits. -/
theorem C76_any_signal (e : Env) (hroom : 2 ≤ e.rxDeque) (s : Rx) (hr : Reachable e s)
    (hd : s.deque = []) (start edge period : Nat) (hp : period ≤ 4013) (xs : List (Nat × RxOp))
    (h : Punctual period start start edge xs) (hn : .disable ∉ calls xs) :
    NeverFull e s (calls xs) ∧ ∀ s', s.run e (calls xs) = .ok s' → s'.deque.length ≤ 1 :=
  polling e hroom 4014 period (by omega) xs s start start edge hr h hn
    (spaced_any _ _ _ hr.recvInv.link (fun t ht => by
      obtain ⟨x, _, rfl⟩ := List.mem_map.mp ht
      exact Nat.le_refl _) nofun fun x hx => by cases hx; omega) hd (Nat.le_refl _)

/-- **C76** If calls of `execute` are late, each period without a call takes room for one more packet. -/
theorem C76_late (e : Env) (spare : Nat) (hroom : spare + 2 ≤ e.rxDeque) (s : Rx) (hr : Reachable e s)
    (hd : s.deque = []) (start edge period : Nat) (hp : period ≤ 4013) (xs : List (Nat × RxOp))
    (h : Attended period spare start start xs) (hl : Lasting edge (recvTimes (calls xs)) xs)
    (hn : .disable ∉ calls xs) :
    NeverFull e s (calls xs) ∧ ∀ s', s.run e (calls xs) = .ok s' → s'.deque.length ≤ spare + 1 :=
  serving e 4014 period (by omega) xs s (some 4014) _ start start edge spare 0 (by omega) hr h hl hn
    (spaced_any _ _ _ hr.recvInv.link (fun t ht => by
      generalize recvTimes (calls xs) = ts at ht
      have key : ∀ ts : List Nat, ∀ t ∈ ts.zip ts, t.1 ≤ t.2 := by
        intro ts
        induction ts with
        | nil => intro t ht; cases ht
        | cons x xs ih =>
          intro t ht
          rcases List.mem_cons.mp ht with rfl | ht
          · exact Nat.le_refl _
          · exact ih t ht
      exact key ts t ht) nofun fun x hx => by cases hx; omega) (by simp [hd])
    (Nat.le_refl _) nofun (fun _ => .inr (by simp [hd])) (.inl (by simp [hd]))

/-- Only calls of `receive` and `execute`. -/
theorem only_calls {ops : List RxOp} (hops : ∀ op ∈ ops, op.isReceive = true ∨ op.isExecute = true) (op : RxOp)
    (h5 : op.isReceive = false) (h6 : op.isExecute = false) : op ∉ ops := by
  intro hm
  rcases hops op hm with h | h
  · rw [h5] at h; cases h
  · rw [h6] at h; cases h

/-- **C76** With a command station none of whose configurations sends a packet in less than `w` µs: if
`execute` is called more often than that, all commands but the last one received are done, and for each call
left out one more may wait. -/
theorem C76_station_late (n w : Nat) (txOps : List TxOp) (h : TxHist)
    (ht : ({ s := {} } : TxHist).run n txOps = .ok h) (hw : w ≤ shortest {})
    (hcfg : ∀ c, .init c ∈ txOps → w ≤ shortest c) (cmds : List Command) (hc : ∀ c ∈ cmds, c.Legal)
    (hacc : h.acc.map (fun a => Except.ok a.2) = cmds.map Command.packet)
    (e : Env) (spare : Nat) (hroom : spare + 2 ≤ e.rxDeque) (s : Rx) (hr : Reachable e s) (hready : Ready e s)
    (start edge period : Nat) (hp : period < w) (xs : List (Nat × RxOp))
    (hsv : Attended period spare start start xs) (hl : Lasting edge (h.out.map (·.duration)) xs)
    (hops : ∀ op ∈ calls xs, op.isReceive = true ∨ op.isExecute = true)
    (htimes : recvTimes (calls xs) = h.out.map (·.duration)) :
    ∃ s', s.run e (calls xs) = .ok s' ∧
      ∃ done waiting unsent : List Command, cmds = done ++ waiting ++ unsent ∧
        drivingCalls s s' = done.flatMap (Command.calls s) ∧ waiting.length ≤ spare + 1 ∧
        (unsent.length = h.s.size n ∨
          unsent.length = h.s.size n + 1 ∧ h.s.packetCount < h.s.current.length) := by
  have hno := only_calls hops
  have hsync := hr.recvInv.link.synced hready.waiting
  have hv : ∀ a ∈ h.acc, ValidPacket a.2 := by
    intro a ha
    have : (Except.ok a.2 : R Packet) ∈ cmds.map Command.packet := by
      rw [← hacc]; exact List.mem_map_of_mem (f := fun a => (Except.ok a.2 : R Packet)) ha
    obtain ⟨c, hm, hcp⟩ := List.mem_map.mp this
    exact Command.valid (hc c hm) hcp
  have hzip : ∀ ts : List Nat, ts.zip ts = asIs ts := by
    intro ts
    induction ts with
    | nil => rfl
    | cons t ts ih => exact congrArg _ ih
  obtain ⟨hf, hlen⟩ := serving e w period hp xs s (some w) _ start start edge spare 0 (by omega) hr hsv hl
    (hno _ rfl rfl) (by rw [htimes, hzip]; exact station_spaced n w txOps h ht hw hcfg hv _ hsync _)
    (by simp [hready.deque]) (Nat.le_refl _) nofun (fun _ => .inr (by simp [hready.deque]))
    (.inl (by simp [hready.deque]))
  obtain ⟨items, unsent, l', os, h1, h2, h3, _⟩ := station_items n txOps h ht cmds hc hacc s.link hsync
  obtain ⟨s', ho⟩ := drive_total e (calls xs) s l' os hr hready.mode hops hf (by rw [htimes]; exact h1) (by
    intro p hp
    rw [hready.deque, List.nil_append] at hp
    have : (Except.ok p : R Packet) ∈ (packetsOf os).map .ok := List.mem_map_of_mem hp
    rw [← h2] at this
    obtain ⟨i, hm, hip⟩ := List.mem_map.mp this
    refine ⟨i, ?_, hip⟩
    rintro c rfl
    refine hc c ?_
    rw [h3]
    exact List.mem_append_left _ (List.mem_filterMap.mpr ⟨_, hm, rfl⟩))
  obtain ⟨done, waiting, uns, h4, h5, h6, h7⟩ := C75_throttle_to_motor n txOps h ht cmds hc hacc e s s' hr
    hready (calls xs) ho (hno _ rfl rfl) (hno _ rfl rfl) hf htimes
  refine ⟨s', ho, done, waiting, uns, h4, h5, ?_, h7⟩
  have hl : waiting.length ≤ s'.deque.length := by
    have := congrArg List.length h6
    simp only [List.length_map] at this
    rw [this]
    exact List.length_filter_le _ _
  have := hlen s' ho
  omega

/-- **C76** With a command station the 5 ms of the manual are enough, whatever its configurations: if
`execute` is called at least every 5885 µs, all commands but the last one received are done. -/
theorem C76_station (n : Nat) (txOps : List TxOp) (h : TxHist)
    (ht : ({ s := {} } : TxHist).run n txOps = .ok h) (cmds : List Command) (hc : ∀ c ∈ cmds, c.Legal)
    (hacc : h.acc.map (fun a => Except.ok a.2) = cmds.map Command.packet)
    (e : Env) (hroom : 2 ≤ e.rxDeque) (s : Rx) (hr : Reachable e s) (hready : Ready e s)
    (start edge period : Nat) (hp : period ≤ 5885) (xs : List (Nat × RxOp))
    (hpt : Punctual period start start edge xs)
    (hops : ∀ op ∈ calls xs, op.isReceive = true ∨ op.isExecute = true)
    (htimes : recvTimes (calls xs) = h.out.map (·.duration)) :
    ∃ s', s.run e (calls xs) = .ok s' ∧
      ∃ done waiting unsent : List Command, cmds = done ++ waiting ++ unsent ∧
        drivingCalls s s' = done.flatMap (Command.calls s) ∧ waiting.length ≤ 1 ∧
        (unsent.length = h.s.size n ∨
          unsent.length = h.s.size n + 1 ∧ h.s.packetCount < h.s.current.length) :=
  C76_station_late n 5886 txOps h ht (by decide) (fun c hm => shortest_ge (run_init_valid _ ht c hm)) cmds hc hacc
    e 0 (by omega) s hr hready start edge period (by omega) xs hpt.attended (htimes ▸ hpt.lasting) hops htimes

/-- **C76** The same if `receive` gets measured times, as in C77: the calls of `receive` are at least as far
apart as the changes of the track signal. -/
theorem C76_measured (n w : Nat) (cfg : TxConfig) (txOps : List TxOp) (h : TxHist)
    (ht : ({ s := {} } : TxHist).run n (.init cfg :: txOps) = .ok h)
    (hinv : ∀ c, .init c ∈ txOps → c.invert = cfg.invert) (hw : w ≤ shortest {})
    (hcfg : ∀ c, .init c ∈ .init cfg :: txOps → w ≤ shortest c) (cmds : List Command) (hc : ∀ c ∈ cmds, c.Legal)
    (hacc : h.acc.map (fun a => Except.ok a.2) = cmds.map Command.packet)
    (e : Env) (spare : Nat) (hroom : spare + 2 ≤ e.rxDeque) (s : Rx) (hr : Reachable e s) (hready : Ready e s)
    (hb : s.link.bitCount ≤ 18) (start edge period : Nat) (hp : period < w) (xs : List (Nat × RxOp))
    (off : Option Bool) (seen : Bool) (before : List Nat) (hsv : Attended period spare start start xs)
    (hl : Lasting edge ((crossings off seen before h.out).map List.sum) xs)
    (hops : ∀ op ∈ calls xs, op.isReceive = true ∨ op.isExecute = true)
    (htimes : Measured (crossings off seen before h.out) (recvTimes (calls xs))) :
    ∃ s', s.run e (calls xs) = .ok s' ∧
      ∃ done waiting unsent : List Command, cmds = done ++ waiting ++ unsent ∧
        drivingCalls s s' = done.flatMap (Command.calls s) ∧ waiting.length ≤ spare + 1 ∧
        (unsent.length = h.s.size n ∨ unsent.length = h.s.size n + 1 ∧ h.s.bidiCount = 0) := by
  have hno := only_calls hops
  have hsync := hr.recvInv.link.synced hready.waiting
  have hv : ∀ a ∈ h.acc, ValidPacket a.2 :=
    accepted_valid (fun c hm p hp => Command.valid (hc c hm) hp) hacc
  obtain ⟨hf, hlen⟩ := serving e w period hp xs s (some w) _ start start edge spare 0 (by omega) hr hsv hl
    (hno _ rfl rfl)
    (heard_spaced n w cfg txOps h ht hinv hw hcfg hv off seen before _ htimes _ hsync hb _)
    (by simp [hready.deque]) (Nat.le_refl _) nofun (fun _ => .inr (by simp [hready.deque]))
    (.inl (by simp [hready.deque]))
  obtain ⟨items, unsent, l', os, h1, h2, h3, _⟩ := heard_items n cfg txOps h ht hinv cmds hc hacc off seen
    before _ htimes s.link hsync hb
  obtain ⟨s', ho⟩ := drive_total e (calls xs) s l' os hr hready.mode hops hf h1 (by
    intro p hp
    rw [hready.deque, List.nil_append] at hp
    have : (Except.ok p : R Packet) ∈ (packetsOf os).map .ok := List.mem_map_of_mem hp
    rw [← h2] at this
    obtain ⟨i, hm, hip⟩ := List.mem_map.mp this
    refine ⟨i, ?_, hip⟩
    rintro c rfl
    refine hc c ?_
    rw [h3]
    exact List.mem_append_left _ (List.mem_filterMap.mpr ⟨_, hm, rfl⟩))
  obtain ⟨done, waiting, uns, h4, h5, h6, h7⟩ := C77_throttle_to_motor n cfg txOps h ht hinv cmds hc hacc e s
    s' hr hready hb (calls xs) ho (hno _ rfl rfl) (hno _ rfl rfl) hf off seen before htimes
  refine ⟨s', ho, done, waiting, uns, h4, h5, ?_, h7⟩
  have hl : waiting.length ≤ s'.deque.length := by
    have := congrArg List.length h6
    simp only [List.length_map] at this
    rw [this]
    exact List.length_filter_le _ _
  have := hlen s' ho
  omega

/-- Half bits with their durations, made into calls of `receive`. -/
def edges : Nat → List Nat → List (Nat × RxOp)
  | _, [] => []
  | time, t :: ts => (time + t, .receive t 0) :: edges (time + t) ts

/-- A packet the decoder accepts, with only ten preamble bits and the shortest bits. -/
def shortWave : List Nat :=
  (frameBits 10 [0xFF#8, 0x00#8, 0xFF#8]).flatMap fun b => if b then [52, 52] else [90, 90]

/-- `execute` is called right after each of these packets. -/
def unlucky : Nat → Nat → List (Nat × RxOp)
  | _, 0 => []
  | time, k + 1 => edges time shortWave ++ (time + 4788, .execute 0 0) :: unlucky (time + 4788) k

theorem punctual_edges (period : Nat) (rest : List (Nat × RxOp)) (ts : List Nat) : ∀ now last time : Nat,
    now ≤ time → time + ts.sum ≤ last + period → (∀ now, now ≤ time + ts.sum →
      Punctual period now last (time + ts.sum) rest) →
    Punctual period now last time (edges time ts ++ rest) := by
  induction ts with
  | nil => intro now last time h1 _ h3; exact h3 now h1
  | cons t ts ih =>
    intro now last time h1 h2 h3
    rw [List.sum_cons] at h2 h3
    refine ⟨by omega, by omega, Nat.le_refl _, ih _ _ _ (Nat.le_refl _) (by omega) ?_⟩
    intro now hn
    rw [Nat.add_assoc] at hn ⊢
    exact h3 now hn

theorem punctual_unlucky (k : Nat) : ∀ now time : Nat, now ≤ time →
    Punctual 5000 now time time (unlucky time k) := by
  induction k with
  | zero => intro _ _ _; trivial
  | succ k ih =>
    intro now time h
    have hs : shortWave.sum = 4788 := by decide
    refine punctual_edges 5000 _ shortWave now time time h (by omega) fun now hn => ?_
    rw [hs] at hn ⊢
    exact ⟨hn, by omega, ih _ _ (Nat.le_refl _)⟩

/-- **C76** In general 5 ms are not enough: the decoder accepts packets with ten preamble bits, which
may come every 4788 µs.  `execute` called as often, each time between a packet and the half bit after
it, executes nothing, and the queue gets full. -/
theorem C76_five_milliseconds_false : ∃ (e : Env) (s : Rx) (xs : List (Nat × RxOp)) (s' : Rx),
    e.rxDeque = 31 ∧ Reachable e s ∧ Ready e s ∧ Punctual 5000 0 0 0 xs ∧ .disable ∉ calls xs ∧
    s.run e (calls xs) = .ok s' ∧ executed e s (calls xs) = [] ∧ s'.deque.length = 31 := by
  have key : (match ({} : Rx).run exampleEnv [.init] with
    | .ok s => decide (s.serviceMode = false ∧ s.deque = [] ∧ s.link.state = .preamble) &&
      (match s.run exampleEnv (calls (unlucky 0 31)) with
      | .ok s' => decide (executed exampleEnv s (calls (unlucky 0 31)) = [] ∧ s'.deque.length = 31)
      | .error _ => false)
    | .error _ => false) = true := by decide +kernel
  split at key
  · rename_i s hs
    rw [Bool.and_eq_true] at key
    obtain ⟨k1, k2⟩ := key
    split at k2
    · rename_i s' hs'
      have k1 := of_decide_eq_true k1
      have k2 := of_decide_eq_true k2
      exact ⟨exampleEnv, s, unlucky 0 31, s', rfl, Reachable.run .start [.init] hs,
        ⟨k1.1, k1.2.1, by decide, k1.2.2⟩, punctual_unlucky 31 0 0 (Nat.le_refl _), by decide +kernel, hs', k2.1, k2.2⟩
    · cases k2
  · cases key

/-- A command station with the shortest preamble and the shortest bits, and five short packets. -/
def hurriedStation : List TxOp :=
  .init { numPreamble := 17#8, bit1 := 56#8, bit0 := 97#8, bidi := false } ::
    List.replicate 90 .transmit ++ List.replicate 5 (.bytes [0x7F#8, 0x9F#8, 0xE0#8]) ++
      List.replicate (5 * 90) .transmit

/-- `execute` is called right after each of its packets, and once in the first one. -/
def hurriedCalls (ts : List Nat) : List (Nat × RxOp) :=
  (edges 0 ts).zipIdx.flatMap fun x => if x.2 % 90 = 89 ∨ x.2 = 44 then [x.1, (x.1.1, .execute 0 0)] else [x.1]

/-- A receive queue with room for six packets. -/
def narrowEnv : Env := { exampleEnv with rxDeque := 6 }

/-- **C76** With a command station 6 ms are not enough: packets may follow each other every 5942 µs.  `execute`
called as often, each time between a packet and the half bit after it, executes nothing, and the queue gets
full. -/
theorem C76_six_milliseconds_false : ∃ (h : TxHist) (e : Env) (s : Rx) (xs : List (Nat × RxOp)) (s' : Rx),
    ({ s := {} } : TxHist).run 8 hurriedStation = .ok h ∧ h.acc.length = 5 ∧
    e.rxDeque = 6 ∧ Reachable e s ∧ Ready e s ∧ recvTimes (calls xs) = h.out.map (·.duration) ∧
    Punctual 5942 0 0 0 xs ∧ .disable ∉ calls xs ∧
    s.run e (calls xs) = .ok s' ∧ executed e s (calls xs) = [] ∧ s'.deque.length = 6 := by
  have key : (match ({ s := {} } : TxHist).run 8 hurriedStation, ({} : Rx).run narrowEnv [.init] with
    | .ok h, .ok s => decide (s.serviceMode = false ∧ s.deque = [] ∧ s.link.state = .preamble ∧ h.acc.length = 5) &&
      (match s.run narrowEnv (calls (hurriedCalls (h.out.map (·.duration)))) with
      | .ok s' => decide (executed narrowEnv s (calls (hurriedCalls (h.out.map (·.duration)))) = [] ∧
          s'.deque.length = 6 ∧
          recvTimes (calls (hurriedCalls (h.out.map (·.duration)))) = h.out.map (·.duration) ∧
          Punctual 5942 0 0 0 (hurriedCalls (h.out.map (·.duration))) ∧
          .disable ∉ calls (hurriedCalls (h.out.map (·.duration))))
      | .error _ => false)
    | _, _ => false) = true := by decide +kernel
  split at key
  · rename_i h s hh hs
    rw [Bool.and_eq_true] at key
    obtain ⟨k1, k2⟩ := key
    split at k2
    · rename_i s' hs'
      obtain ⟨a1, a2, a3, a4⟩ := of_decide_eq_true k1
      obtain ⟨b1, b2, b3, b4, b5⟩ := of_decide_eq_true k2
      exact ⟨h, narrowEnv, s, _, s', hh, a4, rfl, Reachable.run .start [.init] hs,
        ⟨a1, a2, by decide, a3⟩, b3, b4, b5, hs', b1, b2⟩
    · cases k2
  · cases key

/-- Time stamps for a station's durations, `execute` every 60 half bits. -/
def exampleSchedule (ts : List Nat) : List (Nat × RxOp) :=
  (edges 0 ts).zipIdx.flatMap fun x => if x.2 % 60 = 59 then [x.1, (x.1.1, .execute 0 0)] else [x.1]

example :
    (match ({ s := {} } : TxHist).run 4 exampleStation, ({} : Rx).run exampleEnv [.init] with
    | .ok h, .ok s =>
      let xs := exampleSchedule (h.out.map (·.duration))
      decide (Punctual 5885 0 0 0 xs ∧ recvTimes (calls xs) = h.out.map (·.duration)) &&
      (match s.run exampleEnv (calls xs) with
      | .ok s' => decide (drivingCalls s s' = exampleCommands.flatMap (Command.calls s))
      | .error _ => false)
    | _, _ => false) = true := by decide +kernel

example : Punctual 4013 0 0 0 [(58, .receive 58 0), (60, .execute 0 0), (116, .receive 58 0)] := by decide

/-- Every 70 half bits, but once not. -/
def lateSchedule (ts : List Nat) : List (Nat × RxOp) :=
  (edges 0 ts).zipIdx.flatMap fun x =>
    if x.2 % 70 = 69 ∧ x.2 ≠ 139 then [x.1, (x.1.1, .execute 0 0)] else [x.1]

example :
    (match ({ s := {} } : TxHist).run 4 exampleStation, ({} : Rx).run exampleEnv [.init] with
    | .ok h, .ok s =>
      let xs := lateSchedule (h.out.map (·.duration))
      let ys := lateSchedule (exactTimes none true [] h.out)
      decide (shortest {} = 6086 ∧ ¬ Punctual 6085 0 0 0 xs ∧ ¬ Attended 6085 0 0 0 ys) &&
      decide (Attended 6085 1 0 0 xs ∧ Lasting 0 (h.out.map (·.duration)) xs ∧
        recvTimes (calls xs) = h.out.map (·.duration)) &&
      decide (Attended 6085 1 0 0 ys ∧ Lasting 0 (exactTimes none true [] h.out) ys ∧
        Measured (crossings none true [] h.out) (recvTimes (calls ys))) &&
      (match s.run exampleEnv (calls ys) with
      | .ok s' => decide (drivingCalls s s' ≠ [])
      | .error _ => false)
    | _, _ => false) = true := by decide +kernel

example : Attended 4013 1 0 0 [(58, .receive 58 0), (5000, .execute 0 0), (5058, .receive 58 0)] ∧
    Lasting 0 [58, 58] [(58, .receive 58 0), (5000, .execute 0 0), (5058, .receive 58 0)] := by decide

end Dcc
