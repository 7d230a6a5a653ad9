import Verif.Lemmas.RxThrottle
import Verif.Props.RxLink
/-! From the throttle to the motor, over whole histories: C75. -/
namespace Dcc
open Spec

/-! ### C75 -/

/-- What a decoder in operations mode with nothing to execute does, if the durations are those of the
packets `items`. -/
theorem drive_items {e : Env} {s s' : Rx} (hr : Reachable e s) (hready : Ready e s) {ops : List RxOp}
    (ho : s.run e ops = .ok s') (hi : .init ∉ ops) (hd : .disable ∉ ops) (hf : NeverFull e s ops)
    {items : List Item} (hleg : ∀ i ∈ items, i.Legal) {l' : Link} {os : List LinkOut}
    (h1 : s.link.run (recvTimes ops) = .ok (l', os)) (h2 : items.map Item.packet = (packetsOf os).map .ok) :
    ∃ i1 i2, items = i1 ++ i2 ∧ drivingCalls s s' = (i1.filterMap id).flatMap (Command.calls s) ∧
      (i2.filterMap id).map Command.packet = (s'.deque.filter (· ≠ idleBytes)).map .ok := by
  have hpk : ∀ p ∈ packetsOf os, ∃ i : Item, i.Legal ∧ i.packet = .ok p := by
    intro p hp
    have : (Except.ok p : R Packet) ∈ (packetsOf os).map .ok := List.mem_map_of_mem hp
    rw [← h2] at this
    obtain ⟨i, hm, hip⟩ := List.mem_map.mp this
    exact ⟨i, hleg i hm, hip⟩
  have hnl : ∀ p ∈ packetsOf os, isLogon p = false := fun p hp =>
    let ⟨i, h5, h6⟩ := hpk p hp
    i.not_logon h5 h6
  obtain ⟨os', h5, h6⟩ := run_interleaved e ops s s' ho hd hf
  rw [h1] at h5
  simp only [Except.ok.injEq, Prod.mk.injEq] at h5
  obtain ⟨-, rfl⟩ := h5
  have hfifo := C27_fifo e ops s s' hr ho
  rw [hready.deque, List.nil_append, h6, List.filter_eq_self.mpr (by
    intro p hp; simp [hnl p hp])] at hfifo
  rw [hfifo, List.map_append] at h2
  obtain ⟨i1, i2, rfl, h7, h8⟩ := List.map_eq_append_iff.mp h2
  obtain ⟨_, h9, _⟩ := drive_run e ops s s' i1 hr hready.mode hi hd hf ho (by
    intro l os' hos
    rw [h1] at hos
    simp only [Except.ok.injEq, Prod.mk.injEq] at hos
    obtain ⟨-, rfl⟩ := hos
    exact hnl) (fun i hm => hleg i (by simp [hm])) h7
  refine ⟨i1, i2, rfl, ?_, ?_⟩
  · rw [h9]
    clear h2 h7 h9 hleg hfifo
    induction i1 with
    | nil => rfl
    | cons i is ih => cases i <;> simp [ih, Item.calls]
  · have hl2 : ∀ i ∈ i2, i.Legal := fun i hm => hleg i (by simp [hm])
    clear h2 h6 h7 h9 hleg hfifo ho hf
    generalize s'.deque = dq at h8
    induction i2 generalizing dq with
    | nil =>
      cases dq with
      | nil => rfl
      | cons p ps => simp at h8
    | cons i is ih =>
      cases dq with
      | nil => simp at h8
      | cons p ps =>
        simp only [List.map_cons, List.cons.injEq] at h8
        have := ih (fun i hm => hl2 i (by simp [hm])) ps h8.2
        cases i with
        | none =>
          have hp : p = idleBytes := by
            have : (Except.ok idleBytes : R Packet) = .ok p := h8.1
            cases this; rfl
          rw [List.filter_cons_of_neg (by simp [hp])]
          simpa using this
        | some c =>
          have hp : p ≠ idleBytes := Command.not_idle (hl2 (some c) (by simp) c rfl) h8.1
          rw [List.filter_cons_of_pos (by simpa using hp), List.map_cons, ← this]
          simp only [List.filterMap_cons_some (f := id) rfl, List.map_cons, List.cons.injEq, and_true]
          exact h8.1

/-- **C75** A command station only accepted driving commands `cmds`, each the packet a builder makes
for a locomotive address.  A decoder in operations mode with nothing to execute, waiting for a
preamble, gets every duration the station transmits.  Meanwhile anything except `init` and `disable`
may be called in any order; `receive` never meets a full queue.  Then the commands are those `done`,
those `waiting` in the decoder's queue and those `unsent`, in this order, and the calls that moved
the locomotive are exactly those asked by the commands done, in order, none twice and none left out.
Unsent are those in the station's queue and at most the one being sent. -/
theorem C75_throttle_to_motor (n : Nat) (txOps : List TxOp) (h : TxHist)
    (ht : ({ s := {} } : TxHist).run n txOps = .ok h) (cmds : List Command) (hc : ∀ c ∈ cmds, c.Legal)
    (hacc : h.acc.map (fun a => Except.ok a.2) = cmds.map Command.packet)
    (e : Env) (s s' : Rx) (hr : Reachable e s) (hready : Ready e s) (ops : List RxOp)
    (ho : s.run e ops = .ok s') (hi : .init ∉ ops) (hd : .disable ∉ ops) (hf : NeverFull e s ops)
    (htimes : recvTimes ops = h.out.map (·.duration)) :
    ∃ done waiting unsent : List Command, cmds = done ++ waiting ++ unsent ∧
      drivingCalls s s' = done.flatMap (Command.calls s) ∧
      waiting.map Command.packet = (s'.deque.filter (· ≠ idleBytes)).map .ok ∧
      (unsent.length = h.s.size n ∨
        unsent.length = h.s.size n + 1 ∧ h.s.packetCount < h.s.current.length) := by
  obtain ⟨items, unsent, l', os, h1, h2, rfl, h4⟩ := station_items n txOps h ht cmds hc hacc s.link
    (hr.recvInv.link.synced hready.waiting)
  obtain ⟨i1, i2, rfl, h5, h6⟩ := drive_items hr hready ho hi hd hf (by
    rintro i hm c rfl
    exact hc c (List.mem_append_left _ (List.mem_filterMap.mpr ⟨_, hm, rfl⟩))) (by rw [htimes]; exact h1) h2
  exact ⟨i1.filterMap id, i2.filterMap id, unsent, by simp, h5, h6, h4⟩

/-- **C75** Without a fault as a hypothesis: a main loop that calls `execute` after every call of
`receive`, with room for two packets, never faults and never meets a full queue; at most one command
waits, the one whose end bit was received last. -/
theorem C75_main_loop (n : Nat) (txOps : List TxOp) (h : TxHist)
    (ht : ({ s := {} } : TxHist).run n txOps = .ok h) (cmds : List Command) (hc : ∀ c ∈ cmds, c.Legal)
    (hacc : h.acc.map (fun a => Except.ok a.2) = cmds.map Command.packet)
    (e : Env) (hroom : 2 ≤ e.rxDeque) (s : Rx) (hr : Reachable e s) (hready : Ready e s)
    (xs : List (Nat × Nat × Int × Nat)) (htimes : xs.map (·.1) = h.out.map (·.duration)) :
    ∃ s', s.run e (polled xs) = .ok s' ∧
      ∃ done waiting unsent : List Command, cmds = done ++ waiting ++ unsent ∧
        drivingCalls s s' = done.flatMap (Command.calls s) ∧
        waiting.length ≤ (if s'.packetEnd then 1 else 0) ∧
        (unsent.length = h.s.size n ∨
          unsent.length = h.s.size n + 1 ∧ h.s.packetCount < h.s.current.length) := by
  obtain ⟨hf, hend⟩ := polled_neverFull e hroom xs s hr (by simp [hready.deque])
    (fun _ => hready.deque)
  have htm : recvTimes (polled xs) = h.out.map (·.duration) := by
    rw [← htimes]
    clear hf hend htimes
    induction xs with
    | nil => rfl
    | cons x xs ih =>
      have : recvTimes (polled (x :: xs)) = x.1 :: recvTimes (polled xs) := rfl
      rw [this, ih]; rfl
  have hops : ∀ op ∈ polled xs, op.isReceive = true ∨ op.isExecute = true := by
    intro op hop
    unfold polled at hop
    obtain ⟨x, _, hop⟩ := List.mem_flatMap.mp hop
    simp only [List.mem_cons, List.not_mem_nil, or_false] at hop
    rcases hop with rfl | rfl
    · exact .inl rfl
    · exact .inr rfl
  obtain ⟨items, unsent, l', os, h1, h2, h3, _⟩ := station_items n txOps h ht cmds hc hacc s.link
    (hr.recvInv.link.synced hready.waiting)
  obtain ⟨s', ho⟩ := drive_total e (polled xs) s l' os hr hready.mode hops hf (by rw [htm]; exact h1) (by
    intro p hp
    rw [hready.deque, List.nil_append] at hp
    have : (Except.ok p : R Packet) ∈ (packetsOf os).map .ok := List.mem_map_of_mem hp
    rw [← h2] at this
    obtain ⟨i, hm, hip⟩ := List.mem_map.mp this
    refine ⟨i, ?_, hip⟩
    rintro c rfl
    refine hc c ?_
    rw [h3]
    exact List.mem_append_left _ (List.mem_filterMap.mpr ⟨_, hm, rfl⟩))
  have hno : ∀ op, op.isReceive = false → op.isExecute = false → op ∉ polled xs := by
    intro op h5 h6 hm
    rcases hops op hm with h | h
    · rw [h5] at h; cases h
    · rw [h6] at h; cases h
  obtain ⟨done, waiting, uns, h4, h5, h6, h7⟩ := C75_throttle_to_motor n txOps h ht cmds hc hacc e s s' hr
    hready (polled xs) ho (hno _ rfl rfl) (hno _ rfl rfl) hf htm
  refine ⟨s', ho, done, waiting, uns, h4, h5, ?_, h7⟩
  obtain ⟨h8, h9⟩ := hend s' ho
  have hlen : waiting.length ≤ s'.deque.length := by
    have := congrArg List.length h6
    simp only [List.length_map] at this
    rw [this]
    exact List.length_filter_le _ _
  cases hpe : s'.packetEnd
  · rw [h9 hpe] at hlen; simpa using hlen
  · simp only [if_true]; omega

/-- The station sends step 5 of 126 to locomotive 3, F0 and F3 to locomotive 7 and a stop to all
locomotives, with cutouts; the decoder has address 3. -/
def exampleCommands : List Command :=
  [⟨{ value := 3, type := .short }, .advancedSpeed 0x86#8⟩, ⟨{ value := 7, type := .short }, .f4f0 0x09#8⟩,
   ⟨{ value := 0, type := .broadcast }, .speedAndDirection 0x20#8⟩]

/-- The station's calls. -/
def exampleStation : List TxOp :=
  [.init { bidi := true }, .bytes [3#8, 0x3F#8, 0x86#8, 0xBA#8], .bytes [7#8, 0x94#8, 0x93#8],
   .bytes [0#8, 0x60#8, 0x60#8]] ++ List.replicate 420 .transmit

example :
    (match ({ s := {} } : TxHist).run 4 exampleStation, ({} : Rx).run exampleEnv [.init] with
    | .ok h, .ok s =>
      decide (h.acc.map (·.2) =
          [[3#8, 0x3F#8, 0x86#8, 0xBA#8], [7#8, 0x94#8, 0x93#8], [0#8, 0x60#8, 0x60#8]] ∧
        s.serviceMode = false ∧ s.deque = [] ∧ s.link.state = .preamble) &&
      (match s.run exampleEnv (polled (h.out.map fun o => (o.duration, 0, 0, 0))) with
      | .ok s' => decide (drivingCalls s s' = exampleCommands.flatMap (Command.calls s) ∧
          drivingCalls s s' = [.direction 3#16 true, .speed 3#16 10, .direction 0#16 true, .speed 0#16 0])
      | .error _ => false)
    | _, _ => false) = true := by decide +kernel

/-- The commands are legal and made by the builders. -/
example : (∀ c ∈ exampleCommands, c.Legal) ∧ exampleCommands.map Command.packet =
    [.ok [3#8, 0x3F#8, 0x86#8, 0xBA#8], .ok [7#8, 0x94#8, 0x93#8], .ok [0#8, 0x60#8, 0x60#8]] := by
  refine ⟨?_, by decide +kernel⟩
  intro c hc
  simp only [exampleCommands, List.mem_cons, List.not_mem_nil, or_false] at hc
  rcases hc with rfl | rfl | rfl
  · exact ⟨.inr (.inl ⟨rfl, by decide, by decide⟩), trivial⟩
  · exact ⟨.inr (.inl ⟨rfl, by decide, by decide⟩), trivial⟩
  · exact ⟨.inl ⟨rfl, rfl⟩, show (0x20#8).toNat < 64 by decide⟩

end Dcc
