import Verif.Lemmas.RxCvExec
import Verif.Props.Polling
import Verif.Spec.Batch
/-! Packets executed several at a time: C116. -/
namespace Dcc
open Spec

theorem neverFull_both (e : Env) (a b : List RxOp) : ∀ s : Rx, NeverFull e s a →
    (∀ s1, s.run e a = .ok s1 → NeverFull e s1 b) → NeverFull e s (a ++ b) := by
  induction a with
  | nil => intro s _ h; exact h s rfl
  | cons op a ih =>
    intro s h1 h2
    refine ⟨h1.1, ?_⟩
    have h3 := h1.2
    cases h4 : s.step e op with
    | error f => trivial
    | ok s1 =>
      rw [h4] at h3
      exact ih s1 h3 fun s2 h5 => h2 s2 (by rw [Rx.run, h4]; exact h5)

/-- What gathers between two batches. -/
theorem gathering (e : Env) (w k pause : Nat) (hk : pause < k * w) (hroom : k < e.rxDeque) (later : List RxOp)
    (ops : List RxOp) : ∀ (z : Rx) (since : Option Nat) (elapsed : Nat), Reachable e z →
    (∀ op ∈ ops, op.isExecute = false ∧ op ≠ .disable) →
    z.link.Spaced w since (asIs (recvTimes (ops ++ later))) → elapsed + (recvTimes ops).sum ≤ pause →
    (since = none → z.packetEnd = true) →
    (z.deque = [] ∨ ∃ j, z.deque.length ≤ j + 1 ∧ j * w + since.getD 0 ≤ elapsed) →
    NeverFull e z ops ∧ ∀ z', z.run e ops = .ok z' → z'.deque.length ≤ k ∧
      ∃ since', z'.link.Spaced w since' (asIs (recvTimes later)) ∧ (since' = none → z'.packetEnd = true) := by
  have bound : ∀ (z : Rx) (since : Option Nat) (elapsed : Nat), elapsed ≤ pause →
      (z.deque = [] ∨ ∃ j, z.deque.length ≤ j + 1 ∧ j * w + since.getD 0 ≤ elapsed) → z.deque.length ≤ k := by
    rintro z since elapsed hle (h | ⟨j, h1, h2⟩)
    · rw [h]; exact Nat.zero_le _
    · have : j * w < k * w := by omega
      have := Nat.lt_of_mul_lt_mul_right this
      omega
  induction ops with
  | nil =>
    intro z since elapsed _ _ hs hle h3 h5
    refine ⟨trivial, fun z' h => ?_⟩
    cases h
    exact ⟨bound _ since elapsed (Nat.le_trans (Nat.le_add_right _ _) hle) h5, since, hs, h3⟩
  | cons op ops ih =>
    intro z since elapsed hr hops hs hle h3 h5
    have hlen := bound z since elapsed (Nat.le_trans (Nat.le_add_right _ _) hle) h5
    have hlt : z.deque.length < e.rxDeque := by omega
    obtain ⟨hne, hnd⟩ := hops op List.mem_cons_self
    have hops' : ∀ op ∈ ops, op.isExecute = false ∧ op ≠ .disable := fun o ho => hops o (List.mem_cons_of_mem _ ho)
    cases hz1 : z.step e op with
    | error f =>
      refine ⟨⟨fun _ => hlt, by rw [hz1]; trivial⟩, fun z' h => ?_⟩
      rw [Rx.run, hz1] at h
      have h : (Except.error f : R Rx) = .ok z' := h
      cases h
    | ok z1 =>
      suffices hgo : NeverFull e z1 ops ∧ ∀ z', z1.run e ops = .ok z' → z'.deque.length ≤ k ∧
          ∃ since', z'.link.Spaced w since' (asIs (recvTimes later)) ∧ (since' = none → z'.packetEnd = true) by
        refine ⟨⟨fun _ => hlt, by rw [hz1]; exact hgo.1⟩, fun z' h => ?_⟩
        rw [Rx.run, hz1, ok_bind] at h
        exact hgo.2 z' h
      have hr1 := hr.step op hz1
      by_cases hrecv : ∃ t r, op = .receive t r
      · obtain ⟨t, r, rfl⟩ := hrecv
        have ht : recvTimes (.receive t r :: ops) = t :: recvTimes ops := rfl
        rw [ht, List.sum_cons] at hle
        obtain ⟨o, h6, h7⟩ := receive_spec e z z1 _ _ hz1 hlt
        have hdq := h7.deque.2
        have hpe := step_packetEnd _ _ _ _ h6
        have hs : z.link.Spaced w since ((t, t) :: asIs (recvTimes (ops ++ later))) := hs
        have hs := hs _ _ h6
        by_cases hpk : ∃ p, o = some (.packet p)
        · obtain ⟨p, rfl⟩ := hpk
          obtain ⟨hs1, hs2⟩ := hs
          have hle1 : (queued (some (LinkOut.packet p))).length ≤ 1 := by
            simp only [queued]
            split <;> simp
          have hlen1 : z1.deque.length ≤ z.deque.length + 1 := by
            rw [hdq, List.length_append]; omega
          refine ih z1 none (elapsed + t) hr1 hops' hs2 (by omega) (fun _ => hpe.mpr ⟨p, rfl⟩) (.inr ?_)
          rcases h5 with h5 | ⟨j, h5, h8⟩
          · exact ⟨0, by rw [h5] at hlen1; simpa using hlen1, by simp⟩
          · refine ⟨j + 1, by omega, ?_⟩
            cases hsn : since with
            | none =>
              have := preamble_no_packet z.link _ _ _ (hr.recvInv.link.pend (h3 hsn)).1 h6
              cases this
            | some x =>
              have := hs1 x hsn
              rw [hsn] at h8
              simp only [Option.getD_some, Option.getD_none] at h8 ⊢
              rw [Nat.succ_mul]
              omega
        · have hq : queued o = [] := by
            rcases o with _ | (_ | p | _) <;> first | rfl | exact absurd ⟨p, rfl⟩ hpk
          have hs2 : z1.link.Spaced w (some (since.elim 0 (· + t))) (asIs (recvTimes (ops ++ later))) := by
            rcases o with _ | (_ | p | _) <;> first | exact hs | exact absurd ⟨p, rfl⟩ hpk
          rw [hq, List.append_nil] at hdq
          refine ih z1 _ (elapsed + t) hr1 hops' hs2 (by omega) (fun hx => by cases hx) ?_
          rw [hdq]
          refine h5.imp id ?_
          rintro ⟨j, h5, h8⟩
          refine ⟨j, h5, ?_⟩
          cases hsn : since with
          | none =>
            rw [hsn] at h8
            simp only [Option.getD_none, Option.elim_none, Option.getD_some] at h8 ⊢
            omega
          | some y =>
            rw [hsn] at h8
            simp only [Option.elim_some, Option.getD_some] at h8 ⊢
            omega
      · have hno : ∀ t r, op ≠ .receive t r := fun t r h => hrecv ⟨t, r, h⟩
        obtain ⟨h6, h7⟩ := step_other e z z1 op hz1 hno hnd
        have hrt : ∀ os, recvTimes (op :: os) = recvTimes os := by
          intro os
          cases op <;> first | rfl | exact absurd rfl (hno _ _)
        rw [List.cons_append, hrt, ← h6] at hs
        rw [hrt] at hle
        have hpe : z1.packetEnd = z.packetEnd := by unfold Rx.packetEnd; rw [h6]
        have hdq : z1.deque = z.deque := by
          rw [h7]; simp [hne]
        exact ih z1 since elapsed hr1 hops' hs hle (fun hx => by rw [hpe]; exact h3 hx) (by rw [hdq]; exact h5)

/-- Calls of `execute` take packets from the queue and leave the rest of the receiver as it is. -/
theorem executing (e : Env) (cs : List (Int × Nat)) : ∀ (z z' : Rx), z.packetEnd = false →
    z.run e (cs.map fun c => .execute c.1 c.2) = .ok z' →
    z'.link = z.link ∧ z'.deque = z.deque.drop cs.length := by
  induction cs with
  | nil => intro z z' _ h; cases h; exact ⟨rfl, rfl⟩
  | cons c cs ih =>
    intro z z' hp h
    rw [List.map_cons, Rx.run, bind_eq_ok] at h
    obtain ⟨z1, h1, h2⟩ := h
    obtain ⟨h3, h4⟩ := step_other e z z1 _ h1 (fun _ _ h => by cases h) (fun h => by cases h)
    rw [hp] at h4
    simp only [RxOp.isExecute, Bool.not_false, Bool.and_self, if_true] at h4
    obtain ⟨h5, h6⟩ := ih z1 z' (by unfold Rx.packetEnd at hp ⊢; rw [h3]; exact hp) h2
    rw [h5, h3, h6, h4, List.drop_drop, List.length_cons, Nat.add_comm]
    exact ⟨rfl, rfl⟩

theorem executes_times (b : Batch) : recvTimes b.executes = [] := by
  simp [recvTimes, Batch.executes, List.filterMap_map, List.filterMap_eq_nil_iff]

theorem executes_neverFull (e : Env) (cs : List (Int × Nat)) : ∀ (z : Rx),
    NeverFull e z (cs.map fun c => .execute c.1 c.2) := by
  induction cs with
  | nil => intro z; trivial
  | cons c cs ih =>
    intro z
    refine ⟨fun h => (by cases h), ?_⟩
    split
    · exact ih _
    · trivial

/-- Batches empty the queue in time. -/
theorem batches (e : Env) (w k pause : Nat) (hk : pause < k * w) (hroom : k < e.rxDeque) (bs : List Batch) :
    ∀ (z : Rx) (since : Option Nat), Reachable e z → z.deque = [] → Regular e k pause z bs →
    z.link.Spaced w since (asIs (recvTimes (bs.flatMap Batch.ops))) → (since = none → z.packetEnd = true) →
    NeverFull e z (bs.flatMap Batch.ops) ∧ ∀ z', z.run e (bs.flatMap Batch.ops) = .ok z' → z'.deque = [] := by
  induction bs with
  | nil =>
    intro z since _ hd _ _ _
    refine ⟨trivial, fun z' h => ?_⟩
    cases h
    exact hd
  | cons b bs ih =>
    intro z since hr hd hreg hs h3
    obtain ⟨h1, h2, h4, h5, h6⟩ := hreg
    rw [List.flatMap_cons, Batch.ops, List.append_assoc] at hs ⊢
    obtain ⟨g1, g2⟩ := gathering e w k pause hk hroom _ b.between z since 0 hr h4 hs (by omega) h3 (.inl hd)
    have step : ∀ s1, z.run e b.between = .ok s1 → ∀ s2, s1.run e b.executes = .ok s2 →
        NeverFull e s2 (bs.flatMap Batch.ops) ∧ ∀ z', s2.run e (bs.flatMap Batch.ops) = .ok z' → z'.deque = [] := by
      intro s1 hs1 s2 hs2
      obtain ⟨g3, since', g4, g5⟩ := g2 s1 hs1
      obtain ⟨g6, g7⟩ := executing e b.calls s1 s2 (h5 s1 hs1) hs2
      have hops : z.run e b.ops = .ok s2 := by rw [Batch.ops, run_append e _ _ z s1 hs1]; exact hs2
      refine ih s2 since' (hr.run _ hops) ?_ (h6 s2 hops) ?_ ?_
      · rw [g7]
        exact List.drop_eq_nil_of_le (by omega)
      · have : recvTimes (b.executes ++ bs.flatMap Batch.ops) = recvTimes (bs.flatMap Batch.ops) := by
          unfold recvTimes
          rw [List.filterMap_append]
          exact (congrArg (· ++ _) (executes_times b)).trans (List.nil_append _)
        rw [g6, ← this]
        exact g4
      · intro hx
        have := g5 hx
        unfold Rx.packetEnd at this ⊢
        rw [g6]
        exact this
    refine ⟨neverFull_both e _ _ z g1 fun s1 hs1 => neverFull_both e _ _ s1 (executes_neverFull e _ s1) fun s2 hs2 =>
      (step s1 hs1 s2 hs2).1, fun z' h => ?_⟩
    obtain ⟨s1, hs1, h⟩ := run_append_split e _ _ z z' h
    obtain ⟨s2, hs2, h⟩ := run_append_split e _ _ s1 z' h
    exact (step s1 hs1 s2 hs2).2 z' h

/-- **C116** Whatever comes from the track: if batches of `k` calls of `execute` are made so often that the half bits in
between take less than `k` times 4014 µs, no batch begins directly behind a packet, and there is room for more than
`k` packets, then `receive` never meets a full queue, and after each batch everything that arrived has been executed. -/
theorem C116_any_signal (e : Env) (k pause : Nat) (hk : pause < k * 4014) (hroom : k < e.rxDeque) (s : Rx)
    (hr : Reachable e s) (hd : s.deque = []) (bs : List Batch) (h : Regular e k pause s bs) :
    NeverFull e s (bs.flatMap Batch.ops) ∧ ∀ s', s.run e (bs.flatMap Batch.ops) = .ok s' →
      s'.deque = [] ∧ executed e s (bs.flatMap Batch.ops) = arrivals e s (bs.flatMap Batch.ops) := by
  obtain ⟨h1, h2⟩ := batches e 4014 k pause hk hroom bs s (some 4014) hr hd h
    (spaced_any _ _ _ hr.recvInv.link (fun t ht => by
      obtain ⟨x, _, rfl⟩ := List.mem_map.mp ht
      exact Nat.le_refl _) nofun fun x hx => by cases hx; omega) nofun
  refine ⟨h1, fun s' ho => ⟨h2 s' ho, ?_⟩⟩
  have := C27_fifo e _ s s' hr ho
  rw [hd, h2 s' ho, List.nil_append, List.append_nil] at this
  exact this.symm

/-- **C116** With a command station none of whose configurations sends a packet in less than `w` µs the pauses may be
`k` times as long, and after each batch all commands received are done. -/
theorem C116_station (n w : Nat) (txOps : List TxOp) (h : TxHist)
    (ht : ({ s := {} } : TxHist).run n txOps = .ok h) (hw : w ≤ shortest {})
    (hcfg : ∀ c, .init c ∈ txOps → w ≤ shortest c) (cmds : List Command) (hc : ∀ c ∈ cmds, c.Legal)
    (hacc : h.acc.map (fun a => Except.ok a.2) = cmds.map Command.packet)
    (e : Env) (k pause : Nat) (hk : pause < k * w) (hroom : k < e.rxDeque) (s : Rx) (hr : Reachable e s)
    (hready : Ready e s) (bs : List Batch) (hreg : Regular e k pause s bs)
    (hops : ∀ op ∈ bs.flatMap Batch.ops, op.isReceive = true ∨ op.isExecute = true)
    (htimes : recvTimes (bs.flatMap Batch.ops) = h.out.map (·.duration)) :
    ∃ s', s.run e (bs.flatMap Batch.ops) = .ok s' ∧
      ∃ done unsent : List Command, cmds = done ++ unsent ∧ drivingCalls s s' = done.flatMap (Command.calls s) ∧
        (unsent.length = h.s.size n ∨
          unsent.length = h.s.size n + 1 ∧ h.s.packetCount < h.s.current.length) := by
  have hno := only_calls hops
  have hsync := hr.recvInv.link.synced hready.waiting
  have hv : ∀ a ∈ h.acc, ValidPacket a.2 :=
    accepted_valid (fun c hm p hp => Command.valid (hc c hm) hp) hacc
  obtain ⟨hf, hlen⟩ := batches e w k pause hk hroom bs s (some w) hr hready.deque hreg
    (by rw [htimes]; exact station_spaced n w txOps h ht hw hcfg hv _ hsync _) nofun
  obtain ⟨items, unsent, l', os, h1, h2, h3, _⟩ := station_items n txOps h ht cmds hc hacc s.link hsync
  obtain ⟨s', ho⟩ := drive_total e _ s l' os hr hready.mode hops hf (by rw [htimes]; exact h1) (by
    intro p hp
    rw [hready.deque, List.nil_append] at hp
    have : (Except.ok p : R Packet) ∈ (packetsOf os).map .ok := List.mem_map_of_mem hp
    rw [← h2] at this
    obtain ⟨i, hm, hip⟩ := List.mem_map.mp this
    refine ⟨i, ?_, hip⟩
    rintro c rfl
    refine hc c ?_
    rw [h3]
    exact List.mem_append_left _ (List.mem_filterMap.mpr ⟨_, hm, rfl⟩))
  obtain ⟨done, waiting, uns, h4, h5, h6, h7⟩ := C75_throttle_to_motor n txOps h ht cmds hc hacc e s s' hr
    hready _ ho (hno _ rfl rfl) (hno _ rfl rfl) hf htimes
  refine ⟨s', ho, done, uns, ?_, h5, h7⟩
  have hl : waiting = [] := by
    have := congrArg List.length h6
    rw [hlen s' ho] at this
    simp only [List.length_map, List.filter_nil, List.length_nil] at this
    exact List.eq_nil_of_length_eq_zero this
  rw [h4, hl, List.append_nil]

/-- **C116** `while (decoder.execute());` is no such batch: it stops at the first packet that is not for the decoder. -/
theorem C116_loop_stops (e : Env) (s s' : Rx) (hr : Reachable e s) (now : Int) (rand n : Nat) (p : Packet)
    (rest : List Packet) (hp : s.packetEnd = false) (hd : s.deque = p :: rest) (hm : s.serviceMode = false)
    (hf : ¬ ForDecoder s p) (h : executeWhile e now rand (n + 1) s = .ok s') : s'.deque = rest := by
  have hl := (hr.recvInv.valid p (by simp [hd])).1.1
  have h1 := execute_foreign e s now rand p rest hp hd hm (by omega) hf
  have h2 := (step_other e s _ (.execute now rand) (by rw [Rx.step, h1]; rfl) (fun _ _ h => by cases h)
    (fun h => by cases h)).2
  rw [hp, hd] at h2
  rw [executeWhile, h1] at h
  cases h
  exact h2

/-! ### Examples -/

/-- Speed commands for the addresses 5 and 3. -/
def twoPackets : List RxOp := hears [5#8, 0x3F#8, 0x80#8, 0xBA#8] ++ hears [3#8, 0x3F#8, 0x80#8, 0xBC#8]

/-- **C116** So this loop does not empty the queue. -/
theorem C116_loop_false : ¬ ∀ (e : Env) (s s' : Rx) (now : Int) (rand : Nat), Reachable e s → s.packetEnd = false →
    executeWhile e now rand (s.deque.length + 1) s = .ok s' → s'.deque = [] := by
  intro h
  have key : holdsAfter (({} : Rx).run exampleEnv (.init :: twoPackets)) (fun s => !s.packetEnd &&
      holdsAfter (executeWhile exampleEnv 0 0 (s.deque.length + 1) s) (fun s' => decide (s'.deque ≠ []))) = true := by
    decide +kernel
  obtain ⟨s, h1, h2⟩ := holdsAfter_ok key
  rw [Bool.and_eq_true] at h2
  obtain ⟨s', h3, h4⟩ := holdsAfter_ok h2.2
  simp only [decide_eq_true_eq] at h4
  exact h4 (h exampleEnv s s' 0 0 (Reachable.of_run h1) (by simpa using h2.1) h3)

/-- `Regular`, calculated. -/
def regularNow (e : Env) (k pause : Nat) : Rx → List Batch → Bool
  | _, [] => true
  | s, b :: bs => decide ((recvTimes b.between).sum ≤ pause) && decide (k ≤ b.calls.length) &&
    b.between.all (fun op => op.isReceive) &&
    holdsAfter (s.run e b.between) (fun s1 => !s1.packetEnd) &&
    holdsAfter (s.run e b.ops) (fun s2 => regularNow e k pause s2 bs)

theorem regular_now {e : Env} {k pause : Nat} (bs : List Batch) : ∀ s : Rx, regularNow e k pause s bs = true →
    Regular e k pause s bs := by
  induction bs with
  | nil => intro s _; trivial
  | cons b bs ih =>
    intro s h
    simp only [regularNow, Bool.and_eq_true, decide_eq_true_eq, List.all_eq_true] at h
    obtain ⟨⟨⟨⟨h1, h2⟩, h3⟩, h4⟩, h5⟩ := h
    refine ⟨h1, h2, fun op ho => ?_, fun s1 h6 => ?_, fun s2 h6 => ?_⟩
    · have := h3 op ho
      revert this
      cases op <;> simp [RxOp.isReceive, RxOp.isExecute]
    · rw [h6] at h4
      simpa [holdsAfter] using h4
    · rw [h6] at h5
      exact ih s2 h5

/-- Three packets between two batches of seven calls. -/
def threeBatch : Batch := ⟨twoPackets ++ hears [3#8, 0x90#8, 0x93#8], List.replicate 7 (0, 0)⟩

example : holdsAfter (({} : Rx).run exampleEnv [.init]) (fun s => decide (s.deque = []) &&
    regularNow exampleEnv 7 28097 s [threeBatch]) = true := by decide +kernel

/-- The signal of the station of C75 in two parts, with five calls of `execute` after each. -/
def stationBatches (ts : List Nat) : List Batch :=
  [ts.take 210, ts.drop 210].map fun us => ⟨recvOps (us.map (·, 0)), List.replicate 5 (0, 0)⟩

example :
    (match ({ s := {} } : TxHist).run 4 exampleStation, ({} : Rx).run exampleEnv [.init] with
    | .ok h, .ok s =>
      let bs := stationBatches (h.out.map (·.duration))
      decide (shortest {} = 6086 ∧ recvTimes (bs.flatMap Batch.ops) = h.out.map (·.duration) ∧
        ∀ op ∈ bs.flatMap Batch.ops, op.isReceive = true ∨ op.isExecute = true) &&
      regularNow exampleEnv 4 (4 * 6086 - 1) s bs &&
      holdsAfter (s.run exampleEnv (bs.flatMap Batch.ops)) (fun s' =>
        decide (drivingCalls s s' = exampleCommands.flatMap (Command.calls s)))
    | _, _ => false) = true := by decide +kernel

end Dcc
