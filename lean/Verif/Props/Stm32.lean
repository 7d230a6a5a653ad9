import Verif.Lemmas.Stm32
import Verif.Props.RxCv
import Verif.Props.Settle
/-! The example of the two boards: C84 and C85. -/
namespace Dcc
open Spec

/-! ### C84 -/

/-- The packets of the main loop are those of the commands. -/
theorem stmPacket_command (i : Nat) : stmPacket i = (stmCommand i).packet := by
  unfold stmPacket stmCommand
  have : i % 4 < 4 := Nat.mod_lt _ (by decide)
  match h : i % 4 with
  | 0 => rfl
  | 1 => rfl
  | 2 => rfl
  | 3 => rfl
  | n + 4 => omega

theorem stmCommand_legal (i : Nat) : (stmCommand i).Legal := by
  refine ⟨.inr (.inl ⟨rfl, (by decide : 1 ≤ 3), (by decide : 3 ≤ 127)⟩), ?_⟩
  unfold stmCommand
  dsimp only
  split <;> simp [AddressedCall.Driving]

/-- The state of the decoder after `init`. -/
theorem stm_ready : ∃ s, ({} : Rx).run stmEnv [.init] = .ok s ∧ Ready stmEnv s ∧ s.link.bitCount ≤ 18 ∧
    s.trace.filter Event.isDriving = [] ∧
    (stmCommand 0).calls s = [.direction 3#16 true, .speed 3#16 82] ∧
    (stmCommand 1).calls s = [.function 3#16 0x1F#32 0x08#32] ∧
    (stmCommand 2).calls s = [.direction 3#16 true, .speed 3#16 0] ∧
    (stmCommand 3).calls s = [.function 3#16 0x1F#32 0x00#32] := by
  have key : (match ({} : Rx).run stmEnv [.init] with
    | .ok s => decide (s.serviceMode = false ∧ s.deque = [] ∧ s.link.state = .preamble ∧ s.link.bitCount ≤ 18 ∧
      s.trace.filter Event.isDriving = [] ∧
      (stmCommand 0).calls s = [.direction 3#16 true, .speed 3#16 82] ∧
      (stmCommand 1).calls s = [.function 3#16 0x1F#32 0x08#32] ∧
      (stmCommand 2).calls s = [.direction 3#16 true, .speed 3#16 0] ∧
      (stmCommand 3).calls s = [.function 3#16 0x1F#32 0x00#32])
    | .error _ => false) = true := by decide +kernel
  split at key
  · rename_i s hs
    obtain ⟨h1, h2, h3, h4, h5⟩ := of_decide_eq_true key
    exact ⟨s, hs, ⟨h1, h2, by decide, h3⟩, h4, h5⟩
  · cases key

/-- The LEDs depend on the calls that move the locomotive only. -/
theorem stmLed_driving (tr : List Event) : ∀ leds, tr.foldl stmLed leds = (tr.filter Event.isDriving).foldl stmLed leds := by
  induction tr with
  | nil => intro _; rfl
  | cons ev tr ih =>
    intro leds
    rw [List.foldl_cons, ih]
    cases ev <;> rfl

/-- The LEDs of the decoder after the first `k` commands. -/
theorem stmLeds_calls (s : Rx) (h0 : (stmCommand 0).calls s = [.direction 3#16 true, .speed 3#16 82])
    (h1 : (stmCommand 1).calls s = [.function 3#16 0x1F#32 0x08#32])
    (h2 : (stmCommand 2).calls s = [.direction 3#16 true, .speed 3#16 0])
    (h3 : (stmCommand 3).calls s = [.function 3#16 0x1F#32 0x00#32]) (k : Nat) :
    (((List.range k).map stmCommand).flatMap (Command.calls s)).foldl stmLed (false, false) = stmLeds k := by
  induction k with
  | zero => rfl
  | succ k ih =>
    rw [List.range_succ, List.map_append, List.flatMap_append, List.foldl_append, ih, List.map_singleton,
      List.flatMap_singleton]
    have hk : stmCommand k = stmCommand (k % 4) := by unfold stmCommand; rw [Nat.mod_mod]
    rw [hk, stmLeds]
    have : k % 4 < 4 := Nat.mod_lt _ (by decide)
    match h : k % 4 with
    | 0 => rw [h0]; simp [stmLed]
    | 1 => rw [h1]; simp [stmLed]
    | 2 => rw [h2]; simp [stmLed]
    | 3 => rw [h3]; simp [stmLed]
    | n + 4 => omega

/-- Calls are only added to the trace. -/
theorem polled_trace (e : Env) (ops : List RxOp) : ∀ (s s' : Rx), Reachable e s →
    (∀ op ∈ ops, op.isReceive = true ∨ op.isExecute = true) → s.run e ops = .ok s' → s.trace <+: s'.trace := by
  induction ops with
  | nil => intro s s' _ _ h; cases h; exact List.prefix_rfl
  | cons op ops ih =>
    intro s s' hr ho h
    rw [Rx.run, bind_eq_ok] at h
    obtain ⟨s1, h1, h⟩ := h
    refine List.IsPrefix.trans ?_ (ih s1 s' (.step op hr h1) (fun op hm => ho op (List.mem_cons_of_mem _ hm)) h)
    have hop := ho op (by simp)
    cases op with
    | receive t r =>
      obtain ⟨evs, h2, _⟩ := ((receive_frame e s hr.recvInv.room t r).out _ h1).adds
      rw [h2]
      exact List.prefix_append _ _
    | execute now rand =>
      simp only [Rx.step] at h1
      rw [bind_eq_ok] at h1
      obtain ⟨⟨s2, ret⟩, h2, h1⟩ := h1
      cases h1
      rcases execute_cases e s s2 now rand ret h2 with ⟨_, rfl, _⟩ | ⟨_, _, _, _, _, _, _, h3, _, h4, rfl⟩
      · exact List.prefix_rfl
      · exact h3.trace.trans h4.trace
    | _ => simp [RxOp.isReceive, RxOp.isExecute] at hop

/-- **C84** The example of the two boards: the decoder shows the same LEDs as the command station.  The station
has been interrupted `m0` times before `init`; each of its calls is preempted anywhere, and its delays are long
enough for two of the longest packets and `spare + 1` idle packets.  The decoder has been switched on before;
its timer captures each rising edge of the other pin, and the clocks of the boards differ by at most one part
in 53.  `execute` is called every 6085 µs except for `spare` calls left out.  Then, after any number `k` of
packets, both boards show the same LEDs, and neither raises a fault. -/
theorem C84_same_leds (n gap spare k m0 : Nat) (hn : 1 ≤ n) (y0 x : TxTask)
    (h0 : ({ h := { s := {} } } : TxTask).run n (List.replicate m0 .transmit) = .ok y0) (turns : List Turn)
    (hcalls : turns.map (fun t => Except.ok t.call) = stmMain k) (hturns : Turns n gap y0 turns x)
    (hgap : 2 * longest + (spare + 1) * idling < gap) (hspare : spare ≤ 29)
    (start edge : Nat) (xs : List (Nat × RxOp)) (hsv : Attended 6085 spare start start xs)
    (hops : ∀ op ∈ calls xs, op.isReceive = true ∨ op.isExecute = true)
    (hl : Lasting edge ((captures false (false, false) [] x.h.out).map stmMicros) xs)
    (htimes : Counted (captures false (false, false) [] x.h.out) (recvTimes (calls xs))) :
    ∃ s', ({} : Rx).run stmEnv (.init :: calls xs) = .ok s' ∧
      s'.trace.foldl stmLed (false, false) = stmLeds k := by
  -- the station
  obtain ⟨e1, e2⟩ := TxTask.run_transmit m0 h0
  obtain ⟨a0, s0⟩ := (TxInv.initial n (· = ({} : TxConfig)) {} rfl).calm _
    (fun c hm => by cases List.eq_of_mem_replicate hm) e1 (by
      rw [handed, List.filterMap_eq_nil_iff]
      intro a ha
      rw [List.eq_of_mem_replicate ha])
  have hrest : Resting n y0 (List.replicate m0 .transmit) :=
    ⟨e1, e2, by simpa [Tx.size] using s0, fun c hm => by cases List.eq_of_mem_replicate hm⟩
  have hok : ∀ t ∈ turns, (∃ bs, t.call = .bytes bs) ∨ t.call = .init {} := by
    intro t ht
    have hm : (Except.ok t.call : R TxOp) ∈ stmMain k := hcalls ▸ List.mem_map_of_mem ht
    rcases List.mem_cons.mp hm with h | h
    · exact .inr (by simpa [stmConfig] using h)
    · obtain ⟨i, _, h⟩ := List.mem_map.mp h
      cases hp : stmPacket i with
      | error => rw [hp] at h; cases h
      | ok p => rw [hp] at h; exact .inl ⟨p, (Except.ok.inj h).symm⟩
  have hne : turns ≠ [] := by
    rintro rfl
    cases hcalls
  obtain ⟨hacc, ops, hh, m, r1, r2, r3, r4, r5⟩ := Turns.accepted hn (by omega) turns hrest hok hne hturns
  rw [a0] at hacc
  have hacc : x.h.acc.map (fun a => Except.ok a.2) = ((List.range k).map stmCommand).map Command.packet := by
    have key : ∀ (ts : List Turn) (is : List Nat),
        ts.map (fun t => Except.ok t.call) = is.map (fun i => (stmPacket i).map TxOp.bytes) →
        (handed (ts.map (·.call))).map (Except.ok : Packet → R Packet) = is.map stmPacket := by
      intro ts
      induction ts with
      | nil => intro is h; cases is with
        | nil => rfl
        | cons => cases h
      | cons t ts ih =>
        intro is h
        cases is with
        | nil => cases h
        | cons i is =>
          simp only [List.map_cons, List.cons.injEq] at h
          have h1 := h.1
          cases hp : stmPacket i with
          | error => rw [hp] at h1; cases h1
          | ok p =>
            rw [hp] at h1
            have h1 : t.call = .bytes p := Except.ok.inj h1
            have := ih is h.2
            simp only [handed, List.map_cons, h1, List.filterMap_cons] at this ⊢
            rw [this, hp]
    cases turns with
    | nil => exact absurd rfl hne
    | cons t ts =>
      simp only [stmMain, List.map_cons, List.cons.injEq, Except.ok.injEq] at hcalls
      have h1 := key ts _ hcalls.2
      have h2 : handed ((t :: ts).map (·.call)) = handed (ts.map (·.call)) := by
        simp only [handed, List.map_cons, hcalls.1, List.filterMap_cons]
      rw [h2] at hacc
      have h3 := congrArg (List.map (Except.ok : Packet → R Packet)) hacc
      rw [List.map_map, List.map_nil, List.nil_append, h1] at h3
      rw [List.map_map]
      exact h3.trans (List.map_congr_left fun i _ => stmPacket_command i)
  -- the signal
  obtain ⟨done, cur, inv⟩ := default_cfg (by
    rw [TxHist.run_append _ (List.replicate m .transmit) r1]; exact r5) (fun c hm => by
      rcases List.mem_append.mp hm with hm | hm
      · exact r2 c hm
      · cases List.eq_of_mem_replicate hm)
  have hout := default_out inv
  have hcap := captures_crossings x.h.out true (false, false) [] (fun o ho => (hout o ho).2) rfl
  rw [Bool.not_true] at hcap
  rw [hcap] at hl htimes
  have hd := crossings_mem none x.h.out true []
  have hbefore := crossings_before none x.h.out true [0, 0] []
  have hd : ∀ g ∈ crossings none true [] x.h.out, ∀ d ∈ g, d ≤ 261 ∧ d ≠ 60 := by
    intro g hg d hm
    rcases hd g hg d hm with h | ⟨o, ho, rfl⟩
    · cases h
    · have := (hout o ho).1
      simp only [List.mem_cons, List.not_mem_nil, or_false] at this
      omega
  have hmeas : Measured (crossings none true ([0, 0] ++ []) x.h.out) (recvTimes (calls xs)) := by
    rw [hbefore]
    generalize crossings none true [] x.h.out = gs at *
    generalize recvTimes (calls xs) = ts at *
    cases gs with
    | nil =>
      cases ts with
      | nil => trivial
      | cons => exact htimes
    | cons g gs =>
      cases ts with
      | nil => exact htimes
      | cons t ts => exact ⟨trivial, clocked_measured gs ts (fun g hg d hm => (hd g (by simp [hg]) d hm).2) htimes⟩
  have hlast : Lasting edge ((crossings none true ([0, 0] ++ []) x.h.out).map List.sum) xs := by
    have := hl.mono (f := List.sum) xs _ edge (fun g hg => sum_le_micros g fun d hm => (hd g hg d hm).1)
    rw [hbefore]
    revert this
    cases crossings none true [] x.h.out with
    | nil => exact id
    | cons g gs => simp
  -- the decoder
  obtain ⟨s, hs, hready, hb, hidle, c0, c1, c2, c3⟩ := stm_ready
  have hr : Reachable stmEnv s := Reachable.start.run _ hs
  have hinit : ({ s := {} } : TxHist).run n (.init {} :: ops) = .ok hh := by
    rw [TxHist.run]
    exact r1
  obtain ⟨s', h1, h2⟩ := C83_all_done n 6086 {} ops hh x.h hinit m spare r5 (by
      have : (hh.s.size n + 1) * longest ≤ 2 * longest := Nat.mul_le_mul_right _ (by omega)
      omega) (fun c hm => by rw [r2 c hm]) (by decide)
    (fun c hm => by
      rcases List.mem_cons.mp hm with h | hm
      · cases h; decide
      · rw [r2 c hm]; decide)
    _ (fun c hm => by
      obtain ⟨i, _, rfl⟩ := List.mem_map.mp hm
      exact stmCommand_legal i) hacc stmEnv (show spare + 2 ≤ 31 by omega) s hr hready hb start edge 6085 (by decide)
    xs none true ([0, 0] ++ []) hsv hlast hops hmeas
  refine ⟨s', ?_, ?_⟩
  · rw [Rx.run, bind_eq_ok] at hs ⊢
    obtain ⟨s1, h3, h4⟩ := hs
    cases h4
    exact ⟨s, h3, h1⟩
  · obtain ⟨evs, h3⟩ := polled_trace stmEnv _ s s' hr hops h1
    have h4 : drivingCalls s s' = evs.filter Event.isDriving := by
      rw [drivingCalls, newCalls, ← h3, List.drop_left]
    rw [stmLed_driving, ← h3, List.filter_append, hidle, List.nil_append, ← h4, h2]
    exact stmLeds_calls s c0 c1 c2 c3 k

/-! What C84 assumes is possible for any number of packets: calls that are not interrupted, exact clocks, and
`execute` called every µs. -/

/-- A call without interrupts and the delay after it. -/
def calmTurn (gap : Nat) (op : TxOp) : Turn := ⟨op, List.replicate 5 .access, gap⟩

/-- A call that is not interrupted returns. -/
theorem calm_returns {n : Nat} {x y : TxTask} (hi : x.phase = .idle) (op : TxOp)
    (h : x.run n (.start op :: List.replicate 5 .access) = .ok y) : y.phase = .idle := by
  have one : ∀ (b : TxBeat) (bs : List TxBeat) (x : TxTask), x.run n (b :: bs) = .ok y →
      ∃ x1, x.step n b = .ok x1 ∧ x1.run n bs = .ok y := fun b bs x h => by
    rw [TxTask.run, bind_eq_ok] at h; exact h
  have still : ∀ (k : Nat) (x : TxTask), x.phase = .idle → x.run n (List.replicate k .access) = .ok y →
      y.phase = .idle := by
    intro k
    induction k with
    | zero => intro x hi h; cases h; exact hi
    | succ k ih =>
      intro x hi h
      obtain ⟨x1, h1, h⟩ := one _ _ x h
      simp only [TxTask.step, TxTask.access, hi, Except.ok.injEq] at h1
      subst h1
      exact ih x hi h
  obtain ⟨x1, h1, h⟩ := one _ _ x h
  simp only [TxTask.step, hi, if_true] at h1
  cases op with
  | transmit => cases h1; exact still 5 x hi h
  | init c =>
    simp only [TxTask.start] at h1
    split at h1
    · cases h1
      simp only [List.replicate, TxTask.run, TxTask.step, TxTask.access, ok_bind, Except.ok.injEq] at h
      subst h
      rfl
    · cases h1
  | bytes bs =>
    cases h1
    obtain ⟨x2, h2, h⟩ := one _ _ _ h
    simp only [TxTask.step, TxTask.access, Except.ok.injEq] at h2
    subst h2
    obtain ⟨x3, h3, h⟩ := one _ _ _ h
    simp only [TxTask.step, TxTask.access] at h3
    split at h3
    · cases h3; exact still 3 _ rfl h
    · cases h3
      obtain ⟨x4, h4, h⟩ := one _ _ _ h
      simp only [TxTask.step, TxTask.access] at h4
      split at h4
      · rw [bind_eq_ok] at h4
        obtain ⟨t, _, h4⟩ := h4
        cases h4
        simp only [List.replicate, TxTask.run, TxTask.step, TxTask.access, ok_bind, Except.ok.injEq] at h
        subst h
        rfl
      · cases h4

/-- The calm turns are possible. -/
theorem calm_turns {n gap : Nat} (ops : List TxOp) : ∀ {x z : TxTask}, x.phase = .idle →
    x.run n (ops.flatMap fun op => .start op :: List.replicate 5 .access ++ List.replicate gap .transmit) = .ok z →
    Turns n gap x (ops.map (calmTurn gap)) z := by
  have app : ∀ (as bs : List TxBeat) (x z : TxTask), x.run n (as ++ bs) = .ok z →
      ∃ y, x.run n as = .ok y ∧ y.run n bs = .ok z := by
    intro as
    induction as with
    | nil => intro bs x z h; exact ⟨x, rfl, h⟩
    | cons a as ih =>
      intro bs x z h
      rw [List.cons_append, TxTask.run, bind_eq_ok] at h
      obtain ⟨x1, h1, h⟩ := h
      obtain ⟨y, h2, h3⟩ := ih bs x1 z h
      exact ⟨y, by rw [TxTask.run, h1]; exact h2, h3⟩
  induction ops with
  | nil => intro x z _ h; cases h; rfl
  | cons op ops ih =>
    intro x z hi h
    rw [List.flatMap_cons] at h
    obtain ⟨y', h, h'⟩ := app _ _ _ _ h
    obtain ⟨y, h1, h2⟩ := app _ _ _ _ h
    have hy := calm_returns hi op h1
    refine ⟨fun op hm => ?_, Nat.le_refl _, y, y', h1, hy, h2, ih ?_ h'⟩
    · cases List.eq_of_mem_replicate hm
    · rw [(TxTask.run_transmit gap h2).2, hy]

/-- `execute` every µs for `t` µs. -/
def busy (edge t : Nat) : List (Nat × RxOp) := (List.range t).map fun i => (edge + i + 1, .execute 0 0)

/-- A decoder with an exact clock. -/
def exactBoard (edge : Nat) : List (List Nat) → List (Nat × RxOp)
  | [] => []
  | g :: gs => busy edge (stmTicks g) ++ (edge + stmTicks g, .receive (stmTicks g) 0) :: exactBoard (edge + stmTicks g) gs

theorem exactBoard_times (gs : List (List Nat)) : ∀ edge, recvTimes (calls (exactBoard edge gs)) = gs.map stmTicks := by
  induction gs with
  | nil => intro _; rfl
  | cons g gs ih =>
    intro edge
    have h : recvTimes (calls (busy edge (stmTicks g))) = [] := by
      simp only [recvTimes, calls, busy, List.filterMap_eq_nil_iff, List.mem_map]
      rintro op ⟨_, ⟨_, _, rfl⟩, rfl⟩
      rfl
    have ih := ih (edge + stmTicks g)
    simp only [recvTimes, calls] at h ih ⊢
    rw [exactBoard, List.map_append, List.filterMap_append, h, List.map_cons, List.filterMap_cons, ih]
    rfl

theorem exactBoard_ops (gs : List (List Nat)) : ∀ edge, ∀ op ∈ calls (exactBoard edge gs),
    op.isReceive = true ∨ op.isExecute = true := by
  induction gs with
  | nil => intro _ op hm; cases hm
  | cons g gs ih =>
    intro edge op hm
    rw [exactBoard, calls, List.map_append] at hm
    rcases List.mem_append.mp hm with hm | hm
    · simp only [busy, List.map_map, List.mem_map] at hm
      obtain ⟨_, _, rfl⟩ := hm
      exact .inr rfl
    · rcases List.mem_cons.mp hm with rfl | hm
      · exact .inl rfl
      · exact ih _ op hm

theorem exactBoard_attended (gs : List (List Nat)) : ∀ edge, Attended 6085 0 edge edge (exactBoard edge gs) := by
  have hb : ∀ (t edge : Nat) (xs : List (Nat × RxOp)), Attended 6085 0 (edge + t) (edge + t) xs →
      Attended 6085 0 edge edge (busy edge t ++ xs) := by
    intro t
    induction t with
    | zero => intro edge xs h; exact h
    | succ t ih =>
      intro edge xs h
      have h1 : busy edge (t + 1) = (edge + 1, .execute 0 0) :: busy (edge + 1) t := by
        simp only [busy, List.range_succ_eq_map, List.map_cons, List.map_map, List.cons.injEq]
        refine ⟨by simp, List.map_congr_left fun i _ => ?_⟩
        simp only [Function.comp, Prod.mk.injEq, and_true]
        omega
      rw [h1, List.cons_append, Attended]
      refine ⟨by omega, by omega, ?_⟩
      rw [if_pos (by rfl), show edge + 1 - edge - 1 = 0 by omega]
      exact ih (edge + 1) xs (by rw [show edge + 1 + t = edge + (t + 1) by omega]; exact h)
  induction gs with
  | nil => intro _; trivial
  | cons g gs ih =>
    intro edge
    refine hb _ _ _ ?_
    rw [Attended]
    refine ⟨Nat.le_refl _, by omega, ?_⟩
    rw [if_neg (by simp [RxOp.isExecute])]
    exact ih _

theorem exactBoard_lasting (gs : List (List Nat)) : ∀ edge, Lasting edge (gs.map stmMicros) (exactBoard edge gs) := by
  induction gs with
  | nil => intro _; rfl
  | cons g gs ih =>
    intro edge
    have hb : ∀ (t k : Nat) (d : Nat) (ds : List Nat) (xs : List (Nat × RxOp)), Lasting edge (d :: ds) xs →
        Lasting edge (d :: ds) ((List.range' k t).map (fun i => (edge + i + 1, .execute 0 0)) ++ xs) := by
      intro t
      induction t with
      | zero => intro _ _ _ _ h; exact h
      | succ t ih =>
        intro k d ds xs h
        rw [List.range'_succ, List.map_cons, List.cons_append, Lasting, if_neg (by simp [RxOp.isReceive])]
        exact ih _ _ _ _ h
    rw [exactBoard, busy, List.range_eq_range', List.map_cons]
    refine hb _ _ _ _ _ ?_
    rw [Lasting, if_pos (by rfl)]
    refine ⟨?_, ih _⟩
    have : stmMicros g ≤ stmTicks g := by
      unfold stmMicros
      generalize stmTicks g = t
      exact Nat.div_le_of_le_mul (by omega)
    omega

/-- What C84 assumes can be met for any number of packets. -/
theorem C84_possible (n gap k : Nat) : ∃ (turns : List Turn) (x : TxTask) (xs : List (Nat × RxOp)),
    turns.map (fun t => Except.ok t.call) = stmMain k ∧ Turns n gap {} turns x ∧ Attended 6085 0 0 0 xs ∧
    (∀ op ∈ calls xs, op.isReceive = true ∨ op.isExecute = true) ∧
    Lasting 0 ((captures false (false, false) [] x.h.out).map stmMicros) xs ∧
    Counted (captures false (false, false) [] x.h.out) (recvTimes (calls xs)) := by
  have hpk : ∀ i, ∃ p, stmPacket i = .ok p ∧ p.length ≤ maxPacketSize := by
    intro i
    have : i % 4 < 4 := Nat.mod_lt _ (by decide)
    unfold stmPacket
    match h : i % 4 with
    | 0 => exact ⟨_, rfl, by decide⟩
    | 1 => exact ⟨_, rfl, by decide⟩
    | 2 => exact ⟨_, rfl, by decide⟩
    | 3 => exact ⟨_, rfl, by decide⟩
    | n + 4 => omega
  obtain ⟨ops, hops⟩ : ∃ ops : List TxOp, ops.map Except.ok = stmMain k ∧
      ∀ op ∈ ops, op = .init {} ∨ ∃ p, op = .bytes p ∧ p.length ≤ maxPacketSize := by
    have : ∀ is : List Nat, ∃ ops : List TxOp, ops.map Except.ok = is.map (fun i => (stmPacket i).map TxOp.bytes) ∧
        ∀ op ∈ ops, ∃ p, op = .bytes p ∧ p.length ≤ maxPacketSize := by
      intro is
      induction is with
      | nil => exact ⟨[], rfl, nofun⟩
      | cons i is ih =>
        obtain ⟨ops, h1, h2⟩ := ih
        obtain ⟨p, h3, h4⟩ := hpk i
        refine ⟨.bytes p :: ops, by rw [List.map_cons, List.map_cons, h1, h3]; rfl, ?_⟩
        intro op hm
        rcases List.mem_cons.mp hm with rfl | hm
        · exact ⟨p, rfl, h4⟩
        · exact h2 op hm
    obtain ⟨ops, h1, h2⟩ := this (List.range k)
    refine ⟨.init {} :: ops, by rw [List.map_cons, h1]; rfl, fun op hm => ?_⟩
    rcases List.mem_cons.mp hm with rfl | hm
    · exact .inl rfl
    · exact .inr (h2 op hm)
  have hmem : ∀ op, .start op ∈ (ops.flatMap fun op => TxBeat.start op :: List.replicate 5 .access ++
      List.replicate gap .transmit) → op ∈ ops := by
    intro op hm
    obtain ⟨op', h1, hm⟩ := List.mem_flatMap.mp hm
    rcases List.mem_append.mp hm with hm | hm
    · rcases List.mem_cons.mp hm with hm | hm
      · cases hm; exact h1
      · cases List.eq_of_mem_replicate hm
    · cases List.eq_of_mem_replicate hm
  obtain ⟨x, hx⟩ := C82_never_faults n _ (fun c hm => by
      rcases hops.2 _ (hmem _ hm) with h | ⟨_, h, _⟩
      · cases h; exact valid_default
      · cases h) (fun bs hm => by
      rcases hops.2 _ (hmem _ hm) with h | ⟨_, h, h2⟩
      · cases h
      · cases h; exact h2)
  have hturns := calm_turns ops rfl hx
  refine ⟨ops.map (calmTurn gap), x, exactBoard 0 (captures false (false, false) [] x.h.out), ?_, hturns,
    exactBoard_attended _ _, exactBoard_ops _ _, exactBoard_lasting _ _, ?_⟩
  · rw [List.map_map, ← hops.1]
    rfl
  · rw [exactBoard_times]
    have : ∀ gs, AllClocked gs (gs.map stmTicks) := by
      intro gs
      induction gs with
      | nil => trivial
      | cons g gs ih => exact ⟨⟨by omega, by omega⟩, ih⟩
    cases captures false (false, false) [] x.h.out with
    | nil => trivial
    | cons g gs => exact this gs

example : ∃ (xs : List (Nat × RxOp)) (s' : Rx), ({} : Rx).run stmEnv (.init :: calls xs) = .ok s' ∧
    s'.trace.foldl stmLed (false, false) = (true, true) := by
  obtain ⟨turns, x, xs, h1, h2, h3, h4, h5, h6⟩ := C84_possible 4 878 2
  exact ⟨xs, C84_same_leds 4 878 0 2 0 (by decide) {} x rfl turns h1 h2 (by decide) (by decide) 0 0 xs h3 h4 h5 h6⟩

/-! ### C85 -/

/-- **C85** Bytes: the decoder of the example acknowledges a request to verify a byte, sent at least twice,
exactly if the array holds the byte, CVs outside of it counting as 0, and a request to write one exactly if it
may be written and the CV is in the array or the byte is 0. -/
theorem C85_byte_partial (ops : List RxOp) (s s' : Rx) (p : Packet) (rest : List Packet)
    (times : List (Int × Nat)) (k : Kind) (cv : Nat) (b : Byte) (hr : ({} : Rx).run stmEnv ops = .ok s)
    (hm : s.serviceMode = true) (hp : s.packetEnd = false) (hs : s.logon.store = false)
    (hl : p.length = 4) (hb : ∃ b, p.head? = some b ∧ 112 ≤ b.toNat ∧ b.toNat ≤ 127)
    (hd : s.deque = List.replicate times.length p ++ rest)
    (hlast : (cvHistory stmEnv {} ops).getLast? ≠ some p) (hq : longRequest p = some (k, .byte cv b))
    (h : s.run stmEnv (executes times) = .ok s') :
    ackCount s'.trace = ackCount s.trace +
      (if 2 ≤ times.length ∧ permitted s.cfg.cvsLocked k (.byte cv b) = true ∧
        stmAnswers (s.trace.foldl stmWrite stmCvs) k cv b = true then 1 else 0) := by
  rw [C40_ack stmEnv ops s s' p rest times k (.byte cv b) hr hm hp hs hl hb hd hlast hq h]
  have hcv : (BitVec.ofNat 32 cv).toNat = cv := by
    have : cv < 1024 := (longRequest_range hq).1
    rw [BitVec.toNat_ofNat, Nat.mod_eq_of_lt (by omega)]
  have hlen : ∀ (tr : List Event) (cvs : List Byte), (tr.foldl stmWrite cvs).length = cvs.length := by
    intro tr
    induction tr with
    | nil => intro _; rfl
    | cons ev tr ih =>
      intro cvs
      rw [List.foldl_cons, ih]
      cases ev <;> simp [stmWrite]
  congr 1
  cases k with
  | verify => simp [deferred, matched, stmEnv, hcv, stmAnswers]
  | write =>
    simp only [deferred, matched, stmEnv, hcv, stmAnswers, hlen, decide_eq_true_eq, true_and]
    by_cases hc : cv < stmCvs.length
    · simp [hc]
    · simp only [hc, false_or, if_false, @eq_comm _ 0#8 b]

example : holdsAfter (({} : Rx).run stmEnv serviceSession) (fun s =>
    decide (s.serviceMode = true ∧ s.packetEnd = false ∧ s.logon.store = false ∧
      s.deque = List.replicate 3 [0x74#8, 0#8, 3#8, 0x77#8] ∧ s.cfg.cvsLocked = false ∧
      (cvHistory stmEnv {} serviceSession).getLast? ≠ some [0x74#8, 0#8, 3#8, 0x77#8] ∧
      longRequest [0x74#8, 0#8, 3#8, 0x77#8] = some (.verify, .byte 0 3#8)) &&
    holdsAfter (s.run stmEnv (executes [(0, 0), (0, 0), (0, 0)])) (fun s' =>
      decide (ackCount s'.trace = ackCount s.trace + 1))) = true := by
  decide +kernel

/-- **C85** What is written is in the array afterwards, and nothing else in it changes: the packets change the array
exactly if they ask, at least twice, to write a byte that may be written. -/
theorem C85_written (ops : List RxOp) (s s' : Rx) (p : Packet) (rest : List Packet)
    (times : List (Int × Nat)) (k : Kind) (cv : Nat) (b : Byte) (hr : ({} : Rx).run stmEnv ops = .ok s)
    (hm : s.serviceMode = true) (hp : s.packetEnd = false) (hs : s.logon.store = false)
    (hl : p.length = 4) (hb : ∃ b, p.head? = some b ∧ 112 ≤ b.toNat ∧ b.toNat ≤ 127)
    (hd : s.deque = List.replicate times.length p ++ rest)
    (hlast : (cvHistory stmEnv {} ops).getLast? ≠ some p) (hq : longRequest p = some (k, .byte cv b))
    (h : s.run stmEnv (executes times) = .ok s') :
    s'.trace.foldl stmWrite stmCvs =
      if 2 ≤ times.length ∧ permitted s.cfg.cvsLocked k (.byte cv b) = true ∧ k = .write then
        (s.trace.foldl stmWrite stmCvs).set cv b
      else s.trace.foldl stmWrite stmCvs := by
  obtain ⟨quiet, h1, h2⟩ := C40_run stmEnv ops s s' p rest times hr hm hp hs hl hb hd hlast h
  have hcv : (BitVec.ofNat 32 cv).toNat = cv := by
    have : cv < 1024 := (longRequest_range hq).1
    rw [BitVec.toNat_ofNat, Nat.mod_eq_of_lt (by omega)]
  have hquiet : ∀ (tr : List Event) (cvs : List Byte), (∀ ev ∈ tr, ev.isQuiet = true) → tr.foldl stmWrite cvs = cvs := by
    intro tr
    induction tr with
    | nil => intro _ _; rfl
    | cons ev tr ih =>
      intro cvs hq
      have h3 : stmWrite cvs ev = cvs := by
        have := hq ev (by simp)
        cases ev <;> first | rfl | (simp [Event.isQuiet] at this)
      rw [List.foldl_cons, h3, ih _ (fun ev hm => hq ev (by simp [hm]))]
  have hack : ∀ (cvs : List Byte) (x y : Bool), (ack x y).foldl stmWrite cvs = cvs := by
    intro cvs x y
    cases x <;> cases y <;> rfl
  rw [h2, List.foldl_append]
  generalize s.trace.foldl stmWrite stmCvs = arr
  by_cases hn : 2 ≤ times.length
  · rw [if_pos hn, List.foldl_append, hquiet quiet _ h1, hq]
    simp only [actionCalls, hn, true_and]
    by_cases hperm : permitted s.cfg.cvsLocked k (.byte cv b) = true
    · rw [if_pos hperm]
      cases k with
      | verify =>
        rw [if_neg (fun h => by cases h.2)]
        rw [accessCalls, if_neg (by decide)]
        simp only [List.foldl_cons, hack]
        rfl
      | write =>
        rw [if_pos ⟨hperm, rfl⟩, accessCalls, if_neg (by decide)]
        simp only [List.foldl_cons, hack, stmWrite, hcv]
    · rw [if_neg hperm, if_neg (fun h => hperm h.1)]
      rfl
  · rw [if_neg hn, if_neg (fun h => hn h.1)]
    rfl

/-- A session in which CV1 is written with 5. -/
example : holdsAfter (({} : Rx).run stmEnv (.init :: hears [0#8, 0#8, 0#8] ++ [.execute 0 0] ++
      hears [0x7C#8, 0#8, 5#8, 0x79#8] ++ hears [0x7C#8, 0#8, 5#8, 0x79#8])) (fun s =>
    decide (s.serviceMode = true ∧ s.packetEnd = false ∧ s.logon.store = false ∧
      s.deque = List.replicate 2 [0x7C#8, 0#8, 5#8, 0x79#8] ∧
      longRequest [0x7C#8, 0#8, 5#8, 0x79#8] = some (.write, .byte 0 5#8)) &&
    holdsAfter (s.run stmEnv (executes [(0, 0), (0, 0)])) (fun s' =>
      decide (s'.trace.foldl stmWrite stmCvs = stmCvs.set 0 5#8))) = true := by
  decide +kernel

/-- **C84** What the decoder shows: the green LED is on exactly if the speed is not 0, and the yellow one is what F3
was last set to. -/
theorem C84_leds (leds : Bool × Bool) (a : BitVec 16) (v : Int) (mask state : BitVec 32) :
    stmLed leds (.speed a v) = (decide (v ≠ 0), leds.2) ∧
      stmLed leds (.function a mask state) = (leds.1, if mask.getLsbD 3 then state.getLsbD 3 else leds.2) := by
  have hbit : ∀ x : BitVec 32, x &&& 0b01000#32 = 0#32 ↔ x.getLsbD 3 = false := by
    intro x
    constructor
    · intro h
      have := congrArg (fun y => y.getLsbD 3) h
      simpa using this
    · intro h
      refine BitVec.eq_of_getLsbD_eq fun i hi => ?_
      rw [BitVec.getLsbD_and, BitVec.getLsbD_zero]
      by_cases h3 : i = 3
      · rw [h3, h]; rfl
      · have h8 : (0b01000#32).getLsbD i = false := by
          rw [show (0b01000#32) = BitVec.twoPow 32 3 from rfl, BitVec.getLsbD_twoPow]
          simp only [Bool.and_eq_false_imp]
          intro _
          simpa using fun h => h3 h.symm
        rw [h8, Bool.and_false]
  refine ⟨rfl, ?_⟩
  unfold stmLed
  dsimp only
  by_cases h : mask.getLsbD 3 = true
  · rw [if_neg (by rw [hbit, h]; decide), if_pos h]
    congr 1
    cases h' : state.getLsbD 3
    · simp [(hbit state).mpr h']
    · simp [hbit, h']
  · rw [if_pos ((hbit _).mpr (by simpa using h)), if_neg h]

/-- Entering service mode, then twice the packet verifying that bit 0 of CV1 is 0. -/
def verifySession : List RxOp :=
  .init :: hears [0#8, 0#8, 0#8] ++ [.execute 0 0] ++ hears [0x78#8, 0#8, 0xE0#8, 0x98#8] ++ [.execute 0 0] ++
    hears [0x78#8, 0#8, 0xE0#8, 0x98#8] ++ [.execute 0 0]

/-- **C85** is false for bits: the decoder acknowledges that bit 0 of CV1 is 0 though CV1 is 3. -/
theorem C85_bit_false : makeCvVerifyBitServicePacket 0#32 false 0#32 = .ok [0x78#8, 0#8, 0xE0#8, 0x98#8] ∧
    ∃ s, ({} : Rx).run stmEnv verifySession = .ok s ∧ ackCount s.trace = 1 ∧ stmEnv.readCv s.trace 0#32 = 3#8 := by
  refine ⟨by decide +kernel, ?_⟩
  have key : (match ({} : Rx).run stmEnv verifySession with
    | .ok s => decide (ackCount s.trace = 1 ∧ stmEnv.readCv s.trace 0#32 = 3#8)
    | .error _ => false) = true := by decide +kernel
  split at key
  · rename_i s hs
    obtain ⟨h1, h2⟩ := of_decide_eq_true key
    exact ⟨s, hs, h1, h2⟩
  · cases key

end Dcc
