import Verif.Lemmas.RxDecoderRun
import Verif.Lemmas.RxEngine
import Verif.Lemmas.RxTos
import Verif.Props.RxLink
/-! Histories of an abstract decoder that may end in a fault. -/
namespace Dcc
open Spec

/-- The first call that faults. -/
theorem run_error {e : Env} {f : Fault} : ∀ (ops : List RxOp) (s : Rx), s.run e ops = .error f →
    ∃ before op after z, ops = before ++ op :: after ∧ s.run e before = .ok z ∧ z.step e op = .error f := by
  intro ops
  induction ops with
  | nil => intro s h; cases h
  | cons op ops ih =>
    intro s h
    cases h1 : s.step e op with
    | error g =>
      rw [Rx.run, h1] at h
      cases h
      exact ⟨[], op, ops, s, rfl, rfl, h1⟩
    | ok s1 =>
      rw [Rx.run, h1, ok_bind] at h
      obtain ⟨a, op', b, z, rfl, h3, h4⟩ := ih s1 h
      exact ⟨op :: a, op', b, z, rfl, by rw [Rx.run, h1, ok_bind, h3], h4⟩

theorem neverFull_prefix {e : Env} (b : List RxOp) : ∀ (a : List RxOp) (s : Rx), NeverFull e s (a ++ b) →
    NeverFull e s a := by
  intro a
  induction a with
  | nil => intro s _; trivial
  | cons op a ih =>
    intro s h
    refine ⟨h.1, ?_⟩
    have := h.2
    revert this
    cases s.step e op with
    | error => exact fun _ => trivial
    | ok s1 => exact ih s1

theorem neverFull_at {e : Env} {op : RxOp} (b : List RxOp) : ∀ (a : List RxOp) (s z : Rx),
    NeverFull e s (a ++ op :: b) → s.run e a = .ok z → op.isReceive = true → z.deque.length < e.rxDeque := by
  intro a
  induction a with
  | nil => intro s z h h1; cases h1; exact h.1
  | cons o a ih =>
    intro s z h h1
    rw [Rx.run, bind_eq_ok] at h1
    obtain ⟨s1, h2, h3⟩ := h1
    have := h.2
    rw [h2] at this
    exact ih s1 z this h3

theorem along_prefix {P : Rx → Prop} {e : Env} (b : List RxOp) : ∀ (a : List RxOp) (s : Rx), Along P e s (a ++ b) →
    Along P e s a := by
  intro a
  induction a with
  | nil =>
    intro s h
    cases b with
    | nil => exact h
    | cons => exact h.1
  | cons op a ih =>
    intro s h
    refine ⟨h.1, ?_⟩
    have := h.2
    revert this
    cases s.step e op with
    | error => exact fun _ => trivial
    | ok s1 => exact ih s1

/-- The packets executed are those among the steps. -/
theorem executions_mainSteps {e : Env} (ops : List RxOp) : ∀ s : Rx, executions (mainSteps e s ops) = executed e s ops := by
  induction ops with
  | nil => intro s; rfl
  | cons op ops ih =>
    intro s
    unfold mainSteps executed
    cases s.step e op with
    | error => rfl
    | ok s1 =>
      have := ih s1
      unfold executions at this ⊢
      dsimp only
      rw [List.filterMap_append, this]
      congr 1
      cases op <;> simp only [mainStep, RxOp.isExecute, List.filterMap_nil, Bool.false_and, Bool.false_eq_true, if_false,
        Bool.true_and]
      · unfold front
        cases s.packetEnd <;> cases s.deque <;> rfl
      · split <;> rfl

/-- Without channel 2 there are no other steps. -/
theorem mainSteps_executed {e : Env} (ops : List RxOp) (h : .biDiChannel2 ∉ ops) : ∀ s : Rx,
    mainSteps e s ops = (executed e s ops).map .execute := by
  induction ops with
  | nil => intro s; rfl
  | cons op ops ih =>
    intro s
    have h' : .biDiChannel2 ∉ ops := fun hm => h (by simp [hm])
    have h0 : op ≠ .biDiChannel2 := fun hm => h (by simp [hm])
    unfold mainSteps executed
    cases s.step e op with
    | error => rfl
    | ok s1 =>
      dsimp only
      rw [ih h' s1, List.map_append]
      congr 1
      cases op <;> simp only [mainStep, RxOp.isExecute, List.map_nil, Bool.false_and, Bool.false_eq_true, if_false,
        Bool.true_and]
      · unfold front
        cases s.packetEnd <;> cases s.deque <;> rfl
      · exact (h0 rfl).elim

theorem run_executes (ew : Bool) (ps : List Packet) : ∀ d : Decoder, d.run ew (ps.map .execute) =
    (d.executeAll ew ps).map fun x => (x.1, x.2, []) := by
  induction ps with
  | nil => intro d; rfl
  | cons p ps ih =>
    intro d
    show (d.execute ew p).bind _ = ((d.execute ew p).andThen _).map _
    cases d.execute ew p with
    | none => rfl
    | some x =>
      show ((x.1.run ew (ps.map .execute)).map _) = ((x.1.executeAll ew ps).map _).map _
      rw [ih]
      cases x.1.executeAll ew ps <;> rfl

theorem executeAll_append (ew : Bool) (qs : List Packet) (ps : List Packet) : ∀ d : Decoder, d.executeAll ew (ps ++ qs) =
    (d.executeAll ew ps).andThen fun d => d.executeAll ew qs := by
  induction ps with
  | nil =>
    intro d
    show d.executeAll ew qs = (d.executeAll ew qs).map _
    cases d.executeAll ew qs <;> rfl
  | cons p ps ih =>
    intro d
    show (d.execute ew p).andThen _ = ((d.execute ew p).andThen _).andThen _
    cases d.execute ew p with
    | none => rfl
    | some x =>
      show ((x.1.executeAll ew (ps ++ qs)).map _) = Outcome.andThen ((x.1.executeAll ew ps).map _) _
      rw [ih]
      cases x.1.executeAll ew ps with
      | none => rfl
      | some y =>
        show ((y.1.executeAll ew qs).map _).map _ = (y.1.executeAll ew qs).map _
        cases y.1.executeAll ew qs with
        | none => rfl
        | some w => simp

/-- A history without logon packets. -/
theorem track_decoder {e : Env} {m : BitVec 32 → Byte} (hm : Memory e m) {s s' : Rx} {d : Decoder} (hr : Reachable e s)
    (hs : Settled m s) (hd : Is m d s) {ops : List RxOp} (ho : s.run e ops = .ok s') (hdis : .disable ∉ ops)
    (hf : NeverFull e s ops) {l : Link} {os : List LinkOut} (hl : s.link.run (recvTimes ops) = .ok (l, os))
    (hn : ∀ p ∈ packetsOf os, isLogon p = false) :
    s.deque ++ packetsOf os = executed e s ops ++ s'.deque ∧
    ∃ x, d.run e.eastWest (mainSteps e s ops) = some x ∧ Became m s s' (x.1, x.2.1) ∧ Settled m s' ∧
      (sent (inChannel2 .cv) e s ops).map understood = x.2.2.map some := by
  obtain ⟨os', h1, h2⟩ := run_interleaved e ops s s' ho hdis hf
  rw [hl] at h1
  cases h1
  have h3 := C27_fifo e ops s s' hr ho
  rw [h2, List.filter_eq_self.mpr fun p hp => by rw [hn p hp]; rfl] at h3
  refine ⟨h3, decoder_run hm ops s s' d hr hs hd (unassigned_along ops s s' hr hs.assigned hdis hf ho ?_) ho⟩
  intro l' os' h
  rw [hl] at h
  cases h
  exact hn

/-- The clock along a history. -/
theorem clock_run {e : Env} {now : Int} {rand : Nat} (after : List RxOp) : ∀ (ops : List RxOp) (s s' : Rx),
    Reachable e s → s.run e ops = .ok s' → s.tosTp ≤ s.lastPacketTp → ClockForward s.lastPacketTp (ops ++ .execute now rand :: after) →
    s'.tosTp ≤ s'.lastPacketTp ∧ s'.lastPacketTp ≤ now := by
  intro ops
  induction ops with
  | nil => intro s s' _ h h1 h2; cases h; exact ⟨h1, h2.1⟩
  | cons op ops ih =>
    intro s s' hr h h1 h2
    rw [Rx.run, bind_eq_ok] at h
    obtain ⟨z, h3, h4⟩ := h
    by_cases hex : op.isExecute = false
    · have h2 : ClockForward s.lastPacketTp (ops ++ .execute now rand :: after) := by
        cases op <;> first | exact h2 | cases hex
      have hz : z.lastPacketTp = s.lastPacketTp ∧ z.tosTp = s.tosTp := by
        by_cases hc : op = .biDiChannel2
        · subst hc
          obtain ⟨q, evs, rfl, -⟩ := channel2_eq s z h3
          exact ⟨rfl, rfl⟩
        · have g := other_tos e s z _ hr.recvInv.room h3 hex hc
          exact ⟨g.last, g.start⟩
      exact ih z s' (hr.step _ h3) h4 (by rw [hz.1, hz.2]; exact h1) (by rw [hz.1]; exact h2)
    · cases op <;> try simp [RxOp.isExecute] at hex
      rename_i n r
      have h2 : s.lastPacketTp ≤ n ∧ ClockForward n (ops ++ .execute now rand :: after) := h2
      rcases execute_tos e s z n r hr h1 h2.1 h3 with ⟨-, rfl⟩ | ⟨p, -, g1, g2, -⟩
      · refine ih z s' (hr.step _ h3) h4 h1 ?_
        clear ih h4 h3
        have mono : ∀ (xs : List RxOp) (a b : Int), a ≤ b → ClockForward b xs → ClockForward a xs := by
          intro xs
          induction xs with
          | nil => intros; trivial
          | cons x xs ih =>
            intro a b hab h
            cases x <;> first | exact ih a b hab h | exact ⟨Int.le_trans hab h.1, h.2⟩
        exact mono _ _ _ h2.1 h2.2
      · refine ih z s' (hr.step _ h3) h4 ?_ (by rw [g1]; exact h2.2)
        rw [g1, g2]
        split <;> omega

/-- A history of `receive` and `execute` faults only if the decoder does. -/
theorem track_fault {e : Env} {m : BitVec 32 → Byte} (hm : Memory e m) {s : Rx} {d : Decoder} (hr : Reachable e s)
    (hs : Settled m s) (hd : Is m d s) {ops : List RxOp} {f : Fault} (ho : s.run e ops = .error f)
    (hops : ∀ op ∈ ops, op.isReceive = true ∨ op.isExecute = true)
    (hf : NeverFull e s ops) {l : Link} {os : List LinkOut} (hl : s.link.run (recvTimes ops) = .ok (l, os))
    (hn : ∀ p ∈ packetsOf os, isLogon p = false) (ht : s.tosTp ≤ s.lastPacketTp)
    (hc : ClockForward s.lastPacketTp ops) :
    f = .oob ∧ ∃ done waiting, s.deque ++ packetsOf os = done ++ waiting ∧ d.executeAll e.eastWest done = none := by
  obtain ⟨a, op, b, z, rfl, h1, h2⟩ := run_error ops s ho
  have hopsa : ∀ op ∈ a, op.isReceive = true ∨ op.isExecute = true := fun o h => hops o (by simp [h])
  have no : ∀ o : RxOp, o.isReceive = false → o.isExecute = false → o ∉ a := by
    intro o k1 k2 k3
    rcases hopsa o k3 with k | k
    · rw [k1] at k; cases k
    · rw [k2] at k; cases k
  have hra : Reachable e z := hr.run a h1
  have hfa := neverFull_prefix _ _ _ hf
  obtain ⟨osa, g1, g2⟩ := run_interleaved e a s z h1 (no _ rfl rfl) hfa
  have htimes : recvTimes (a ++ op :: b) = recvTimes a ++ recvTimes (op :: b) := by
    unfold recvTimes; rw [List.filterMap_append]
  rw [htimes, Link.run_append _ _ g1] at hl
  simp only [bind_eq_ok, pure_eq_ok, Except.ok.injEq, Prod.mk.injEq] at hl
  obtain ⟨⟨l2, osb⟩, k2, rfl, k3⟩ := hl
  have k3 : os = osa ++ osb := k3.symm
  have k2 : z.link.run (recvTimes (op :: b)) = .ok (l2, osb) := k2
  have hna : ∀ p ∈ packetsOf osa, isLogon p = false := by
    intro p hp
    refine hn p ?_
    rw [k3]
    simp only [packetsOf, List.filterMap_append, List.mem_append]
    exact .inl hp
  obtain ⟨q1, x, q2, q3, q4, -⟩ := track_decoder hm hr hs hd h1 (no _ rfl rfl) hfa g1 hna
  rw [mainSteps_executed a (no _ rfl rfl), run_executes] at q2
  cases hx : d.executeAll e.eastWest (executed e s a) with
  | none => rw [hx] at q2; cases q2
  | some y =>
  rw [hx] at q2
  have q2 : some (y.1, y.2, []) = some x := q2
  cases q2
  have hop := hops op (by simp)
  cases op <;> simp [RxOp.isReceive, RxOp.isExecute] at hop
  case receive t r k2 =>
    obtain ⟨l3, o, w1⟩ : ∃ l3 o, z.link.step t = .ok (l3, o) := by
      have k2 : z.link.run (t :: recvTimes b) = .ok (l2, osb) := k2
      simp only [Link.run, bind_eq_ok] at k2
      obtain ⟨⟨l3, o⟩, w1, -⟩ := k2
      exact ⟨l3, o, w1⟩
    obtain ⟨z', w2⟩ := receive_total e z t r l3 o w1 (by
      rintro p rfl
      refine hn p ?_
      rw [k3]
      have k2 : z.link.run (t :: recvTimes b) = .ok (l2, osb) := k2
      simp only [Link.run, w1, ok_bind, bind_eq_ok, pure_eq_ok, Except.ok.injEq, Prod.mk.injEq] at k2
      obtain ⟨y, -, -, rfl⟩ := k2
      simp [packetsOf]) (neverFull_at b a s z hf h1 rfl)
    have h2 : z.receive e t r = .error f := h2
    rw [w2] at h2
    cases h2
  case execute now rand k2 =>
    obtain ⟨c1, c2⟩ := clock_run b a s z hr h1 ht hc
    have h2 : z.execute e now rand = .error f := by
      simp only [Rx.step] at h2
      cases w : z.execute e now rand with
      | error g => rw [w] at h2; cases h2; rfl
      | ok y => rw [w] at h2; cases h2
    cases hfr : front z with
    | none =>
      have : z.packetEnd = true ∨ z.deque = [] := by
        unfold front at hfr
        cases hp : z.packetEnd with
        | true => exact .inl rfl
        | false =>
          rw [hp, if_neg Bool.false_ne_true] at hfr
          exact .inr (List.head?_eq_none_iff.mp hfr)
      rw [execute_front_none e z now rand this] at h2
      cases h2
    | some p =>
      rcases meets_execute hm q3.is q4.store hra.lengths hfr now rand with g | g
      · omega
      rw [h2] at g
      cases hy : y.1.execute e.eastWest p with
      | some => rw [hy] at g; exact g.elim
      | none =>
        rw [hy] at g
        obtain ⟨-, rest, hdq⟩ := front_eq.mp hfr
        refine ⟨g, executed e s a ++ [p], rest ++ packetsOf osb, ?_, ?_⟩
        · rw [k3]
          simp only [packetsOf, List.filterMap_append] at q1 ⊢
          rw [← List.append_assoc, q1, hdq]
          simp
        · rw [executeAll_append, hx]
          show ((Decoder.execute y.1 e.eastWest p).andThen _).map _ = none
          rw [hy]; rfl

end Dcc
