import Verif.Spec.Quality
import Verif.Spec.Memory
import Verif.Lemmas.RxQueue
/-!
C55: the quality of service.
-/
namespace Dcc
open Spec

theorem receiving_eq (s : Rx) : receiving s = s.link.state.halves := by
  unfold receiving LinkState.halves
  cases s.link.state <;> rfl

/-- What a half bit means for the packet being received. -/
structure LinkPhase (l l' : Link) (out : Option LinkOut) : Prop where
  none : out = none → l'.state.halves = l.state.halves ∧ l'.packetEnd = false
  start : out = some .start → l.state.halves = false ∧ l'.state.halves = true ∧ l'.packetEnd = false
  bad : out = some .bad → l.state.halves = true ∧ l'.state.halves = false ∧ l'.packetEnd = false
  packet : ∀ p, out = some (.packet p) → l.state.halves = true ∧ l'.state.halves = false ∧
    l'.packetEnd = true

theorem link_phase (l l' : Link) (t : Nat) (out : Option LinkOut)
    (h : l.step t = .ok (l', out)) : LinkPhase l l' out := by
  have bit : ∀ (x : Link) (b : Bool), x.state = l.state → x.packetEnd = false →
      x.bit b = .ok (l', out) → LinkPhase l l' out := by
    intro x b hx hp h
    have : LinkPhase x l' out → LinkPhase l l' out := fun f => by
      obtain ⟨f1, f2, f3, f4⟩ := f
      rw [hx] at f1 f2 f3 f4
      exact ⟨f1, f2, f3, f4⟩
    apply this
    unfold Link.bit at h
    cases hs : x.state <;> rw [hs] at h <;> dsimp only at h
    · split at h
      · cases h; exact ⟨fun _ => ⟨by rw [hs], hp⟩, nofun, nofun, nofun⟩
      split at h
      · cases h; exact ⟨fun _ => ⟨by rw [hs]; rfl, hp⟩, nofun, nofun, nofun⟩
      · cases h; exact ⟨fun _ => ⟨by rw [hs]; rfl, hp⟩, nofun, nofun, nofun⟩
    · cases h; exact ⟨nofun, fun _ => ⟨by rw [hs]; rfl, rfl, hp⟩, nofun, nofun⟩
    · split at h
      · cases h; exact ⟨fun _ => ⟨by rw [hs], hp⟩, nofun, nofun, nofun⟩
      split at h
      · cases h; exact ⟨fun _ => ⟨by rw [hs]; rfl, hp⟩, nofun, nofun, nofun⟩
      · cases h
    · split at h
      · cases h; exact ⟨fun _ => ⟨by rw [hs]; rfl, hp⟩, nofun, nofun, nofun⟩
      split at h
      · cases h; exact ⟨nofun, nofun, nofun, fun _ _ => ⟨by rw [hs]; rfl, rfl, rfl⟩⟩
      · cases h; exact ⟨nofun, nofun, fun _ => ⟨by rw [hs]; rfl, rfl, hp⟩, nofun⟩
  unfold Link.step at h
  dsimp only at h
  have key : ∀ b : Bool, (if l.state.halves && !l.isHalfbit then
      (.ok ({ l with packetEnd := false, isHalfbit := true }, .none) : R (Link × Option LinkOut))
      else (if l.state.halves then { l with packetEnd := false, isHalfbit := false }
        else { l with packetEnd := false }).bit b) = .ok (l', out) → LinkPhase l l' out := by
    intro b h
    split at h
    · cases h; exact ⟨fun _ => ⟨rfl, rfl⟩, nofun, nofun, nofun⟩
    · exact bit _ b (by split <;> rfl) (by split <;> rfl) h
  split at h
  · cases h; exact ⟨fun _ => ⟨rfl, rfl⟩, nofun, nofun, nofun⟩
  · exact key _ h

/-- What `receive` does to the counts. -/
theorem receive_counts (e : Env) (s s' : Rx) (t r : Nat) (hr : Reachable e s)
    (h : s.receive e t r = .ok s') :
    s'.preambleCount = s.preambleCount + (if !receiving s && receiving s' then 1 else 0) ∧
    s'.packetCount = s.packetCount + (if s'.packetEnd then 1 else 0) ∧ s'.qos = s.qos ∧
    (s'.packetEnd = true → receiving s = true ∧ receiving s' = false) := by
  rw [receiving_eq, receiving_eq]
  by_cases hf : s.deque.length = e.rxDeque
  · obtain ⟨l, h1, hp, hl⟩ := receive_full e s t r hf
    rw [h] at h1
    cases h1
    have hh : l.state.halves = true → s.link.state.halves = true := by
      rcases hl with rfl | ⟨rfl, -⟩ | rfl | rfl
      · exact id
      · exact id
      · exact fun h => by cases h
      · exact fun h => by cases h
    have hp : (Rx.packetEnd { s with link := l }) = false := hp
    rw [hp]
    refine ⟨?_, by simp, rfl, nofun⟩
    dsimp only
    cases h1 : l.state.halves
    · simp
    · rw [hh h1]; simp
  · obtain ⟨out, h1, h2⟩ := receive_spec e s s' t r h
      (Nat.lt_of_le_of_ne hr.recvInv.room hf)
    obtain ⟨p1, p2, p3, p4⟩ := link_phase _ _ _ _ h1
    show _ ∧ _ = _ + (if s'.link.packetEnd then 1 else 0) ∧ _ ∧ (s'.link.packetEnd = true → _)
    rcases out with _ | (_ | p | _)
    · obtain ⟨q1, q2⟩ := p1 rfl
      have h2 : s' = _ := h2
      rw [q1, q2, h2]
      simp
    · obtain ⟨q1, q2, q3⟩ := p2 rfl
      have h2 : s' = _ := h2
      rw [q1, q2, q3, h2]
      simp
    · obtain ⟨q1, q2, q3⟩ := p4 p rfl
      obtain ⟨a, -, h2⟩ := h2
      rw [q1, q2, q3]
      split at h2
      · rw [h2.preambleCount, h2.packetCount, h2.qos]; simp
      · rw [h2]; simp
    · obtain ⟨q1, q2, q3⟩ := p3 rfl
      have h2 : s' = _ := h2
      rw [q1, q2, q3, h2]
      simp

/-- What `execute` does to the counts. -/
theorem execute_counts (e : Env) (s s' : Rx) (now : Int) (rand : Nat)
    (h : s.step e (.execute now rand) = .ok s') :
    s'.link = s.link ∧
    (if (front s).isSome && decide (100 ≤ s.preambleCount) then s'.preambleCount = 0 ∧ s'.packetCount = 0 ∧
      s'.qos = BitVec.ofInt 8 (100 - ((s.packetCount * 100 / s.preambleCount : Nat) : Int))
    else s'.preambleCount = s.preambleCount ∧ s'.packetCount = s.packetCount ∧ s'.qos = s.qos) := by
  simp only [Rx.step, bind_eq_ok, pure_eq_ok, Except.ok.injEq] at h
  obtain ⟨⟨s1, ret⟩, h1, rfl⟩ := h
  rcases execute_cases e s s1 now rand ret h1 with ⟨hc, rfl, -⟩ | ⟨p, rest, s2, s3, hp, hd, h2, f1, -, f2, rfl⟩
  · have hf : front s1 = none := by
      unfold front
      rcases hc with hc | hc
      · rw [hc, if_pos rfl]
      · rw [hc]; split <;> rfl
    rw [hf]
    exact ⟨rfl, rfl, rfl, rfl⟩
  · have hf : front s = some p := front_eq.mpr ⟨hp, rest, hd⟩
    rw [(prepare_total e s now).1] at h2
    cases h2
    rw [hf, Option.isSome_some, Bool.true_and]
    refine ⟨f2.link.trans f1.link, ?_⟩
    show if _ then s3.preambleCount = _ ∧ s3.packetCount = _ ∧ s3.qos = _ else
      s3.preambleCount = _ ∧ s3.packetCount = _ ∧ s3.qos = _
    rw [f2.preambleCount, f2.packetCount, f2.qos]
    unfold Rx.prepared
    obtain ⟨evs, hl, -⟩ := logonStore_eq e { s with q := { s.q with adr := s.adrQueue } }
    have ht : ∀ x : Rx, (x.updateTimepoints now).preambleCount = x.preambleCount ∧
        (x.updateTimepoints now).packetCount = x.packetCount ∧
        (x.updateTimepoints now).qos = x.qos := by
      intro x; unfold Rx.updateTimepoints; dsimp only; split <;> exact ⟨rfl, rfl, rfl⟩
    obtain ⟨t1, t2, t3⟩ := ht (Rx.updateQos (Rx.logonStore e { s with q := { s.q with adr := s.adrQueue } }))
    rw [t1, t2, t3, hl]
    unfold Rx.updateQos
    by_cases hb : 100 ≤ s.preambleCount
    · rw [if_pos (decide_eq_true hb)]
      cases s.logon.store
      · rw [if_neg Bool.false_ne_true]
        dsimp only
        rw [if_neg (by omega)]
        exact ⟨rfl, rfl, rfl⟩
      · rw [if_pos rfl]
        dsimp only
        rw [if_neg (by omega)]
        exact ⟨rfl, rfl, rfl⟩
    · rw [if_neg (fun h => hb (of_decide_eq_true h))]
      cases s.logon.store
      · rw [if_neg Bool.false_ne_true]
        dsimp only
        rw [if_pos (by omega)]
        exact ⟨rfl, rfl, rfl⟩
      · rw [if_pos rfl]
        dsimp only
        rw [if_pos (by omega)]
        exact ⟨rfl, rfl, rfl⟩

/-- Other calls leave the counts alone, and can only abort reception. -/
theorem other_counts (e : Env) (s s' : Rx) (op : RxOp) (h : s.step e op = .ok s')
    (h1 : op.isReceive = false) (h2 : op.isExecute = false) :
    s'.preambleCount = s.preambleCount ∧ s'.packetCount = s.packetCount ∧ s'.qos = s.qos ∧
      (receiving s' = true → receiving s = true) := by
  have frame : ∀ x : Rx, ExecFrame s x → x.preambleCount = s.preambleCount ∧
      x.packetCount = s.packetCount ∧ x.qos = s.qos ∧ (receiving x = true → receiving s = true) :=
    fun x f => ⟨f.preambleCount, f.packetCount, f.qos, by unfold receiving; rw [f.link]; exact id⟩
  cases op with
  | receive => cases h1
  | execute => cases h2
  | init => exact frame _ ((frame_init e s).out _ h)
  | enable =>
    simp only [Rx.step, Rx.enable, Except.ok.injEq] at h
    subst h
    split <;> exact ⟨rfl, rfl, rfl, id⟩
  | disable =>
    simp only [Rx.step, Rx.disable, Except.ok.injEq] at h
    subst h
    split
    · exact ⟨rfl, rfl, rfl, id⟩
    · exact ⟨rfl, rfl, rfl, fun h => by cases h⟩
  | datagram ds =>
    obtain ⟨q, b, rfl⟩ := datagram_eq e s s' ds h
    exact ⟨rfl, rfl, rfl, id⟩
  | biDiChannel1 =>
    simp only [Rx.step, Except.ok.injEq] at h
    obtain ⟨q, evs, h1⟩ := channel1_eq s
    subst h
    rw [h1]; exact ⟨rfl, rfl, rfl, id⟩
  | biDiChannel2 =>
    obtain ⟨q, evs, rfl, -⟩ := channel2_eq s s' h
    exact ⟨rfl, rfl, rfl, id⟩
  | callbackByte i v =>
    simp only [Rx.step] at h
    split at h
    · exact frame _ ((frame_callbackByte s _ v).out _ h)
    · cases h; exact frame _ (.refl s)
  | callbackBit i v =>
    simp only [Rx.step] at h
    split at h
    · exact frame _ ((frame_callbackBit s _ v).out _ h)
    · cases h; exact frame _ (.refl s)

/-- While a packet is being received no packet has just ended. -/
theorem receiving_packetEnd (e : Env) (s : Rx) (hr : Reachable e s) (h : receiving s = true) :
    s.packetEnd = false := by
  cases hp : s.packetEnd
  · rfl
  · have := (hr.recvInv.link.pend hp).1
    unfold receiving at h
    rw [this] at h
    cases h

/-- Calls other than `receive` do not end packets. -/
theorem other_packetEnd (e : Env) (s s' : Rx) (op : RxOp) (hr : Reachable e s)
    (h : s.step e op = .ok s') (h1 : op.isReceive = false) (h2 : receiving s = true) :
    s'.packetEnd = false := by
  have hp := receiving_packetEnd e s hr h2
  by_cases hd : op = .disable
  · subst hd
    simp only [Rx.step, Rx.disable, Except.ok.injEq] at h
    subst h
    split <;> exact hp
  · have := (step_other e s s' op h (fun t r h => by rw [h] at h1; cases h1) hd).1
    unfold Rx.packetEnd at hp ⊢
    rw [this]; exact hp

/-! ### C55 -/

/-- The counts kept agree with the reference. -/
structure Counts (s : Rx) (q : Quality) : Prop where
  begun : s.preambleCount = q.begun
  received : s.packetCount = q.received
  value : s.qos = BitVec.ofInt 8 q.value

theorem counts_step (e : Env) (s s' : Rx) (q : Quality) (op : RxOp) (hr : Reachable e s)
    (hc : Counts s q) (h : s.step e op = .ok s') : Counts s' (q.step s s' op) := by
  have other : op.isReceive = false → op.isExecute = false → Counts s' q := fun h1 h2 => by
    obtain ⟨c1, c2, c3, -⟩ := other_counts e s s' op h h1 h2
    exact ⟨c1.trans hc.begun, c2.trans hc.received, c3.trans hc.value⟩
  cases op with
  | receive t r =>
    obtain ⟨c1, c2, c3, -⟩ := receive_counts e s s' t r hr h
    exact ⟨by rw [c1, hc.begun]; rfl, by rw [c2, hc.received]; rfl, c3.trans hc.value⟩
  | execute now rand =>
    have c := (execute_counts e s s' now rand h).2
    rw [hc.begun, hc.received] at c
    show Counts s' (if _ then _ else _)
    split at c
    · rename_i hb
      rw [if_pos hb]
      exact ⟨c.1, c.2.1, c.2.2⟩
    · rename_i hb
      rw [if_neg hb]
      exact ⟨c.1, c.2.1, c.2.2.trans hc.value⟩
  | _ => exact other rfl rfl

/-- Something that holds of the state and the reference at the start and that calls preserve. -/
theorem quality_inv (e : Env) (P : Rx → Quality → Prop) (G : Rx → Rx → RxOp → Bool)
    (step : ∀ s s' q op, Reachable e s → P s q → s.step e op = .ok s' → G s s' op = true →
      P s' (q.step s s' op))
    (all : Rx → List RxOp → Bool)
    (hall : ∀ s s' op ops, all s (op :: ops) = true → s.step e op = .ok s' →
      G s s' op = true ∧ all s' ops = true) :
    ∀ (ops : List RxOp) (s s' : Rx) (q : Quality), Reachable e s → P s q → all s ops = true →
      s.run e ops = .ok s' → P s' (quality e s q ops) := by
  intro ops
  induction ops with
  | nil =>
    intro s s' q _ hp _ h
    cases h
    exact hp
  | cons op ops ih =>
    intro s s' q hr hp ha h
    have h : (s.step e op >>= fun s1 => s1.run e ops) = .ok s' := h
    rw [bind_eq_ok] at h
    obtain ⟨s1, h1, h2⟩ := h
    obtain ⟨g1, g2⟩ := hall s s1 op ops ha h1
    rw [quality, h1]
    exact ih s1 s' _ (hr.step op h1) (step s s1 q op hr hp h1 g1) g2 h2

/-- **C55** The quality of service is the share of packets begun that were not received, in percent
and rounded up, as of the last time it was determined. -/
theorem C55_quality_partial (e : Env) (ops : List RxOp) (s : Rx) (h : ({} : Rx).run e ops = .ok s) :
    s.qos = BitVec.ofInt 8 (quality e {} {} ops).value :=
  (quality_inv e Counts (fun _ _ _ => true)
    (fun s s' q op hr hc h _ => counts_step e s s' q op hr hc h) (fun _ _ => true)
    (fun _ _ _ _ _ _ => ⟨rfl, rfl⟩) ops {} s {} .start ⟨rfl, rfl, rfl⟩ rfl h).value

/-- What is counted: at most one packet more was received than begun, and none more while one is
being received. -/
private structure Bounded (slack : Nat) (s : Rx) (q : Quality) : Prop where
  counts : Counts s q
  order : q.received + (if receiving s then 1 else 0) ≤ q.begun + slack
  low : 0 ≤ q.value + slack
  high : q.value ≤ 100

private theorem percent (b r k : Nat) (hb : 100 ≤ b) (hr : r ≤ b + k) (hk : k ≤ 1) :
    r * 100 / b ≤ 100 + k := by
  have : r * 100 < (100 + k + 1) * b := by
    have h1 : r * 100 ≤ (b + k) * 100 := Nat.mul_le_mul_right _ hr
    have h2 : (100 + k + 1) * b = 100 * b + (k + 1) * b := by rw [← Nat.add_mul]; congr 1
    rcases Nat.le_one_iff_eq_zero_or_eq_one.mp hk with rfl | rfl <;> omega
  have := Nat.div_lt_of_lt_mul (by rw [Nat.mul_comm b]; exact this : r * 100 < b * (100 + k + 1))
  omega

private theorem bounded_receive (k : Nat) (e : Env) (s s' : Rx) (q : Quality) (t r : Nat)
    (hr : Reachable e s) (hb : Bounded k s q) (h : s.step e (.receive t r) = .ok s') :
    Bounded k s' (q.step s s' (.receive t r)) := by
  obtain ⟨-, -, -, c4⟩ := receive_counts e s s' t r hr h
  refine ⟨counts_step e s s' q _ hr hb.counts h, ?_, hb.low, hb.high⟩
  have := hb.order
  show q.received + _ + _ ≤ q.begun + _ + _
  cases h1 : s'.packetEnd
  · cases h2 : receiving s <;> cases h3 : receiving s' <;> rw [h2] at this <;> simp_all <;> omega
  · obtain ⟨h2, h3⟩ := c4 h1
    rw [h2] at this
    rw [h2, h3]
    simp_all

private theorem bounded_other (k : Nat) (e : Env) (s s' : Rx) (q : Quality) (op : RxOp)
    (hr : Reachable e s) (hb : Bounded k s q) (h : s.step e op = .ok s')
    (h1 : op.isReceive = false) (h2 : op.isExecute = false) :
    Bounded k s' (q.step s s' op) := by
  have hq : q.step s s' op = q := by cases op <;> first | cases h1; done | cases h2; done | rfl
  have hc := counts_step e s s' q op hr hb.counts h
  rw [hq] at hc ⊢
  refine ⟨hc, ?_, hb.low, hb.high⟩
  have c4 := (other_counts e s s' op h h1 h2).2.2.2
  have := hb.order
  cases h3 : receiving s'
  · simp only [Bool.false_eq_true, if_false] at this ⊢
    split at this <;> omega
  · rw [c4 h3] at this
    exact this

private theorem bounded_execute (k : Nat) (hk : k ≤ 1) (e : Env) (s s' : Rx) (q : Quality) (now : Int)
    (rand : Nat) (hr : Reachable e s) (hb : Bounded k s q)
    (h : s.step e (.execute now rand) = .ok s')
    (hg : k = 0 → (front s).isSome = true → receiving s = false) :
    Bounded k s' (q.step s s' (.execute now rand)) := by
  have hc := counts_step e s s' q _ hr hb.counts h
  have hl : receiving s' = receiving s := by
    unfold receiving; rw [(execute_counts e s s' now rand h).1]
  have ho := hb.order
  have e1 : q.step s s' (.execute now rand) = if (front s).isSome && decide (100 ≤ q.begun) then
      { value := 100 - ((q.received * 100 / q.begun : Nat) : Int) } else q := rfl
  rw [e1] at hc ⊢
  split
  · rename_i hh
    rw [if_pos hh] at hc
    simp only [Bool.and_eq_true, decide_eq_true_eq] at hh
    have hp := percent q.begun q.received k hh.2 (by split at ho <;> omega) hk
    generalize q.received * 100 / q.begun = n at hp hc ⊢
    refine ⟨hc, ?_, ?_, ?_⟩
    · rw [hl]
      rcases Nat.le_one_iff_eq_zero_or_eq_one.mp hk with rfl | rfl
      · rw [hg rfl hh.1]; exact Nat.le_refl _
      · show 0 + _ ≤ 0 + 1
        split <;> omega
    · show 0 ≤ 100 - (n : Int) + (k : Int)
      omega
    · show 100 - (n : Int) ≤ 100
      omega
  · rename_i hh
    rw [if_neg hh] at hc
    exact ⟨hc, by rw [hl]; exact ho, hb.low, hb.high⟩

/-- **C55** In every history the quality of service is a percentage or the byte 255. -/
theorem C55_range_partial (e : Env) (ops : List RxOp) (s : Rx) (h : ({} : Rx).run e ops = .ok s) :
    s.qos.toNat ≤ 100 ∨ s.qos.toNat = 255 := by
  have hb := quality_inv e (Bounded 1) (fun _ _ _ => true)
    (fun s s' q op hr hb h _ => by
      cases op with
      | receive t r => exact bounded_receive 1 e s s' q t r hr hb h
      | execute now rand => exact bounded_execute 1 (by omega) e s s' q now rand hr hb h nofun
      | _ => exact bounded_other 1 e s s' q _ hr hb h rfl rfl) (fun _ _ => true)
    (fun _ _ _ _ _ _ => ⟨rfl, rfl⟩) ops {} s {} .start ⟨⟨rfl, rfl, rfl⟩, by decide, by decide, by decide⟩
    rfl h
  have h1 := hb.low
  have h2 := hb.high
  rw [hb.counts.value]
  generalize (quality e {} {} ops).value = v at *
  rw [BitVec.toNat_ofInt]
  omega

/-- **C55** If no packet is executed while another one is being received, the quality of service is a
percentage. -/
theorem C55_percentage_partial (e : Env) (ops : List RxOp) (s : Rx)
    (h : ({} : Rx).run e ops = .ok s) (hx : executesBetween e {} ops = true) : s.qos.toNat ≤ 100 := by
  have hb := quality_inv e (Bounded 0)
    (fun s _ op => !(op.isExecute && (front s).isSome && receiving s))
    (fun s s' q op hr hb h hg => by
      cases op with
      | receive t r => exact bounded_receive 0 e s s' q t r hr hb h
      | execute now rand =>
        refine bounded_execute 0 (by omega) e s s' q now rand hr hb h fun _ hf => ?_
        rw [hf] at hg
        cases hrv : receiving s
        · rfl
        · rw [hrv] at hg; cases hg
      | _ => exact bounded_other 0 e s s' q _ hr hb h rfl rfl) (executesBetween e)
    (fun s s' op ops ha h => by
      rw [executesBetween, h, Bool.and_eq_true] at ha
      exact ha) ops {} s {} .start ⟨⟨rfl, rfl, rfl⟩, by decide, by decide, by decide⟩
    hx h
  have h1 := hb.low
  have h2 := hb.high
  rw [hb.counts.value]
  generalize (quality e {} {} ops).value = v at *
  rw [BitVec.toNat_ofInt]
  omega

/-- Every packet begun was received or is being received. -/
structure Lossless (s : Rx) (q : Quality) : Prop where
  counts : Counts s q
  order : q.begun = q.received + (if receiving s then 1 else 0)
  value : q.value = 0

theorem lossless_step (e : Env) (s s' : Rx) (q : Quality) (op : RxOp) (hr : Reachable e s)
    (hb : Lossless s q) (h : s.step e op = .ok s')
    (h1 : op.isExecute = true → (front s).isSome = true → receiving s = false)
    (h2 : receiving s = true → receiving s' = false → s'.packetEnd = true) :
    Lossless s' (q.step s s' op) := by
  have hc := counts_step e s s' q op hr hb.counts h
  have ho := hb.order
  have other : op.isReceive = false → op.isExecute = false → Lossless s' (q.step s s' op) := by
    intro g1 g2
    have hq : q.step s s' op = q := by cases op <;> first | cases g1; done | cases g2; done | rfl
    rw [hq] at hc ⊢
    refine ⟨hc, ?_, hb.value⟩
    have c4 := (other_counts e s s' op h g1 g2).2.2.2
    cases h3 : receiving s
    · cases h4 : receiving s'
      · rw [h3] at ho; exact ho
      · rw [c4 h4] at h3; cases h3
    · cases h4 : receiving s'
      · have h5 := h2 h3 h4
        have h6 := hc.received
        exfalso
        exact absurd h5 (by
          have := other_packetEnd e s s' op hr h g1 h3
          rw [this]; exact Bool.false_ne_true)
      · rw [h3] at ho; exact ho
  cases op with
  | receive t r =>
    obtain ⟨-, -, -, c4⟩ := receive_counts e s s' t r hr h
    refine ⟨hc, ?_, hb.value⟩
    show q.begun + _ = q.received + _ + _
    cases h3 : s'.packetEnd
    · cases h4 : receiving s <;> cases h5 : receiving s' <;> rw [h4] at ho <;> simp_all
    · obtain ⟨h4, h5⟩ := c4 h3
      rw [h4] at ho
      rw [h4, h5]
      simp_all
  | execute now rand =>
    have hl : receiving s' = receiving s := by
      unfold receiving; rw [(execute_counts e s s' now rand h).1]
    have e1 : q.step s s' (.execute now rand) = if (front s).isSome && decide (100 ≤ q.begun) then
        { value := 100 - ((q.received * 100 / q.begun : Nat) : Int) } else q := rfl
    rw [e1] at hc ⊢
    split
    · rename_i hh
      rw [if_pos hh] at hc
      simp only [Bool.and_eq_true, decide_eq_true_eq] at hh
      have hn := h1 rfl hh.1
      refine ⟨hc, by rw [hl, hn]; rfl, ?_⟩
      rw [hn] at ho
      have ho : q.begun = q.received := ho
      show 100 - ((q.received * 100 / q.begun : Nat) : Int) = 0
      rw [← ho, Nat.mul_div_cancel_left _ (by omega)]
      rfl
    · rename_i hh
      rw [if_neg hh] at hc
      exact ⟨hc, by rw [hl]; exact ho, hb.value⟩
  | _ => exact other rfl rfl

/-- **C55** If every packet begun is received and none is executed while another one is being
received, the quality of service is 0: nothing is lost. -/
theorem C55_lossless_partial (e : Env) (ops : List RxOp) (s : Rx)
    (h : ({} : Rx).run e ops = .ok s) (hx : executesBetween e {} ops = true)
    (hn : losesNone e {} ops = true) : s.qos = 0#8 := by
  have hb := quality_inv e Lossless
    (fun s s' op => !(op.isExecute && (front s).isSome && receiving s) &&
      (!(receiving s && !receiving s') || s'.packetEnd))
    (fun s s' q op hr hb h hg => by
      rw [Bool.and_eq_true] at hg
      refine lossless_step e s s' q op hr hb h (fun g1 g2 => ?_) (fun g1 g2 => ?_)
      · rw [g1, g2] at hg
        simpa using hg.1
      · rw [g1, g2] at hg
        simpa using hg.2) (fun s ops => executesBetween e s ops && losesNone e s ops)
    (fun s s' op ops ha h => by
      rw [executesBetween, losesNone, h, Bool.and_eq_true, Bool.and_eq_true, Bool.and_eq_true] at ha
      rw [Bool.and_eq_true, Bool.and_eq_true]
      exact ⟨⟨ha.1.1, ha.2.1⟩, ha.1.2, ha.2.2⟩) ops {} s {} .start ⟨⟨rfl, rfl, rfl⟩, by decide, rfl⟩
    (by rw [hx, hn]; rfl) h
  rw [hb.counts.value, hb.value]
  rfl

/-- Idle packets, executed after each of them. -/
def idles (n : Nat) : List RxOp :=
  (List.replicate n (hears [0xFF#8, 0#8, 0xFF#8] ++ [.execute 0 0])).flatten

/-- 99 idle packets; the last one is executed in the middle of the hundredth packet.  Another 100
packets later 101 packets of 100 have been received. -/
def qualityExample : List RxOp :=
  .init :: (idles 98 ++ hears [0xFF#8, 0#8, 0xFF#8] ++ (hears [0xFF#8, 0#8, 0xFF#8]).take 60 ++
    [.execute 0 0] ++ (hears [0xFF#8, 0#8, 0xFF#8]).drop 60 ++ [.execute 0 0] ++ idles 100 ++
    [.datagram []] ++ (hears [3#8, 0x3F#8, 0x80#8, 0xBC#8]).dropLast ++ [.biDiChannel2])

/-- **C55** The quality of service transmitted is not always a percentage: an executable history
leads to the transmission of 255. -/
theorem C55_percentage_false : ∃ (ops : List RxOp) (s : Rx),
    ({} : Rx).run exampleEnv ops = .ok s ∧ (transmitted s.trace).map read = [dynWord 255#8 7#8] := by
  obtain ⟨s, h, hs⟩ := holdsAfter_ok (r := ({} : Rx).run exampleEnv qualityExample)
    (p := fun s => decide ((transmitted s.trace).map read = [dynWord 255#8 7#8])) (by decide +kernel)
  exact ⟨_, s, h, of_decide_eq_true hs⟩

/-- The hypotheses of the theorems above for a history of 101 packets. -/
example : (let ops := .init :: idles 101
    (executesBetween exampleEnv {} ops && losesNone exampleEnv {} ops) = true) ∧
    (quality exampleEnv {} {} (.init :: idles 101)).begun = 1 := by
  decide +kernel

end Dcc
