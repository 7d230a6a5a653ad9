import Verif.Props.RxQuality
import Verif.Props.Track
/-! The quality of service on a track without disturbances: C112. -/
namespace Dcc
open Spec

/-- If the assembly drops nothing, no packet begun is lost. -/
theorem losesNone_of_link (e : Env) (ops : List RxOp) : ∀ (s s' : Rx) (l : Link) (os : List LinkOut),
    s.run e ops = .ok s' → .disable ∉ ops → NeverFull e s ops → s.link.run (recvTimes ops) = .ok (l, os) →
    .bad ∉ os → losesNone e s ops = true := by
  induction ops with
  | nil => intros; rfl
  | cons op ops ih =>
    intro s s' l os h hd hf hl hb
    rw [Rx.run, bind_eq_ok] at h
    obtain ⟨s1, h1, h2⟩ := h
    obtain ⟨hf1, hf2⟩ := hf
    rw [h1] at hf2
    rw [losesNone, h1]
    dsimp only
    have hd2 : .disable ∉ ops := fun hm => hd (by simp [hm])
    by_cases hr : op.isReceive = true
    · cases op <;> try simp [RxOp.isReceive] at hr
      rename_i t r
      obtain ⟨o, h5, -⟩ := receive_spec e s s1 t r h1 (hf1 rfl)
      obtain ⟨os2, h7, -⟩ := run_interleaved e ops s1 s' h2 hd2 hf2
      have hx : s.link.run (t :: recvTimes ops) = .ok (l, os) := hl
      rw [Link.run_cons _ h5, h7] at hx
      have hx : (Except.ok (s'.link, o.toList ++ os2) : R (Link × List LinkOut)) = .ok (l, os) := hx
      cases hx
      rw [ih s1 s' _ os2 h2 hd2 hf2 h7 (fun hm => hb (List.mem_append_right _ hm)), Bool.and_true]
      obtain ⟨p1, p2, p3, p4⟩ := link_phase _ _ _ _ h5
      rw [receiving_eq, receiving_eq]
      show (_ || s1.link.packetEnd) = true
      rcases o with _ | (_ | p | _)
      · rw [(p1 rfl).1]; cases s.link.state.halves <;> rfl
      · rw [(p2 rfl).1]; rfl
      · rw [(p4 p rfl).2.2, Bool.or_true]
      · exact absurd (by simp) hb
    · have hr' : op.isReceive = false := by simpa using hr
      have h5 : s1.link = s.link := (step_other e s s1 op h1 (by
        intro t r hc; subst hc; simp [RxOp.isReceive] at hr') (by
        intro hc; exact hd (by simp [hc]))).1
      have h6 : recvTimes (op :: ops) = recvTimes ops := by
        cases op <;> first | rfl | simp [RxOp.isReceive] at hr'
      rw [h6, ← h5] at hl
      rw [ih s1 s' l os h2 hd2 hf2 hl hb, Bool.and_true, receiving_eq, receiving_eq, h5]
      cases s.link.state.halves <;> rfl

theorem losesNone_prefix (e : Env) (a b : List RxOp) : ∀ s : Rx, losesNone e s (a ++ b) = true →
    losesNone e s a = true := by
  induction a with
  | nil => intros; rfl
  | cons op a ih =>
    intro s h
    rw [List.cons_append, losesNone] at h
    rw [losesNone]
    split at h
    · rfl
    · rename_i s1 hs
      rw [Bool.and_eq_true] at h ⊢
      exact ⟨h.1, ih s1 h.2⟩

theorem executesBetween_prefix (e : Env) (a b : List RxOp) : ∀ s : Rx, executesBetween e s (a ++ b) = true →
    executesBetween e s a = true := by
  induction a with
  | nil => intros; rfl
  | cons op a ih =>
    intro s h
    rw [List.cons_append, executesBetween, Bool.and_eq_true] at h
    rw [executesBetween, Bool.and_eq_true]
    refine ⟨h.1, ?_⟩
    have h2 := h.2
    split at h2
    · rfl
    · rename_i s1 hs
      exact ih s1 h2

/-- A history that loses nothing from any state on. -/
theorem lossless_run (e : Env) (ops : List RxOp) (s s' : Rx) (q : Quality) (hr : Reachable e s) (hq : Lossless s q)
    (hx : executesBetween e s ops = true) (hn : losesNone e s ops = true) (h : s.run e ops = .ok s') :
    Lossless s' (quality e s q ops) :=
  quality_inv e Lossless
    (fun s s' op => !(op.isExecute && (front s).isSome && receiving s) &&
      (!(receiving s && !receiving s') || s'.packetEnd))
    (fun s s' q op hr hb h hg => by
      rw [Bool.and_eq_true] at hg
      refine lossless_step e s s' q op hr hb h (fun g1 g2 => ?_) (fun g1 g2 => ?_)
      · rw [g1, g2] at hg
        simpa using hg.1
      · rw [g1, g2] at hg
        simpa using hg.2) (fun s ops => executesBetween e s ops && losesNone e s ops)
    (fun s s' op ops ha h => by
      rw [executesBetween, losesNone, h, Bool.and_eq_true, Bool.and_eq_true, Bool.and_eq_true] at ha
      rw [Bool.and_eq_true, Bool.and_eq_true]
      exact ⟨⟨ha.1.1, ha.2.1⟩, ha.1.2, ha.2.2⟩) ops s s' q hr hq (by rw [hx, hn]; rfl) h

/-- Every packet begun was received or is being received; of the packet being received when the value was determined
last only the end may have been counted. -/
structure Clean (s : Rx) (q : Quality) : Prop where
  counts : Counts s q
  order : q.begun = q.received + (if receiving s then 1 else 0) ∨
    q.begun + 1 = q.received + (if receiving s then 1 else 0)
  value : q.value = 0 ∨ q.value = 1 ∨ q.value = -1

theorem clean_percent (b r : Nat) (hb : 100 ≤ b) (hr : b = r ∨ b = r + 1 ∨ b + 1 = r) :
    100 - ((r * 100 / b : Nat) : Int) = 0 ∨ 100 - ((r * 100 / b : Nat) : Int) = 1 ∨
      100 - ((r * 100 / b : Nat) : Int) = -1 := by
  have key : 99 ≤ r * 100 / b ∧ r * 100 / b < 102 := by
    constructor
    · rw [Nat.le_div_iff_mul_le (by omega)]; omega
    · rw [Nat.div_lt_iff_lt_mul (by omega)]; omega
  omega

theorem clean_step (e : Env) (s s' : Rx) (q : Quality) (op : RxOp) (hr : Reachable e s)
    (hb : Clean s q) (h : s.step e op = .ok s')
    (h2 : receiving s = true → receiving s' = false → s'.packetEnd = true) :
    Clean s' (q.step s s' op) := by
  have hc := counts_step e s s' q op hr hb.counts h
  have ho := hb.order
  have other : op.isReceive = false → op.isExecute = false → Clean s' (q.step s s' op) := by
    intro g1 g2
    have hq : q.step s s' op = q := by cases op <;> first | cases g1; done | cases g2; done | rfl
    rw [hq] at hc ⊢
    have c4 := (other_counts e s s' op h g1 g2).2.2.2
    have h3 : receiving s' = receiving s := by
      cases h3 : receiving s
      · cases h4 : receiving s'
        · rfl
        · rw [c4 h4] at h3; cases h3
      · cases h4 : receiving s'
        · exact absurd (h2 h3 h4) (by rw [other_packetEnd e s s' op hr h g1 h3]; exact Bool.false_ne_true)
        · rfl
    exact ⟨hc, by rw [h3]; exact ho, hb.value⟩
  cases op with
  | receive t r =>
    obtain ⟨-, -, -, c4⟩ := receive_counts e s s' t r hr h
    refine ⟨hc, ?_, hb.value⟩
    show q.begun + _ = q.received + _ + _ ∨ q.begun + _ + 1 = q.received + _ + _
    cases h3 : s'.packetEnd
    · cases h4 : receiving s <;> cases h5 : receiving s' <;> rw [h4] at ho <;> simp_all <;> omega
    · obtain ⟨h4, h5⟩ := c4 h3
      rw [h4] at ho
      rw [h4, h5]
      simp_all <;> omega
  | execute now rand =>
    have hl : receiving s' = receiving s := by
      unfold receiving; rw [(execute_counts e s s' now rand h).1]
    have e1 : q.step s s' (.execute now rand) = if (front s).isSome && decide (100 ≤ q.begun) then
        { value := 100 - ((q.received * 100 / q.begun : Nat) : Int) } else q := rfl
    rw [e1] at hc ⊢
    split
    · rename_i hh
      rw [if_pos hh] at hc
      simp only [Bool.and_eq_true, decide_eq_true_eq] at hh
      refine ⟨hc, ?_, clean_percent q.begun q.received hh.2 (by split at ho <;> omega)⟩
      show 0 = 0 + _ ∨ 0 + 1 = 0 + _
      split <;> omega
    · rename_i hh
      rw [if_neg hh] at hc
      exact ⟨hc, by rw [hl]; exact ho, hb.value⟩
  | _ => exact other rfl rfl

theorem clean_run (e : Env) (ops : List RxOp) (s s' : Rx) (q : Quality) (hr : Reachable e s) (hq : Clean s q)
    (hn : losesNone e s ops = true) (h : s.run e ops = .ok s') : Clean s' (quality e s q ops) :=
  quality_inv e Clean (fun s s' _ => !(receiving s && !receiving s') || s'.packetEnd)
    (fun s s' q op hr hb h hg => by
      refine clean_step e s s' q op hr hb h (fun g1 g2 => ?_)
      rw [g1, g2] at hg
      simpa using hg) (losesNone e)
    (fun s s' op ops ha h => by
      rw [losesNone, h, Bool.and_eq_true] at ha
      exact ha) ops s s' q hr hq hn h

/-! ### C112 -/

/-- A decoder that has lost nothing so far hears a command station on a track without disturbances.  The station may
have been given any packets, has cutouts or not, and keeps its orientation. -/
structure HearsAll (n : Nat) (cfg : TxConfig) (txOps : List TxOp) (h : TxHist) (e : Env) (s : Rx) (off : Option Bool)
    (seen : Bool) (before : List Nat) (ops : List RxOp) : Prop where
  station : ({ s := {} } : TxHist).run n (.init cfg :: txOps) = .ok h
  invert : ∀ c, .init c ∈ txOps → c.invert = cfg.invert
  valid : ∀ a ∈ h.acc, ValidPacket a.2
  reachable : Reachable e s
  waiting : s.link.state = .preamble
  bits : s.link.bitCount ≤ 18
  counts : s.preambleCount = s.packetCount
  none : s.qos = 0#8
  disable : .disable ∉ ops
  times : Measured (crossings off seen before h.out) (recvTimes ops)

theorem HearsAll.losesNone {n : Nat} {cfg : TxConfig} {txOps : List TxOp} {h : TxHist} {e : Env} {s s' : Rx}
    {off : Option Bool} {seen : Bool} {before : List Nat} {ops : List RxOp}
    (hh : HearsAll n cfg txOps h e s off seen before ops) (hf : NeverFull e s ops) (ho : s.run e ops = .ok s') :
    Spec.losesNone e s ops = true := by
  obtain ⟨-, -, -, l', os, -, -, -, -, -, -, h1, -, h2⟩ := station_heard n cfg txOps h hh.station hh.invert hh.valid off
    seen before _ hh.times s.link (hh.reachable.recvInv.link.synced hh.waiting) hh.bits
  exact losesNone_of_link e ops s s' l' os ho hh.disable hf h1 h2

/-- **C112** If the queue never runs full and no packet is executed while another one is being received, the quality of
service says at all times that nothing is lost. -/
theorem C112_no_loss_partial (n : Nat) (cfg : TxConfig) (txOps : List TxOp) (h : TxHist) (e : Env) (s s' : Rx)
    (off : Option Bool) (seen : Bool) (before : List Nat) (ops : List RxOp)
    (hh : HearsAll n cfg txOps h e s off seen before ops) (hf : NeverFull e s ops)
    (hx : executesBetween e s ops = true) (ho : s.run e ops = .ok s') (pre post : List RxOp) (hp : ops = pre ++ post)
    (t : Rx) (ht : s.run e pre = .ok t) : t.qos = 0#8 := by
  have hn := hh.losesNone hf ho
  subst hp
  have := lossless_run e pre s t { begun := s.preambleCount, received := s.packetCount } hh.reachable
    ⟨⟨rfl, rfl, by rw [hh.none]; rfl⟩, by
      unfold receiving; rw [hh.waiting, hh.counts]; rfl, rfl⟩
    (executesBetween_prefix e pre post s hx) (losesNone_prefix e pre post s hn) ht
  rw [this.counts.value, this.value]
  rfl

/-- **C112** Whenever the packets are executed: the value is 0, 1 or 255. -/
theorem C112_range (n : Nat) (cfg : TxConfig) (txOps : List TxOp) (h : TxHist) (e : Env) (s s' : Rx)
    (off : Option Bool) (seen : Bool) (before : List Nat) (ops : List RxOp)
    (hh : HearsAll n cfg txOps h e s off seen before ops) (hf : NeverFull e s ops)
    (ho : s.run e ops = .ok s') (pre post : List RxOp) (hp : ops = pre ++ post)
    (t : Rx) (ht : s.run e pre = .ok t) : t.qos = 0#8 ∨ t.qos = 1#8 ∨ t.qos = 255#8 := by
  have hn := hh.losesNone hf ho
  subst hp
  have := clean_run e pre s t { begun := s.preambleCount, received := s.packetCount } hh.reachable
    ⟨⟨rfl, rfl, by rw [hh.none]; rfl⟩, by
      unfold receiving; rw [hh.waiting, hh.counts]; exact .inl rfl, .inl rfl⟩
    (losesNone_prefix e pre post s hn) ht
  rw [this.counts.value]
  rcases this.value with hv | hv | hv <;> rw [hv]
  · exact .inl rfl
  · exact .inr (.inl rfl)
  · exact .inr (.inr rfl)

/-- Waiting for a preamble, a half bit does not begin a packet. -/
theorem preamble_step {l l' : Link} {t : Nat} {o : Option LinkOut} (hs : l.state = .preamble)
    (h : l.step t = .ok (l', o)) : l'.state.halves = false := by
  have hh : l.state.halves = false := by rw [hs]; rfl
  have key : ∀ b : Bool, (if l.state.halves && !l.isHalfbit then
      (.ok ({ l with packetEnd := false, isHalfbit := true }, .none) : R (Link × Option LinkOut))
      else (if l.state.halves then { l with packetEnd := false, isHalfbit := false }
        else { l with packetEnd := false }).bit b) = .ok (l', o) → l'.state.halves = false := by
    intro b h
    rw [hh, Bool.false_and, if_neg Bool.false_ne_true, if_neg Bool.false_ne_true] at h
    unfold Link.bit at h
    dsimp only at h
    rw [hs] at h
    dsimp only at h
    split at h
    · cases h; rfl
    split at h
    · cases h; rfl
    · cases h; rfl
  unfold Link.step at h
  dsimp only at h
  split at h
  · cases h; exact hh
  · exact key _ h

/-- A main loop that calls `execute` after every call of `receive` executes each packet before the next one begins. -/
theorem polled_between (e : Env) (hroom : 2 ≤ e.rxDeque) (xs : List (Nat × Nat × Int × Nat)) : ∀ z : Rx, Reachable e z →
    z.deque.length ≤ 1 → (z.packetEnd = false → z.deque = []) → executesBetween e z (polled xs) = true := by
  induction xs with
  | nil => intros; rfl
  | cons x xs ih =>
    intro z hr h1 h2
    have hops : polled (x :: xs) = .receive x.1 x.2.1 :: .execute x.2.2.1 x.2.2.2 :: polled xs := rfl
    have hone : polled [x] = [.receive x.1 x.2.1, .execute x.2.2.1 x.2.2.2] := rfl
    rw [hops, executesBetween, Bool.and_eq_true]
    refine ⟨rfl, ?_⟩
    cases hz1 : z.step e (.receive x.1 x.2.1) with
    | error f => rfl
    | ok z1 =>
      dsimp only
      rw [executesBetween, Bool.and_eq_true]
      constructor
      · cases hf : front z1 with
        | none => rfl
        | some p =>
          obtain ⟨hp, rest, hd⟩ := front_eq.mp hf
          obtain ⟨o, h3, h4⟩ := receive_spec e z z1 _ _ hz1 (by omega)
          have hd1 := h4.deque.2
          have hno : ∀ q, o ≠ some (.packet q) := by
            rintro q rfl
            have := ((link_phase _ _ _ _ h3).packet q rfl).2.2
            rw [show z1.link.packetEnd = false from hp] at this
            cases this
          have hq : z1.deque = z.deque := by
            rw [hd1]
            rcases o with _ | (_ | q | _)
            · exact List.append_nil _
            · exact List.append_nil _
            · exact absurd rfl (hno q)
            · exact List.append_nil _
          have hpe : z.packetEnd = true := by
            cases hx : z.packetEnd
            · rw [h2 hx, hd] at hq; cases hq
            · rfl
          have : receiving z1 = false := by
            rw [receiving_eq]; exact preamble_step (hr.recvInv.link.pend hpe).1 h3
          rw [this]
          rfl
      · cases hz2 : z1.step e (.execute x.2.2.1 x.2.2.2) with
        | error f => rfl
        | ok z2 =>
          have hrun : z.run e (polled [x]) = .ok z2 := by
            rw [hone, Rx.run, hz1]
            show z1.run e _ = _
            rw [Rx.run, hz2]
            rfl
          obtain ⟨g1, g2⟩ := (polled_neverFull e hroom [x] z hr h1 h2).2 z2 hrun
          exact ih z2 ((hr.step _ hz1).step _ hz2) g1 g2

/-- **C112** For a main loop that calls `execute` after every call of `receive` nothing is lost according to the quality
of service. -/
theorem C112_main_loop (n : Nat) (cfg : TxConfig) (txOps : List TxOp) (h : TxHist) (e : Env) (hroom : 2 ≤ e.rxDeque)
    (s s' : Rx) (hd : s.deque = []) (off : Option Bool) (seen : Bool) (before : List Nat)
    (xs : List (Nat × Nat × Int × Nat)) (hh : HearsAll n cfg txOps h e s off seen before (polled xs))
    (ho : s.run e (polled xs) = .ok s') : s'.qos = 0#8 :=
  C112_no_loss_partial n cfg txOps h e s s' off seen before _ hh
    (polled_neverFull e hroom xs s hh.reachable (by simp [hd]) fun _ => hd).1
    (polled_between e hroom xs s hh.reachable (by simp [hd]) fun _ => hd) ho _ [] (by simp) s' ho

/-- 99 idle packets that are executed at once and two more; the first of these is executed while the second one is being
received. -/
def lateExample : List RxOp :=
  .init :: (idles 99 ++ hears [0xFF#8, 0#8, 0xFF#8] ++ (hears [0xFF#8, 0#8, 0xFF#8]).take 60 ++ [.execute 0 0])

/-- **C112** Without the hypothesis about the moment of execution it is false: a history in which all packets are
received and executed before the end of the next one, and the value is 1. -/
theorem C112_no_loss_false : ∃ (ops : List RxOp) (s : Rx), ({} : Rx).run exampleEnv ops = .ok s ∧
    losesNone exampleEnv {} ops = true ∧ s.qos = 1#8 := by
  obtain ⟨s, h, hs⟩ := holdsAfter_ok (r := ({} : Rx).run exampleEnv lateExample)
    (p := fun s => decide (s.qos = 1#8)) (by decide +kernel)
  exact ⟨_, s, h, by decide +kernel, of_decide_eq_true hs⟩

/-- What can be computed of the hypotheses. -/
def cleanCheck : Bool :=
  match ({ s := {} } : TxHist).run 4 exampleStation, ({} : Rx).run exampleEnv [.init] with
  | .ok h, .ok s =>
    decide ((∀ a ∈ h.acc, 3 ≤ a.2.length ∧ a.2.length ≤ maxPacketSize ∧ exor a.2 = 0#8) ∧ s.deque = [] ∧
      s.link.state = .preamble ∧ s.link.bitCount ≤ 18 ∧ s.preambleCount = s.packetCount ∧ s.qos = 0#8 ∧
      Measured (crossings none true [] h.out) (shaky (exactTimes none true [] h.out))) &&
    holdsAfter (s.run exampleEnv (polled ((shaky (exactTimes none true [] h.out)).map (·, 0, 0, 0))))
      (fun s' => decide (2 ≤ s'.packetCount))
  | _, _ => false

theorem polled_times (xs : List (Nat × Nat × Int × Nat)) : recvTimes (polled xs) = xs.map (·.1) := by
  induction xs with
  | nil => rfl
  | cons x xs ih =>
    have : recvTimes (polled (x :: xs)) = x.1 :: recvTimes (polled xs) := rfl
    rw [this, ih]; rfl

/-- The hypotheses for the station of C75 and a main loop. -/
example : ∃ cfg txOps h s xs s', HearsAll 4 cfg txOps h exampleEnv s none true [] (polled xs) ∧ s.deque = [] ∧
    s.run exampleEnv (polled xs) = .ok s' ∧ 2 ≤ s'.packetCount := by
  have hc : cleanCheck = true := by decide +kernel
  unfold cleanCheck at hc
  split at hc
  · rename_i h s hh hs
    rw [Bool.and_eq_true, decide_eq_true_eq] at hc
    obtain ⟨⟨h1, h2, h3, h4, h5, h6, h7⟩, h8⟩ := hc
    obtain ⟨s', h9, h10⟩ := holdsAfter_ok h8
    unfold exampleStation at hh
    rw [List.cons_append] at hh
    generalize hrest : ([.bytes [3#8, 0x3F#8, 0x86#8, 0xBA#8], .bytes [7#8, 0x94#8, 0x93#8],
      .bytes [0#8, 0x60#8, 0x60#8]] ++ List.replicate 420 .transmit : List TxOp) = rest at hh
    refine ⟨_, rest, h, s, _, s', ⟨hh, ?_, fun a ha => ⟨(h1 a ha).1, (h1 a ha).2.1, (h1 a ha).2.2⟩,
      Reachable.run .start _ hs, h3, h4, h5, h6, ?_, ?_⟩, h2, h9, of_decide_eq_true h10⟩
    · intro c hc
      rw [← hrest] at hc
      rcases List.mem_append.mp hc with hc | hc
      · simp at hc
      · cases List.eq_of_mem_replicate hc
    · unfold polled
      intro hx
      obtain ⟨x, -, hx⟩ := List.mem_flatMap.mp hx
      simp at hx
    · rw [polled_times, List.map_map]
      rw [show ((fun x : Nat × Nat × Int × Nat => x.1) ∘ fun t : Nat => (t, 0, 0, 0)) = id from rfl, List.map_id]
      exact h7
  · cases hc

end Dcc
