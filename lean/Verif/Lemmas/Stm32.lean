import Verif.Lemmas.RxHeard
import Verif.Lemmas.RxPolling
import Verif.Lemmas.TxIdle
import Verif.Lemmas.TxPreempt
import Verif.Props.TxPreempt
import Verif.Spec.Stm32
import Verif.Spec.Track
/-! The two boards. -/
namespace Dcc
open Spec

/-! ### Command station -/

/-- Without a packet handed over the queue only gets shorter. -/
theorem TxInv.calm {n : Nat} {P : TxConfig → Prop} (ops : List TxOp) : ∀ {h h' : TxHist} {done cur},
    TxInv n P h done cur → OpsConfig P ops → h.run n ops = .ok h' → handed ops = [] →
    h'.acc = h.acc ∧ h'.s.size n ≤ h.s.size n := by
  induction ops with
  | nil => intro h h' done cur _ _ hr _; cases hr; exact ⟨rfl, Nat.le_refl _⟩
  | cons op ops ih =>
    intro h h' done cur i hc hr hh
    rw [TxHist.run, bind_eq_ok] at hr
    obtain ⟨h1, hs, hr⟩ := hr
    have hc' : OpsConfig P ops := fun c hm => hc c (List.mem_cons_of_mem _ hm)
    cases op with
    | init c =>
      obtain ⟨e1, e2⟩ := ih (i.init c (hc c (by simp)) h1 hs) hc' hr hh
      simp only [TxHist.step] at hs
      rw [bind_eq_ok] at hs
      obtain ⟨s', hb, hs⟩ := hs
      simp only [pure_eq_ok, Except.ok.injEq] at hs
      subst hs
      rw [Tx.init] at hb
      split at hb
      · cases hb; exact ⟨e1, e2⟩
      · cases hb
    | bytes bs => cases hh
    | transmit =>
      obtain ⟨h2, d1, c1, hs', i1, hcase⟩ := i.transmit
      rw [hs] at hs'
      cases hs'
      obtain ⟨e1, e2⟩ := ih i1 hc' hr hh
      have hone : h1.acc = h.acc := by
        simp only [TxHist.step] at hs
        rw [bind_eq_ok] at hs
        obtain ⟨x, _, hx⟩ := hs
        simp only [pure_eq_ok, Except.ok.injEq] at hx
        subst hx
        rfl
      refine ⟨by rw [e1, hone], Nat.le_trans e2 ?_⟩
      rw [← Tx.queue_length, ← Tx.queue_length]
      rcases hcase with ⟨_, _, hq⟩ | ⟨_, _, _, hq⟩
      · rw [hq]; exact Nat.le_refl _
      · rw [hq, List.length_tail]; omega

/-- A packet handed over while the queue is empty is accepted. -/
theorem TxInv.single {n : Nat} (hn : 1 ≤ n) {P : TxConfig → Prop} (bs : List Byte) (ops : List TxOp) :
    ∀ {h h' : TxHist} {done cur},
    TxInv n P h done cur → OpsConfig P ops → h.run n ops = .ok h' → handed ops = [bs] → h.s.size n = 0 →
    h'.acc.map (·.2) = h.acc.map (·.2) ++ [bs] ∧ h'.s.size n ≤ 1 := by
  induction ops with
  | nil => intro h h' done cur _ _ hr hh; cases hh
  | cons op ops ih =>
    intro h h' done cur i hc hr hh h0
    rw [TxHist.run, bind_eq_ok] at hr
    obtain ⟨h1, hs, hr⟩ := hr
    have hc' : OpsConfig P ops := fun c hm => hc c (List.mem_cons_of_mem _ hm)
    have hcalm : handed [op] = [] → h1.acc = h.acc ∧ h1.s.size n ≤ h.s.size n := fun ho =>
      TxInv.calm [op] i (fun c hm => hc c (by
        rw [List.mem_singleton.mp hm]; simp)) (by rw [TxHist.run, hs]; rfl) ho
    cases op with
    | init c =>
      obtain ⟨e1, e2⟩ := hcalm rfl
      obtain ⟨e3, e4⟩ := ih (i.init c (hc c (by simp)) h1 hs) hc' hr hh (by omega)
      exact ⟨by rw [e3, e1], e4⟩
    | transmit =>
      obtain ⟨e1, e2⟩ := hcalm rfl
      obtain ⟨h2, d1, c1, hs', i1, -⟩ := i.transmit
      rw [hs] at hs'
      cases hs'
      obtain ⟨e3, e4⟩ := ih i1 hc' hr hh (by omega)
      exact ⟨by rw [e3, e1], e4⟩
    | bytes b =>
      have hb : b = bs ∧ handed ops = [] := by
        have : b :: handed ops = [bs] := hh
        simpa using this
      obtain ⟨rfl, hh'⟩ := hb
      have i1 := i.bytes b h1 hs
      obtain ⟨e1, e2⟩ := i1.calm ops hc' hr hh'
      have hf : h.s.full n = false := by
        rw [Tx.full, h0]
        simp only [beq_eq_false_iff_ne]
        omega
      simp only [TxHist.step] at hs
      rw [bind_eq_ok] at hs
      obtain ⟨s', hb, hs⟩ := hs
      simp only [pure_eq_ok, Except.ok.injEq] at hs
      subst hs
      simp only [hf, Bool.false_eq_true, if_false] at e1 e2
      refine ⟨by rw [e1]; simp, Nat.le_trans e2 ?_⟩
      rw [Tx.bytes, hf] at hb
      simp only [Bool.false_eq_true, if_false] at hb
      split at hb
      · rw [bind_eq_ok] at hb
        obtain ⟨t, _, hb⟩ := hb
        simp only [pure_eq_ok, Except.ok.injEq] at hb
        subst hb
        have := (Tx.pushBack_ok i.ring hf t).2.1
        rw [← Tx.queue_length, this, List.length_append, Tx.queue_length, h0]
        simp
      · cases hb

/-- Interrupts alone. -/
theorem TxTask.run_transmit {n : Nat} (m : Nat) : ∀ {x y : TxTask}, x.run n (List.replicate m .transmit) = .ok y →
    x.h.run n (List.replicate m .transmit) = .ok y.h ∧ y.phase = x.phase := by
  induction m with
  | zero => intro x y hr; cases hr; exact ⟨rfl, rfl⟩
  | succ m ih =>
    intro x y hr
    rw [List.replicate_succ, TxTask.run, bind_eq_ok] at hr
    obtain ⟨x1, hs, hr⟩ := hr
    simp only [TxTask.step] at hs
    rw [bind_eq_ok] at hs
    obtain ⟨h1, hh, hs⟩ := hs
    simp only [pure_eq_ok, Except.ok.injEq] at hs
    subst hs
    obtain ⟨e1, e2⟩ := ih hr
    exact ⟨by rw [List.replicate_succ, TxHist.run, hh]; exact e1, e2⟩

/-- The thread makes no call. -/
theorem made_nil {n : Nat} (bs : List TxBeat) : ∀ (x : TxTask), (∀ op, .start op ∉ bs) → made n x bs = [] := by
  induction bs with
  | nil => intro x _; rfl
  | cons b bs ih =>
    intro x hb
    have h1 : madeNow x b = [] := by
      cases b with
      | start op => exact absurd (List.mem_cons_self) (hb op)
      | _ => rfl
    rw [made, h1, List.nil_append]
    split
    · exact ih _ fun op hm => hb op (List.mem_cons_of_mem _ hm)
    · rfl

/-- One call. -/
theorem made_one {n : Nat} {x : TxTask} (hi : x.phase = .idle) (op : TxOp) (bs : List TxBeat)
    (hb : ∀ op, .start op ∉ bs) : made n x (.start op :: bs) = [op] := by
  have h1 : madeNow x (.start op) = [op] := by rw [madeNow, if_pos hi]
  rw [made, h1]
  split
  · rw [made_nil bs _ hb]; rfl
  · rfl

/-- The state between two turns: the thread is in its delay and the queue is empty; the state is that of a
station that was not interrupted, all of whose configurations are the default one. -/
structure Resting (n : Nat) (x : TxTask) (ops : List TxOp) : Prop where
  run : ({ s := {} } : TxHist).run n ops = .ok x.h
  idle : x.phase = .idle
  size : x.h.s.size n = 0
  same : ∀ c, .init c ∈ ops → c = {}

/-- Configurations put together from the default one only. -/
theorem mixed_default {cs : List TxConfig} (hc : ∀ d ∈ cs, d = {}) {c : TxConfig} (h : Mixed cs c) : c = {} := by
  obtain ⟨⟨a, ha, h1⟩, ⟨b, hb, h2⟩, ⟨d, hd, h3⟩, ⟨f, hf, h4⟩, ⟨g, hg, h5⟩⟩ := h
  rw [hc a ha] at h1
  rw [hc b hb] at h2
  rw [hc d hd] at h3
  rw [hc f hf] at h4
  rw [hc g hg] at h5
  cases c
  simp only at *
  subst h1 h2 h3 h4 h5
  rfl

/-- The configuration is the default one as long as no other is set. -/
theorem default_cfg {n : Nat} {ops : List TxOp} {h : TxHist} (hr : ({ s := {} } : TxHist).run n ops = .ok h)
    (hs : ∀ c, .init c ∈ ops → c = {}) : ∃ done cur, TxInv n (· = ({} : TxConfig)) h done cur :=
  TxInv.run ops (TxInv.initial n (· = {}) {} rfl) (fun c hm => hs c hm) h hr

theorem valid_default : ValidConfig {} := by simp [ValidConfig]

/-- A turn of the main loop: the packets handed over in it are accepted. -/
theorem Resting.call {n : Nat} (hn : 1 ≤ n) {x y : TxTask} {ops : List TxOp} (i : Resting n x ops) (op : TxOp)
    (ho : (∃ bs, op = .bytes bs) ∨ op = .init {}) (during : List TxBeat) (hd : ∀ op, .start op ∉ during)
    (hr : x.run n (.start op :: during) = .ok y) (hi : y.phase = .idle) :
    ∃ ops', ({ s := {} } : TxHist).run n ops' = .ok y.h ∧ (∀ c, .init c ∈ ops' → c = {}) ∧ y.h.s.size n ≤ 1 ∧
      y.h.acc.map (·.2) = x.h.acc.map (·.2) ++ handed [op] := by
  obtain ⟨ops1, h1, hr1, ho1, ha1, ⟨rest, hh, _, hrest⟩, hc1⟩ := C82_linear n ops x y i.run i.idle _ hr
  obtain ⟨rfl, hs1⟩ := hrest hi
  have hy : h1 = y.h := by
    cases h1
    cases hyh : y.h
    simp only [hyh] at *
    subst ho1 ha1 hs1
    rfl
  subst hy
  rw [made_one i.idle op during hd] at hh hc1
  rw [List.append_nil] at hh
  obtain ⟨done, cur, inv⟩ := default_cfg i.run i.same
  have hdef : ∀ c, .init c ∈ ops1 → c = {} := by
    intro c hm
    refine mixed_default ?_ (hc1 c hm).2
    intro d hd
    rcases List.mem_cons.mp hd with rfl | hd
    · exact inv.cfg
    · rcases ho with ⟨bs, rfl⟩ | rfl
      · cases hd
      · simpa [configs] using hd
  refine ⟨ops ++ ops1, by rw [TxHist.run_append _ _ i.run]; exact hr1, ?_, ?_⟩
  · intro c hm
    rcases List.mem_append.mp hm with hm | hm
    · exact i.same c hm
    · exact hdef c hm
  · rcases ho with ⟨bs, rfl⟩ | rfl
    · obtain ⟨e1, e2⟩ := inv.single hn bs ops1 hdef hr1 hh.symm i.size
      exact ⟨e2, e1⟩
    · obtain ⟨e1, e2⟩ := inv.calm ops1 hdef hr1 hh.symm
      rw [i.size] at e2
      exact ⟨by omega, by rw [e1]; simp [handed]⟩

/-- The delay after a call. -/
theorem Resting.delay {n : Nat} {y z : TxTask} {ops : List TxOp} (hr : ({ s := {} } : TxHist).run n ops = .ok y.h)
    (hs : ∀ c, .init c ∈ ops → c = {}) (hi : y.phase = .idle) (h1 : y.h.s.size n ≤ 1) (m : Nat)
    (hm : 2 * longest < m) (hz : y.run n (List.replicate m .transmit) = .ok z) :
    Resting n z (ops ++ List.replicate m .transmit) ∧ z.h.acc = y.h.acc := by
  obtain ⟨e1, e2⟩ := TxTask.run_transmit m hz
  obtain ⟨done, cur, inv⟩ := default_cfg hr hs
  have hb : (y.h.s.size n + 1) * longest + 0 * idling < m := by
    have : (y.h.s.size n + 1) * longest ≤ 2 * longest := Nat.mul_le_mul_right _ (by omega)
    omega
  obtain ⟨_, _, _, _, _, _, _, _, hq, ha, _⟩ := inv.settled (fun c (hc : c = {}) => by rw [hc]; exact valid_default) m 0 e1 hb
  refine ⟨⟨by rw [TxHist.run_append _ _ hr]; exact e1, by rw [e2, hi], ?_, ?_⟩, ha⟩
  · rw [← Tx.queue_length, hq]; rfl
  · intro c hm
    rcases List.mem_append.mp hm with hm | hm
    · exact hs c hm
    · cases List.eq_of_mem_replicate hm

/-- The main loop: every packet handed over is accepted.  Before the last delay there are `h0` and `m`
interrupts in it. -/
theorem Turns.accepted {n gap : Nat} (hn : 1 ≤ n) (hg : 2 * longest < gap) : ∀ (ts : List Turn) {x z : TxTask} {ops : List TxOp},
    Resting n x ops → (∀ t ∈ ts, (∃ bs, t.call = .bytes bs) ∨ t.call = .init {}) → ts ≠ [] → Turns n gap x ts z →
    z.h.acc.map (·.2) = x.h.acc.map (·.2) ++ handed (ts.map (·.call)) ∧
    ∃ (ops' : List TxOp) (h0 : TxHist) (m : Nat), ({ s := {} } : TxHist).run n ops' = .ok h0 ∧
      (∀ c, .init c ∈ ops' → c = {}) ∧ h0.s.size n ≤ 1 ∧ gap ≤ m ∧
      h0.run n (List.replicate m .transmit) = .ok z.h := by
  intro ts
  induction ts with
  | nil => intro x z ops _ _ hne; exact absurd rfl hne
  | cons t ts ih =>
    intro x z ops i ho _ ht
    obtain ⟨hd, hgap, y, y', hr, hi, hdel, ht⟩ := ht
    obtain ⟨ops1, r1, r2, r3, r4⟩ := i.call hn t.call (ho t (by simp)) t.during hd hr hi
    obtain ⟨j, ha⟩ := Resting.delay r1 r2 hi r3 t.delay (by omega) hdel
    have hhand : handed ((t :: ts).map (·.call)) = handed [t.call] ++ handed (ts.map (·.call)) := by
      simp only [handed, List.map_cons]
      rw [← List.filterMap_append]
      rfl
    cases ts with
    | nil =>
      cases ht
      refine ⟨by rw [ha, r4]; rfl, ops1, y.h, t.delay, r1, r2, r3, hgap, (TxTask.run_transmit _ hdel).1⟩
    | cons t' ts =>
      obtain ⟨e1, e2⟩ := ih j (fun u hu => ho u (List.mem_cons_of_mem _ hu)) (by simp) ht
      exact ⟨by rw [e1, ha, r4, hhand, List.append_assoc], e2⟩

/-! ### Signal -/

/-- What a station with the default configuration puts on the track. -/
theorem default_out {n : Nat} {h : TxHist} {done cur} (i : TxInv n (· = ({} : TxConfig)) h done cur) :
    ∀ o ∈ h.out, o.duration ∈ [58, 100, 29, 51, 113, 261, 17] ∧
      o.events ∈ [[.trackOutputs false true], [.trackOutputs true false], [.trackOutputs false false, .biDiStart],
        [.biDiChannel1], [.biDiChannel2], [.biDiEnd]] := by
  intro o ho
  rw [i.out_eq] at ho
  obtain ⟨g, hg, ho⟩ := List.mem_flatMap.mp ho
  have hok : g.Ok (· = ({} : TxConfig)) := by
    rcases List.mem_append.mp hg with hg | hg
    · exact (i.done_ok g hg).1
    · rw [List.mem_singleton.mp hg]; exact i.cur_ok
  have hw : ∃ bs, g.wave = packetWave {} bs := by
    cases hf : g.frame with
    | none => exact ⟨_, by rw [Segment.wave, hf]; rfl⟩
    | some w =>
      have hm : w ∈ h.acc.map (fun a => packetWave a.1 a.2) := by
        rw [i.acc_eq]
        exact List.mem_append_left _ (List.mem_filterMap.mpr ⟨g, hg, hf⟩)
      obtain ⟨a, ha, rfl⟩ := List.mem_map.mp hm
      exact ⟨a.2, by rw [Segment.wave, hf, (i.acc_ok a ha).1]; rfl⟩
  obtain ⟨bs, hw⟩ := hw
  rcases List.mem_append.mp ho with ho | ho
  · obtain ⟨k, hk⟩ := List.mem_iff_getElem?.mp ho
    obtain ⟨c, d, rfl, hd, rfl⟩ := hok.halves_eq k o hk
    have hm := List.mem_of_getElem? hd
    rw [hw] at hm
    have hd := wave_mem {} _ d hm
    refine ⟨?_, ?_⟩
    · rw [duration_half]
      rcases hd with h | h
      · simp [h]
      · simp [h]
    · unfold halfOut
      split <;> simp
  · obtain ⟨k, hk⟩ := List.mem_iff_getElem?.mp ho
    obtain ⟨c, rfl, _, hc⟩ := hok.cut_eq k o hk
    have hm := List.mem_of_getElem? hc
    simp only [cutOut, List.mem_cons, List.not_mem_nil, or_false] at hm
    rcases hm with rfl | rfl | rfl | rfl | rfl <;> simp

/-- The edges the timer captures are the changes of the polarity. -/
theorem captures_crossings (os : List TxOut) : ∀ (seen : Bool) (pins : Bool × Bool) (acc : List Nat),
    (∀ o ∈ os, o.events ∈ [[TxEvent.trackOutputs false true], [.trackOutputs true false],
      [.trackOutputs false false, .biDiStart], [.biDiChannel1], [.biDiChannel2], [.biDiEnd]]) →
    (if seen then pins.1 = false else pins.2 = false) →
    captures (!seen) pins acc os = crossings none seen acc os := by
  induction os with
  | nil => intro _ _ _ _ _; rfl
  | cons o os ih =>
    intro seen pins acc ho hp
    have h1 := ho o (by simp)
    have h2 : ∀ o ∈ os, _ := fun o hm => ho o (List.mem_cons_of_mem _ hm)
    obtain ⟨d, evs⟩ := o
    obtain ⟨pn, pp⟩ := pins
    simp only [List.mem_cons, List.not_mem_nil, or_false] at h1
    rcases h1 with rfl | rfl | rfl | rfl | rfl | rfl <;> cases seen <;> cases pn <;> cases pp <;>
      simp only [captures, crossings, stmPins, looks, List.foldl_cons, List.foldl_nil, Bool.not_true, Bool.not_false,
        Bool.and_true, Bool.and_false, if_true, if_false, Bool.false_eq_true,
        Option.getD_none, reduceCtorEq] at hp ⊢ <;>
      first
        | exact ih true _ _ h2 rfl
        | exact ih false _ _ h2 rfl
        | exact congrArg _ (ih true _ _ h2 rfl)
        | exact congrArg _ (ih false _ _ h2 rfl)
        | contradiction

/-- What happened before only belongs to the first interval. -/
theorem crossings_before (off : Option Bool) (os : List TxOut) : ∀ (seen : Bool) (b acc : List Nat),
    crossings off seen (b ++ acc) os =
      match crossings off seen acc os with
      | [] => []
      | g :: gs => (b ++ g) :: gs := by
  induction os with
  | nil => intro _ _ _; rfl
  | cons o os ih =>
    intro seen b acc
    rw [crossings, crossings]
    split
    · rw [List.append_assoc]; exact ih _ _ _
    · rfl

/-- All intervals consist of durations of the station. -/
theorem crossings_mem (off : Option Bool) (os : List TxOut) : ∀ (seen : Bool) (acc : List Nat),
    ∀ g ∈ crossings off seen acc os, ∀ d ∈ g, d ∈ acc ∨ ∃ o ∈ os, o.duration = d := by
  induction os with
  | nil => intro _ _ g hg; cases hg
  | cons o os ih =>
    intro seen acc g hg d hd
    rw [crossings] at hg
    have key : ∀ seen acc', g ∈ crossings off seen acc' os → (∀ x ∈ acc', x ∈ acc ∨ x = o.duration) →
        d ∈ acc ∨ ∃ o' ∈ o :: os, o'.duration = d := by
      intro seen acc' hg hx
      rcases ih seen acc' g hg d hd with h | ⟨o', h1, h2⟩
      · rcases hx d h with h | h
        · exact .inl h
        · exact .inr ⟨o, by simp, h.symm⟩
      · exact .inr ⟨o', by simp [h1], h2⟩
    split at hg
    · refine key _ _ hg fun x hx => ?_
      simpa using hx
    · rcases List.mem_cons.mp hg with rfl | hg
      · exact .inl hd
      · refine key _ _ hg fun x hx => ?_
        exact .inr (by simpa using hx)

/-- What a decoder counts is within the limits. -/
theorem clocked_measured (gs : List (List Nat)) : ∀ ts, (∀ g ∈ gs, ∀ d ∈ g, d ≠ 60) → AllClocked gs ts →
    Measured gs ts := by
  induction gs with
  | nil =>
    intro ts _ h
    cases ts with
    | nil => trivial
    | cons => exact h.elim
  | cons g gs ih =>
    intro ts hd h
    cases ts with
    | nil => exact h.elim
    | cons t ts =>
      refine ⟨?_, ih ts (fun g hg => hd g (by simp [hg])) h.2⟩
      have h1 := h.1
      match g, h1, hd g (by simp) with
      | [], _, _ => trivial
      | [d], h1, hd =>
        have h60 := hd d (by simp)
        unfold Clocked stmTicks at h1
        simp only [List.map_cons, List.map_nil, List.sum_cons, List.sum_nil] at h1
        exact ⟨fun _ => ⟨by omega, by omega⟩, fun _ => ⟨by omega, by omega⟩⟩
      | _ :: _ :: _, _, _ => trivial

/-- Each half bit takes at least its duration in µs. -/
theorem sum_le_micros (g : List Nat) (h : ∀ d ∈ g, d ≤ 261) : g.sum ≤ stmMicros g := by
  have key : ∀ g : List Nat, (∀ d ∈ g, d ≤ 261) → 3392 * g.sum ≤ 3380 * stmTicks g := by
    intro g
    induction g with
    | nil => intro _; decide
    | cons d g ih =>
      intro h
      have h1 := h d (by simp)
      have h2 := ih fun d hd => h d (by simp [hd])
      have h3 : stmTicks (d :: g) = d + 1 + stmTicks g := by simp [stmTicks]
      rw [h3, List.sum_cons]
      omega
  have := key g h
  unfold stmMicros
  rw [Nat.le_div_iff_mul_le (by decide), ← Nat.mul_assoc 52 65, Nat.mul_comm g.sum]
  exact this

/-- Less time has passed, too. -/
theorem Spec.Lasting.mono {f g : List Nat → Nat} (xs : List (Nat × RxOp)) : ∀ (gs : List (List Nat)) (edge : Nat),
    (∀ x ∈ gs, f x ≤ g x) → Lasting edge (gs.map g) xs → Lasting edge (gs.map f) xs := by
  induction xs with
  | nil =>
    intro gs edge _ h
    cases gs with
    | nil => rfl
    | cons => cases h
  | cons x xs ih =>
    obtain ⟨time, op⟩ := x
    intro gs edge hle h
    cases gs with
    | nil => exact ⟨h.1, ih [] edge nofun h.2⟩
    | cons y gs =>
      simp only [List.map_cons, Lasting] at h ⊢
      split at h
      · rename_i hr
        rw [if_pos hr]
        have := hle y (by simp)
        exact ⟨by omega, ih gs time (fun x hx => hle x (by simp [hx])) h.2⟩
      · rename_i hr
        rw [if_neg hr]
        exact ih (y :: gs) edge hle h

end Dcc
