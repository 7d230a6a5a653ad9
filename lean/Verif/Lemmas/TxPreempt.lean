import Verif.Lemmas.Tx
import Verif.Spec.TxPreempt
/-! A transmitter preempted in the thread does what one does whose calls are not preempted. -/
namespace Dcc
open Spec

theorem Tx.setSlot_same (s : Tx) (i : Nat) : s.setSlot i (s.slots i) = s := by
  cases s
  simp only [Tx.setSlot, Tx.mk.injEq, and_true]
  funext j
  split
  · next h => rw [h]
  · rfl

theorem Tx.setSlot_setSlot (s : Tx) (i : Nat) (t u : List Nat) :
    (s.setSlot i t).setSlot i u = s.setSlot i u := by
  simp only [Tx.setSlot, Tx.mk.injEq, and_true]
  funext j
  split <;> rfl

theorem Tx.current_setSlot {s : Tx} {i : Nat} (h : s.packet ≠ some i) (t : List Nat) :
    (s.setSlot i t).current = s.current := by
  simp only [Tx.current, Tx.setSlot]
  cases hp : s.packet with
  | none => rfl
  | some j =>
    have : j ≠ i := by rintro rfl; exact h hp
    simp [this]

theorem Tx.packetTiming_setSlot {s : Tx} {i : Nat} (h : s.packet ≠ some i) (t : List Nat) :
    (s.setSlot i t).packetTiming = s.packetTiming.map fun r => (r.1.setSlot i t, r.2) := by
  rw [Tx.packetTiming, Tx.packetTiming, Tx.current_setSlot h]
  have hc : (s.setSlot i t).packetCount = s.packetCount := rfl
  rw [hc]
  cases s.current[s.packetCount]? <;> rfl

theorem Tx.packet_ne_last {n : Nat} {s : Tx} (h : Tx.RingOk n s) (hf : s.full n = false) :
    s.packet ≠ some s.last := by
  intro hp
  obtain ⟨h1, h2⟩ := h.packet_eq _ hp
  have h3 := Tx.size_val h
  have h4 := h.first_le
  simp only [Tx.full, beq_eq_false_iff_ne] at hf
  rw [mod_lt_two _ _ (by omega)] at h2
  split at h2 <;> split at h3 <;> omega

/-- `transmit` does not look at the slot behind the last element. -/
theorem Tx.transmit_setSlot {n : Nat} {s : Tx} (h : Tx.RingOk n s) (hf : s.full n = false) (t : List Nat) :
    (s.setSlot s.last t).transmit n = (s.transmit n).map fun r => (r.1.setSlot s.last t, r.2) := by
  have hne := Tx.packet_ne_last h hf
  rw [Tx.transmit, Tx.transmit, Tx.current_setSlot hne]
  have e1 : (s.setSlot s.last t).packetCount = s.packetCount := rfl
  have e2 : (s.setSlot s.last t).cfg = s.cfg := rfl
  have e3 : (s.setSlot s.last t).bidiCount = s.bidiCount := rfl
  have e4 : (s.setSlot s.last t).empty = s.empty := rfl
  rw [e1, e2, e3, e4]
  split
  · exact Tx.packetTiming_setSlot hne t
  · split
    · have : s.bidiCount = 0 ∨ s.bidiCount = 1 ∨ s.bidiCount = 2 ∨ s.bidiCount = 3 ∨ s.bidiCount = 4 := by
        omega
      rcases this with hb | hb | hb | hb | hb <;> simp [Tx.bidiTiming, Tx.setSlot, hb, Except.map]
    · cases he : s.empty
      · simp only [Bool.false_eq_true, if_false]
        refine Eq.trans ?_ (Tx.packetTiming_setSlot (i := s.last) ?_ t)
        · rfl
        · simp only [Tx.popFront, ne_eq, Option.some.injEq]
          simpa [Tx.empty] using he
      · simp only [if_true]
        refine Eq.trans ?_ (Tx.packetTiming_setSlot (i := s.last) ?_ t)
        · rfl
        · simp

/-- What `transmit` leaves alone. -/
theorem Tx.transmit_keeps {n : Nat} {s s' : Tx} {o : TxOut} (h : s.transmit n = .ok (s', o)) :
    s'.last = s.last ∧ s'.cfg = s.cfg := by
  have hp : ∀ {a a' : Tx} {o : TxOut}, a.packetTiming = .ok (a', o) → a'.last = a.last ∧ a'.cfg = a.cfg := by
    intro a a' o ha
    rw [Tx.packetTiming] at ha
    split at ha
    · cases ha
    · cases ha; exact ⟨rfl, rfl⟩
  rw [Tx.transmit] at h
  split at h
  · exact hp h
  · split at h
    · rw [Except.ok.injEq, Tx.bidiTiming] at h
      split at h <;> cases h <;> exact ⟨rfl, rfl⟩
    · have := hp h
      split at this <;> exact this

theorem Spec.Mixed.mono {cs ds : List TxConfig} {c : TxConfig} (h : Mixed cs c) (hs : ∀ d ∈ cs, d ∈ ds) : Mixed ds c := by
  obtain ⟨⟨a, ha, h1⟩, ⟨b, hb, h2⟩, ⟨d, hd, h3⟩, ⟨f, hf, h4⟩, g, hg, h5⟩ := h
  exact ⟨⟨a, hs _ ha, h1⟩, ⟨b, hs _ hb, h2⟩, ⟨d, hs _ hd, h3⟩, ⟨f, hs _ hf, h4⟩, g, hs _ hg, h5⟩

/-- What the thread is about to write to the configuration. -/
def TxPhase.target : TxPhase → Option TxConfig
  | .preamble c | .bit1 c | .bit0 c | .invert c | .bidi c => some c
  | _ => none

/-- How a preempted transmitter differs from one that is not: only in the slot being written. -/
def TxPhase.Rel (n : Nat) (s : Tx) (a : Tx) : TxPhase → Prop
  | .full2 _ first => s = a ∧ ((a.last + (n + 1) - first) % (n + 1) = n ∨ a.full n = false)
  | .timings _ => s = a ∧ a.full n = false
  | .write bs cfg t => (∃ junk, s = a.setSlot a.last junk) ∧ a.full n = false ∧ cfg = a.cfg ∧
      bs.length ≤ maxPacketSize ∧ bytes2timings bs cfg = .ok t
  | .advance bs cfg t => s = a.setSlot a.last t ∧ a.full n = false ∧ cfg = a.cfg ∧
      bs.length ≤ maxPacketSize ∧ bytes2timings bs cfg = .ok t
  | _ => s = a

/-- The packet of the call the thread is in, unless it is already decided that it is rejected. -/
def TxPhase.pending (n : Nat) (s : Tx) : TxPhase → List (List Byte)
  | .full bs | .timings bs | .write bs _ _ | .advance bs _ _ => [bs]
  | .full2 bs first => if (s.last + (n + 1) - first) % (n + 1) = n then [] else [bs]
  | _ => []

/-- The preempted transmitter `x` and the other one `h`; `cs` are the configurations so far. -/
structure TxSim (n : Nat) (cs : List TxConfig) (x : TxTask) (h : TxHist) : Prop where
  out : x.h.out = h.out
  acc : x.h.acc = h.acc
  rel : x.phase.Rel n x.h.s h.s
  inv : ∃ done cur, TxInv n ValidConfig h done cur
  mixed : Mixed cs h.s.cfg
  target : ∀ c, x.phase.target = some c → c ∈ cs ∧ ValidConfig c

/-- The configurations a step adds. -/
def newConfigs (x : TxTask) : TxBeat → List TxConfig
  | .start (.init c) => if x.phase = .idle then [c] else []
  | _ => []

/-- The packets a step adds. -/
def newPackets (x : TxTask) : TxBeat → List (List Byte)
  | .start (.bytes bs) => if x.phase = .idle then [bs] else []
  | _ => []

theorem TxInv.mixedInit {n : Nat} {h : TxHist} {done cur} (i : TxInv n ValidConfig h done cur) {c : TxConfig}
    (hc : ValidConfig c) : h.run n [.init c] = .ok { h with s := { h.s with cfg := c } } ∧
      TxInv n ValidConfig { h with s := { h.s with cfg := c } } done cur := by
  have : h.step n (.init c) = .ok { h with s := { h.s with cfg := c } } := by
    simp [TxHist.step, Tx.init, (accepted_iff c).mpr hc]
  refine ⟨?_, i.init c hc _ this⟩
  rw [TxHist.run, this]; rfl

/-- One member of the configuration is written. -/
theorem TxSim.initStep {n : Nat} {cs : List TxConfig} {x : TxTask} {h : TxHist} (i : TxSim n cs x h)
    (hrel : x.h.s = h.s) (c' : TxConfig) (hv : ValidConfig c') (hm : Mixed cs c') (p : TxPhase)
    (hp : ∀ s, p.Rel n s s) (hpend : p.pending n x.h.s = []) (ht : ∀ c, p.target = some c → x.phase.target = some c)
    (hpx : x.phase.pending n x.h.s = []) :
    ∃ ops h', h.run n ops = .ok h' ∧
      TxSim n cs { h := { x.h with s := { x.h.s with cfg := c' } }, phase := p } h' ∧
      x.phase.pending n x.h.s = handed ops ++ p.pending n { x.h.s with cfg := c' } ∧
      ∀ c, .init c ∈ ops → Mixed cs c := by
  obtain ⟨done, cur, hi⟩ := i.inv
  obtain ⟨h1, h2⟩ := hi.mixedInit hv
  refine ⟨[.init c'], _, h1, ⟨i.out, i.acc, ?_, ⟨_, _, h2⟩, hm, fun c hc => i.target c (ht c hc)⟩, ?_, ?_⟩
  · rw [hrel]; exact hp _
  · rw [hpx]
    have : p.pending n { x.h.s with cfg := c' } = [] := by
      cases p <;> simp_all [TxPhase.pending]
    rw [this]; rfl
  · intro c hc
    simp only [List.mem_singleton, TxOp.init.injEq] at hc
    rw [hc]; exact hm

theorem TxSim.transmitStep {n : Nat} {cs : List TxConfig} {x x' : TxTask} {h : TxHist} (i : TxSim n cs x h)
    (hx : x.step n .transmit = .ok x') :
    ∃ h', h.run n [.transmit] = .ok h' ∧ TxSim n cs x' h' ∧
      x.phase.pending n x.h.s = x'.phase.pending n x'.h.s := by
  obtain ⟨done, cur, hi⟩ := i.inv
  obtain ⟨h', done', cur', hs, hi', hq⟩ := hi.transmit
  have hfull : h.s.full n = false → h'.s.full n = false := by
    intro hf
    have hle := Tx.size_le n h.s
    simp only [Tx.full, beq_eq_false_iff_ne] at hf ⊢
    rw [← Tx.queue_length] at hf hle ⊢
    rcases hq with ⟨_, _, hq⟩ | ⟨_, _, _, hq⟩
    · rw [hq]; exact hf
    · rw [hq, List.length_tail]; omega
  simp only [TxTask.step] at hx
  rw [bind_eq_ok] at hx
  obtain ⟨hx', hx1, hx2⟩ := hx
  simp only [pure_eq_ok, Except.ok.injEq] at hx2
  subst hx2
  simp only [TxHist.step] at hs hx1
  rw [bind_eq_ok] at hs hx1
  obtain ⟨⟨s1, o1⟩, hs1, hs2⟩ := hs
  obtain ⟨⟨s2, o2⟩, hx2, hx3⟩ := hx1
  simp only [pure_eq_ok, Except.ok.injEq] at hs2 hx3
  subst hs2 hx3
  have hk := Tx.transmit_keeps hs1
  -- either the objects are the same, or they differ in the slot behind the last element
  have key : ∀ t : List Nat, h.s.full n = false → x.h.s = h.s.setSlot h.s.last t →
      s2 = s1.setSlot s1.last t ∧ o2 = o1 := by
    intro t hf he
    rw [he, Tx.transmit_setSlot hi.ring hf, hs1] at hx2
    simp only [Except.map, Except.ok.injEq, Prod.mk.injEq] at hx2
    rw [hk.1]
    exact ⟨hx2.1.symm, hx2.2.symm⟩
  have same : x.h.s = h.s → s2 = s1 ∧ o2 = o1 := by
    intro he
    rw [he, hs1] at hx2
    cases hx2; exact ⟨rfl, rfl⟩
  have hlast : s2.last = x.h.s.last := (Tx.transmit_keeps hx2).1
  have hrun : h.run n [.transmit] = .ok { h with s := s1, out := h.out ++ [o1] } := by
    simp [TxHist.run, TxHist.step, hs1]
  have hpend : x.phase.pending n x.h.s = x.phase.pending n s2 := by
    cases hp : x.phase <;> simp only [TxPhase.pending, hlast]
  have hrel := i.rel
  refine ⟨_, hrun, ?_, hpend⟩
  suffices hh : o2 = o1 ∧ x.phase.Rel n s2 s1 from
    ⟨by simp only [i.out, hh.1], i.acc, hh.2, ⟨_, _, hi'⟩, by simpa only [hk.2] using i.mixed, i.target⟩
  cases hp : x.phase with
  | full2 bs first =>
    rw [hp] at hrel
    obtain ⟨e, hd⟩ := hrel
    obtain ⟨e1, e2⟩ := same e
    refine ⟨e2, e1, ?_⟩
    rcases hd with hd | hd
    · left; rw [hk.1]; exact hd
    · exact .inr (hfull hd)
  | timings bs =>
    rw [hp] at hrel
    obtain ⟨e1, e2⟩ := same hrel.1
    exact ⟨e2, e1, hfull hrel.2⟩
  | write bs cfg t =>
    rw [hp] at hrel
    obtain ⟨⟨junk, e⟩, hf, hc, hrest⟩ := hrel
    obtain ⟨e1, e2⟩ := key junk hf e
    exact ⟨e2, ⟨junk, e1⟩, hfull hf, by rw [hk.2]; exact hc, hrest⟩
  | advance bs cfg t =>
    rw [hp] at hrel
    obtain ⟨e, hf, hc, hrest⟩ := hrel
    obtain ⟨e1, e2⟩ := key t hf e
    exact ⟨e2, e1, hfull hf, by rw [hk.2]; exact hc, hrest⟩
  | idle => rw [hp] at hrel; obtain ⟨e1, e2⟩ := same hrel; exact ⟨e2, e1⟩
  | full bs => rw [hp] at hrel; obtain ⟨e1, e2⟩ := same hrel; exact ⟨e2, e1⟩
  | preamble c => rw [hp] at hrel; obtain ⟨e1, e2⟩ := same hrel; exact ⟨e2, e1⟩
  | bit1 c => rw [hp] at hrel; obtain ⟨e1, e2⟩ := same hrel; exact ⟨e2, e1⟩
  | bit0 c => rw [hp] at hrel; obtain ⟨e1, e2⟩ := same hrel; exact ⟨e2, e1⟩
  | invert c => rw [hp] at hrel; obtain ⟨e1, e2⟩ := same hrel; exact ⟨e2, e1⟩
  | bidi c => rw [hp] at hrel; obtain ⟨e1, e2⟩ := same hrel; exact ⟨e2, e1⟩

theorem TxSim.accessStep {n : Nat} {cs : List TxConfig} {x x' : TxTask} {h : TxHist} (i : TxSim n cs x h)
    (hx : x.access n = .ok x') :
    ∃ ops h', h.run n ops = .ok h' ∧ TxSim n cs x' h' ∧
      x.phase.pending n x.h.s = handed ops ++ x'.phase.pending n x'.h.s ∧
      ∀ c, .init c ∈ ops → Mixed cs c := by
  have hrel := i.rel
  have htgt := i.target
  obtain ⟨done, cur, hi⟩ := i.inv
  have hval := hi.cfg
  have hmix := i.mixed
  rw [TxTask.access] at hx
  cases hp : x.phase with
  | idle =>
    rw [hp] at hx
    cases hx
    exact ⟨[], h, rfl, i, by rw [hp]; rfl, by simp⟩
  | full bs =>
    rw [hp] at hx hrel
    cases hx
    have hrel : x.h.s = h.s := hrel
    by_cases hf : h.s.full n = true
    · have hb : h.run n [.bytes bs] = .ok h := by
        simp [TxHist.run, TxHist.step, Tx.bytes, hf]
      have hd : (h.s.last + (n + 1) - h.s.first) % (n + 1) = n := by
        simpa [Tx.full, Tx.size] using hf
      refine ⟨[.bytes bs], h, hb, ⟨i.out, i.acc, ⟨hrel, .inl ?_⟩, i.inv, i.mixed, by simp [TxPhase.target]⟩, ?_,
        by simp⟩
      · rw [hrel]; exact hd
      · simp only [TxPhase.pending, hrel, hd, if_true]; rfl
    · have hf : h.s.full n = false := by simpa using hf
      refine ⟨[], h, rfl, ⟨i.out, i.acc, ⟨hrel, .inr hf⟩, i.inv, i.mixed, by simp [TxPhase.target]⟩, ?_, by simp⟩
      have hd : (h.s.last + (n + 1) - h.s.first) % (n + 1) ≠ n := by
        simpa [Tx.full, Tx.size] using hf
      simp only [TxPhase.pending, hrel, if_neg hd]; rfl
  | full2 bs first =>
    rw [hp] at hx hrel
    obtain ⟨e, hd⟩ := hrel
    simp only at hx
    split at hx
    · rename_i hn
      cases hx
      refine ⟨[], h, rfl, ⟨i.out, i.acc, e, i.inv, i.mixed, by simp [TxPhase.target]⟩, ?_, by simp⟩
      simp only [TxPhase.pending, if_pos hn]; rfl
    · rename_i hn
      cases hx
      rw [← e] at hd
      refine ⟨[], h, rfl, ⟨i.out, i.acc, ⟨e, ?_⟩, i.inv, i.mixed, by simp [TxPhase.target]⟩, ?_, by simp⟩
      · rcases hd with hd | hd
        · exact absurd hd hn
        · rw [← e]; exact hd
      · simp only [TxPhase.pending, if_neg hn]; rfl
  | timings bs =>
    rw [hp] at hx hrel
    obtain ⟨e, hf⟩ := hrel
    simp only at hx
    split at hx
    · rename_i hl
      have hb := bytes2timings_ok bs x.h.s.cfg hl
      rw [hb] at hx
      cases hx
      refine ⟨[], h, rfl, ⟨i.out, i.acc, ⟨⟨h.s.slots h.s.last, ?_⟩, hf, by rw [e], hl, hb⟩, i.inv, i.mixed,
        by simp [TxPhase.target]⟩, rfl, by simp⟩
      rw [Tx.setSlot_same]; exact e
    · cases hx
  | write bs cfg t =>
    rw [hp] at hx hrel
    obtain ⟨⟨junk, e⟩, hf, hc, hl, hb⟩ := hrel
    cases hx
    refine ⟨[], h, rfl, ⟨i.out, i.acc, ⟨?_, hf, hc, hl, hb⟩, i.inv, i.mixed, by simp [TxPhase.target]⟩, rfl,
      by simp⟩
    simp only
    rw [e]
    exact Tx.setSlot_setSlot _ _ _ _
  | advance bs cfg t =>
    rw [hp] at hx hrel
    obtain ⟨e, hf, hc, hl, hb⟩ := hrel
    cases hx
    have hs : h.step n (.bytes bs) = .ok { h with s := h.s.pushBack n t, acc := h.acc ++ [(cfg, bs)] } := by
      subst hc
      simp [TxHist.step, Tx.bytes, hf, hl, hb]
    have hb : h.run n [.bytes bs] = .ok { h with s := h.s.pushBack n t, acc := h.acc ++ [(cfg, bs)] } := by
      rw [TxHist.run, hs]; rfl
    refine ⟨[.bytes bs], _, hb, ⟨i.out, ?_, ?_, ⟨_, _, hi.bytes bs _ hs⟩, i.mixed, by simp [TxPhase.target]⟩, rfl,
      by simp⟩
    · simp only [i.acc]
    · simp only [TxPhase.Rel]
      rw [e]; rfl
  | preamble c =>
    rw [hp] at hx hrel htgt
    cases hx
    have e : x.h.s = h.s := hrel
    obtain ⟨hc, v⟩ := htgt c rfl
    rw [← hp]
    rw [← e] at hval hmix
    exact i.initStep e { x.h.s.cfg with numPreamble := c.numPreamble } ⟨v.1, v.2.1, hval.2.2⟩ ⟨⟨c, hc, rfl⟩, hmix.2⟩ (.bit1 c) (fun _ => rfl) rfl
      (fun _ h => by rw [hp]; exact h) (by rw [hp]; rfl)
  | bit1 c =>
    rw [hp] at hx hrel htgt
    cases hx
    have e : x.h.s = h.s := hrel
    obtain ⟨hc, v⟩ := htgt c rfl
    rw [← hp]
    rw [← e] at hval hmix
    exact i.initStep e { x.h.s.cfg with bit1 := c.bit1 } ⟨hval.1, hval.2.1, v.2.2.1, v.2.2.2.1, hval.2.2.2.2⟩ ⟨hmix.1, ⟨c, hc, rfl⟩, hmix.2.2⟩
      (.bit0 c) (fun _ => rfl) rfl (fun _ h => by rw [hp]; exact h) (by rw [hp]; rfl)
  | bit0 c =>
    rw [hp] at hx hrel htgt
    cases hx
    have e : x.h.s = h.s := hrel
    obtain ⟨hc, v⟩ := htgt c rfl
    rw [← hp]
    rw [← e] at hval hmix
    exact i.initStep e { x.h.s.cfg with bit0 := c.bit0 } ⟨hval.1, hval.2.1, hval.2.2.1, hval.2.2.2.1, v.2.2.2.2⟩
      ⟨hmix.1, hmix.2.1, ⟨c, hc, rfl⟩, hmix.2.2.2⟩
      (.invert c) (fun _ => rfl) rfl (fun _ h => by rw [hp]; exact h) (by rw [hp]; rfl)
  | invert c =>
    rw [hp] at hx hrel htgt
    cases hx
    have e : x.h.s = h.s := hrel
    obtain ⟨hc, v⟩ := htgt c rfl
    rw [← hp]
    rw [← e] at hval hmix
    exact i.initStep e { x.h.s.cfg with invert := c.invert } hval
      ⟨hmix.1, hmix.2.1, hmix.2.2.1, ⟨c, hc, rfl⟩, hmix.2.2.2.2⟩
      (.bidi c) (fun _ => rfl) rfl (fun _ h => by rw [hp]; exact h) (by rw [hp]; rfl)
  | bidi c =>
    rw [hp] at hx hrel htgt
    cases hx
    have e : x.h.s = h.s := hrel
    obtain ⟨hc, v⟩ := htgt c rfl
    rw [← hp]
    rw [← e] at hval hmix
    exact i.initStep e { x.h.s.cfg with bidi := c.bidi } hval
      ⟨hmix.1, hmix.2.1, hmix.2.2.1, hmix.2.2.2.1, ⟨c, hc, rfl⟩⟩
      .idle (fun _ => rfl) rfl (fun _ h => by cases h) (by rw [hp]; rfl)

theorem TxSim.mono {n : Nat} {cs ds : List TxConfig} {x : TxTask} {h : TxHist} (i : TxSim n cs x h)
    (hs : ∀ d ∈ cs, d ∈ ds) : TxSim n ds x h :=
  { i with mixed := i.mixed.mono hs, target := fun c hc => ⟨hs c (i.target c hc).1, (i.target c hc).2⟩ }

theorem TxSim.step {n : Nat} {cs : List TxConfig} {x x' : TxTask} {h : TxHist} (i : TxSim n cs x h) (b : TxBeat)
    (hx : x.step n b = .ok x') :
    ∃ ops h', h.run n ops = .ok h' ∧ TxSim n (cs ++ newConfigs x b) x' h' ∧
      x.phase.pending n x.h.s ++ newPackets x b = handed ops ++ x'.phase.pending n x'.h.s ∧
      ∀ c, .init c ∈ ops → Mixed (cs ++ newConfigs x b) c := by
  cases b with
  | transmit =>
    obtain ⟨h', h1, h2, h3⟩ := i.transmitStep hx
    exact ⟨_, h', h1, h2.mono (fun _ => List.mem_append_left _), by rw [h3]; simp [newPackets, handed], by simp⟩
  | access =>
    obtain ⟨ops, h', h1, h2, h3, h4⟩ := i.accessStep hx
    refine ⟨ops, h', h1, h2.mono (fun _ => List.mem_append_left _), by rw [h3]; simp [newPackets], fun c hc => ?_⟩
    exact (h4 c hc).mono (fun _ => List.mem_append_left _)
  | start op =>
    simp only [TxTask.step] at hx
    by_cases hp : x.phase = .idle
    · rw [if_pos hp] at hx
      have hrel : x.h.s = h.s := by have := i.rel; rw [hp] at this; exact this
      cases op with
      | init c =>
        simp only [TxTask.start] at hx
        split at hx
        · rename_i hc
          cases hx
          refine ⟨[], h, rfl, ⟨i.out, i.acc, hrel, i.inv, i.mixed.mono (fun _ => List.mem_append_left _), ?_⟩, ?_, by simp⟩
          · intro d hd
            cases hd
            exact ⟨by simp [newConfigs, hp], (accepted_iff c).mp hc⟩
          · rw [hp]; rfl
        · cases hx
      | bytes bs =>
        cases hx
        refine ⟨[], h, rfl, ⟨i.out, i.acc, hrel, i.inv, i.mixed.mono (fun _ => List.mem_append_left _), by simp [TxPhase.target]⟩, ?_,
          by simp⟩
        simp [hp, newPackets, TxPhase.pending, handed]
      | transmit =>
        cases hx
        exact ⟨[], h, rfl, i.mono (fun _ => List.mem_append_left _), by simp [newPackets, handed], by simp⟩
    · rw [if_neg hp] at hx
      cases hx
      refine ⟨[], h, rfl, i.mono ?_, ?_, by simp⟩
      · exact fun _ => List.mem_append_left _
      · cases op <;> simp [newPackets, hp, handed]
  | scribble junk =>
    simp only [TxTask.step] at hx
    split at hx
    · rename_i bs cfg t hp
      cases hx
      have hrel := i.rel
      rw [hp] at hrel
      obtain ⟨⟨j, e⟩, hrest⟩ := hrel
      refine ⟨[], h, rfl, ⟨i.out, i.acc, ?_, i.inv, i.mixed.mono (fun _ => List.mem_append_left _), ?_⟩, ?_, by simp⟩
      · simp only [hp]
        refine ⟨⟨junk, ?_⟩, hrest⟩
        rw [e]; exact Tx.setSlot_setSlot _ _ _ _
      · simp [hp, TxPhase.target]
      · simp only [hp, TxPhase.pending]; rfl
    · cases hx
      exact ⟨[], h, rfl, i.mono (fun _ => List.mem_append_left _), by simp [newPackets, handed], by simp⟩

private theorem run_append {n : Nat} (as bs : List TxOp) : ∀ h : TxHist,
    h.run n (as ++ bs) = (h.run n as).bind fun h => h.run n bs := by
  induction as with
  | nil => intro h; rfl
  | cons a as ih =>
    intro h
    simp only [List.cons_append, TxHist.run]
    cases h.step n a with
    | error f => rfl
    | ok h1 => exact ih h1

theorem made_cons (n : Nat) (x x' : TxTask) (b : TxBeat) (bs : List TxBeat) (hx : x.step n b = .ok x') :
    handed (made n x (b :: bs)) = newPackets x b ++ handed (made n x' bs) ∧
    configs (made n x (b :: bs)) = newConfigs x b ++ configs (made n x' bs) := by
  rw [made, hx]
  simp only [handed, configs, List.filterMap_append]
  refine ⟨congrArg (· ++ _) ?_, congrArg (· ++ _) ?_⟩
  · cases b with
    | start op => by_cases hp : x.phase = .idle <;> cases op <;> simp [newPackets, madeNow, hp]
    | _ => rfl
  · cases b with
    | start op => by_cases hp : x.phase = .idle <;> cases op <;> simp [newConfigs, madeNow, hp]
    | _ => rfl

theorem TxSim.run {n : Nat} : ∀ (bs : List TxBeat) {cs : List TxConfig} {x x' : TxTask} {h : TxHist},
    TxSim n cs x h → x.run n bs = .ok x' →
    ∃ ops h', h.run n ops = .ok h' ∧ TxSim n (cs ++ configs (made n x bs)) x' h' ∧
      x.phase.pending n x.h.s ++ handed (made n x bs) = handed ops ++ x'.phase.pending n x'.h.s ∧
      ∀ c, .init c ∈ ops → Mixed (cs ++ configs (made n x bs)) c
  | [], cs, x, x', h, i, hx => by
    cases hx
    exact ⟨[], h, rfl, i.mono (fun _ => List.mem_append_left _), by simp [made, handed], by simp⟩
  | b :: bs, cs, x, x', h, i, hx => by
    rw [TxTask.run, bind_eq_ok] at hx
    obtain ⟨x1, hx1, hx2⟩ := hx
    obtain ⟨o1, h1, r1, i1, p1, m1⟩ := i.step b hx1
    obtain ⟨o2, h2, r2, i2, p2, m2⟩ := TxSim.run bs i1 hx2
    obtain ⟨e1, e2⟩ := made_cons n x x1 b bs hx1
    rw [e1, e2]
    refine ⟨o1 ++ o2, h2, ?_, ?_, ?_, ?_⟩
    · rw [run_append, r1]; exact r2
    · rw [← List.append_assoc]; exact i2
    · rw [← List.append_assoc, p1, List.append_assoc, p2]
      simp [handed]
    · intro c hc
      rw [← List.append_assoc]
      rcases List.mem_append.mp hc with hc | hc
      · exact (m1 c hc).mono (by simp +contextual [or_imp])
      · exact m2 c hc

theorem TxSim.initial {n : Nat} {x : TxTask} (hi : x.phase = .idle) {ops : List TxOp}
    (hr : ({ s := {} } : TxHist).run n ops = .ok x.h) : TxSim n [x.h.s.cfg] x x.h where
  out := rfl
  acc := rfl
  rel := by rw [hi]; rfl
  inv := TxInv.reachable ops x.h hr
  mixed := ⟨⟨_, by simp, rfl⟩, ⟨_, by simp, rfl⟩, ⟨_, by simp, rfl⟩, ⟨_, by simp, rfl⟩, _, by simp, rfl⟩
  target := by rw [hi]; simp [TxPhase.target]

theorem TxPhase.pending_le (n : Nat) (s : Tx) (p : TxPhase) : (p.pending n s).length ≤ 1 := by
  cases p <;> simp only [TxPhase.pending] <;> try split
  all_goals simp

end Dcc
