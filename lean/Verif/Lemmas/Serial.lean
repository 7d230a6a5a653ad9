import Verif.Lemmas.RxDrive
import Verif.Lemmas.RxFaultExec
import Verif.Lemmas.RxRecvCase
import Verif.Lemmas.RxThread
import Verif.Spec.Serial
/-! What the thread does is independent of the interrupts. -/
namespace Dcc
open Spec Prog

/-- A program of the thread makes its accesses, each to any object with the core found after the access
before; `L` are the packets it fetched, `a` is the result. -/
def CoreRun {α : Type} : Prog α → Rx → List Packet → Rx → α → Prop
  | .ret a, c, L, c', a' => L = [] ∧ c' = c ∧ a' = a
  | .atom l f k, c, L, c', a' =>
    ∃ s s' b L', core s = c ∧ f s = .ok (s', b) ∧ L = fetchedAt l s ++ L' ∧ CoreRun (k b) (core s') L' c' a'

variable {α β : Type} {e : Env}

theorem CoreRun.bind {p : Prog α} {g : α → Prog β} : ∀ {c : Rx} {L : List Packet} {c' : Rx} {b : β},
    CoreRun (p >>= g) c L c' b → ∃ L1 L2 c1 a, L = L1 ++ L2 ∧ CoreRun p c L1 c1 a ∧ CoreRun (g a) c1 L2 c' b := by
  show ∀ {c L c' b}, CoreRun (p.bind g) c L c' b → _
  induction p with
  | ret a => intro c L c' b h; exact ⟨[], L, c, a, rfl, ⟨rfl, rfl, rfl⟩, h⟩
  | atom l f k ih =>
    intro c L c' b h
    obtain ⟨s, s', x, L', h1, h2, h3, h4⟩ := h
    obtain ⟨L1, L2, c1, a, h5, h6, h7⟩ := ih x h4
    exact ⟨fetchedAt l s ++ L1, L2, c1, a, by rw [h3, h5, List.append_assoc], ⟨s, s', x, L1, h1, h2, rfl, h6⟩, h7⟩

/-- What a method of the thread leaves alone. -/
structure KeepsRest (s s' : Rx) : Prop where
  deque : s'.deque = s.deque
  state : s.link.state = .preamble → s'.link.state = .preamble
  last : s'.lastPacketTp = s.lastPacketTp
  tos : s'.tosTp = s.tosTp

theorem KeepsRest.refl (s : Rx) : KeepsRest s s := ⟨rfl, id, rfl, rfl⟩

theorem KeepsRest.trans {s s' s'' : Rx} (h : KeepsRest s s') (h' : KeepsRest s' s'') : KeepsRest s s'' :=
  ⟨h'.deque.trans h.deque, h'.state ∘ h.state, h'.last.trans h.last, h'.tos.trans h.tos⟩

/-- Whatever `p` does, `q` does without interrupts and with a clock that stands still. -/
def Follows (p q : Prog α) : Prop :=
  ∀ s L c' a, s.lastPacketTp = 0 → s.tosTp = 0 → CoreRun p (core s) L c' a →
    L = [] ∧ ∃ s', q.run s = .ok (s', a) ∧ core s' = c' ∧ KeepsRest s s'

theorem Follows.bind {p q : Prog α} {g h : α → Prog β} (hp : Follows p q) (hg : ∀ a, Follows (g a) (h a)) :
    Follows (p >>= g) (q >>= h) := by
  intro s L c' b hz hz' hr
  obtain ⟨L1, L2, c1, a, h1, h2, h3⟩ := hr.bind
  obtain ⟨h4, s1, h5, h6, h7⟩ := hp s L1 c1 a hz hz' h2
  obtain ⟨k4, s2, k5, k6, k7⟩ := hg a s1 L2 c' b (h7.last.trans hz) (h7.tos.trans hz') (by rw [h6]; exact h3)
  refine ⟨by rw [h1, h4, k4]; rfl, s2, ?_, k6, h7.trans k7⟩
  rw [run_bind, h5, ok_bind, k5]

theorem Follows.pure (a : α) : Follows (Pure.pure a : Prog α) (Pure.pure a) := by
  intro s L c' b _ _ h
  obtain ⟨h1, h2, h3⟩ := h
  exact ⟨h1, s, by rw [h3]; rfl, h2.symm, .refl s⟩

theorem Follows.ite {c : Prop} [Decidable c] {p q p' q' : Prog α} (h : c → Follows p p') (h' : ¬ c → Follows q q') :
    Follows (if c then p else q) (if c then p' else q') := by
  split
  · exact h ‹_›
  · exact h' ‹_›

/-- Not a line where a packet is fetched. -/
def otherLine (l : Nat) : Prop := l ≠ 291 ∧ l ≠ 315

instance (l : Nat) : Decidable (otherLine l) := inferInstanceAs (Decidable (_ ∧ _))

theorem fetchedAt_none {l : Nat} (h : otherLine l) (s : Rx) : fetchedAt l s = [] := by
  unfold fetchedAt
  rw [if_neg]
  rintro (h1 | h1)
  · exact h.1 h1
  · exact h.2 h1

theorem Follows.get {l : Nat} (hl : otherLine l) {f : Rx → β} (hf : ∀ s, f (core s) = f s) :
    Follows (get l f) (get l f) := by
  intro s L c' b _ _ h
  obtain ⟨s0, s1, x, L', h1, h2, h3, h4, h5, h6⟩ := h
  cases h2
  rw [fetchedAt_none hl, h4] at h3
  refine ⟨h3, s, ?_, ?_, .refl s⟩
  · rw [run_get, h6, ← hf s, ← h1, hf]
  · rw [h5, h1]

theorem Follows.set {l : Nat} (hl : otherLine l) {f : Rx → Rx} (hf : ∀ s, core (f s) = f (core s))
    (hk : ∀ s, KeepsRest s (f s)) : Follows (set l f) (set l f) := by
  intro s L c' b _ _ h
  obtain ⟨s0, s1, x, L', h1, h2, h3, h4, h5, h6⟩ := h
  cases h2
  rw [fetchedAt_none hl, h4] at h3
  refine ⟨h3, f s, rfl, ?_, hk s⟩
  rw [h5, hf, hf, h1]

theorem Follows.call {l : Nat} (hl : otherLine l) {f : Rx → β × Rx}
    (hf : ∀ s t, core s = core t → (f s).1 = (f t).1 ∧ core (f s).2 = core (f t).2)
    (hk : ∀ s, KeepsRest s (f s).2) : Follows (call l f) (call l f) := by
  intro s L c' b _ _ h
  obtain ⟨s0, s1, x, L', h1, h2, h3, h4, h5, h6⟩ := h
  cases h2
  rw [fetchedAt_none hl, h4] at h3
  obtain ⟨h7, h8⟩ := hf s0 s h1
  refine ⟨h3, (f s).2, ?_, ?_, hk s⟩
  · rw [run_call, h6, h7]
  · rw [h5, h8]

theorem Follows.set' {l : Nat} (hl : otherLine l) {f : Rx → Rx} (hf : ∀ s t, core s = core t → core (f s) = core (f t))
    (hk : ∀ s, KeepsRest s (f s)) : Follows (Prog.set l f) (Prog.set l f) :=
  Follows.call (f := fun s => ((), f s)) hl (fun s t h => ⟨rfl, hf s t h⟩) hk

theorem Follows.lift {l : Nat} (hl : otherLine l) (x : R β) : Follows (lift l x) (lift l x) := by
  intro s L c' b _ _ h
  obtain ⟨s0, s1, y, L', h1, h2, h3, h4, h5, h6⟩ := h
  cases hx : x with
  | error f => rw [hx] at h2; cases h2
  | ok v =>
    rw [hx] at h2
    cases h2
    rw [fetchedAt_none hl, h4] at h3
    refine ⟨h3, s, ?_, ?_, .refl s⟩
    · rw [run_lift, h6]; rfl
    · rw [h5, h1]

/-! ### Programs that leave the core alone -/

/-- The program fetches no packet and leaves the core alone. -/
def Idles : Prog α → Prop
  | .ret _ => True
  | .atom l f k => otherLine l ∧ ∀ s s' b, f s = .ok (s', b) → core s' = core s ∧ Idles (k b)

theorem Idles.bind {p : Prog α} {g : α → Prog β} (hp : Idles p) (hg : ∀ a, Idles (g a)) : Idles (p >>= g) := by
  show Idles (p.bind g)
  induction p with
  | ret a => exact hg a
  | atom l f k ih => exact ⟨hp.1, fun s s' b h => ⟨(hp.2 s s' b h).1, ih b (hp.2 s s' b h).2⟩⟩

theorem Idles.core {p : Prog α} (hp : Idles p) : ∀ {c : Rx} {L : List Packet} {c' : Rx} {a : α},
    CoreRun p c L c' a → L = [] ∧ c' = c := by
  induction p with
  | ret a => intro c L c' a' h; exact ⟨h.1, h.2.1⟩
  | atom l f k ih =>
    intro c L c' a' h
    obtain ⟨s, s', b, L', h1, h2, h3, h4⟩ := h
    obtain ⟨h5, h6⟩ := ih b (hp.2 s s' b h2).2 h4
    rw [fetchedAt_none hp.1, h5] at h3
    exact ⟨h3, h6.trans ((hp.2 s s' b h2).1.trans h1)⟩

theorem Idles.run {p : Prog α} (hp : Idles p) : ∀ {s s' : Rx} {a : α}, p.run s = .ok (s', a) →
    Spec.core s' = Spec.core s := by
  induction p with
  | ret a => intro s s' a' h; cases h; rfl
  | atom l f k ih =>
    intro s s' a' h
    have h : (f s >>= fun r => (k r.2).run r.1) = .ok (s', a') := h
    rw [bind_eq_ok] at h
    obtain ⟨⟨s1, b⟩, h1, h2⟩ := h
    exact (ih b (hp.2 s s1 b h1).2 h2).trans (hp.2 s s1 b h1).1

theorem Idles.pure (a : α) : Idles (Pure.pure a : Prog α) := trivial

theorem Idles.ite {c : Prop} [Decidable c] {p q : Prog α} (h : Idles p) (h' : Idles q) : Idles (if c then p else q) := by
  split
  · exact h
  · exact h'

theorem Idles.get {l : Nat} (hl : otherLine l) (f : Rx → β) : Idles (Prog.get l f) :=
  ⟨hl, fun s s' b h => by cases h; exact ⟨rfl, trivial⟩⟩

theorem Idles.lift {l : Nat} (hl : otherLine l) (x : R β) : Idles (Prog.lift l x) := by
  refine ⟨hl, fun s s' b h => ?_⟩
  cases hx : x with
  | error f => rw [hx] at h; cases h
  | ok v => rw [hx] at h; cases h; exact ⟨rfl, trivial⟩

theorem Idles.set {l : Nat} (hl : otherLine l) {f : Rx → Rx} (hf : ∀ s, Spec.core (f s) = Spec.core s) :
    Idles (Prog.set l f) :=
  ⟨hl, fun s s' b h => by cases h; exact ⟨hf s, trivial⟩⟩

theorem Idles.call {l : Nat} (hl : otherLine l) {f : Rx → β × Rx} (hf : ∀ s, Spec.core (f s).2 = Spec.core s) :
    Idles (Prog.call l f) :=
  ⟨hl, fun s s' b h => by cases h; exact ⟨hf s, trivial⟩⟩

theorem Idles.act {l : Nat} (hl : otherLine l) {f : Rx → R Rx} (hf : ∀ s s', f s = .ok s' → Spec.core s' = Spec.core s) :
    Idles (Prog.act l f) := by
  refine ⟨hl, fun s s' b h => ?_⟩
  have h : (f s >>= fun s => .ok (s, ())) = .ok (s', b) := h
  rw [bind_eq_ok] at h
  obtain ⟨s1, h1, h2⟩ := h
  cases h2
  exact ⟨hf s _ h1, trivial⟩

/-- Programs for BiDi: they change nothing that matters, and never fault without interrupts. -/
theorem Follows.idles {p q : Prog Unit} (hp : Idles p) (hq : Idles q)
    (ht : ∀ s, s.lastPacketTp = 0 → s.tosTp = 0 → ∃ s', q.run s = .ok (s', ()) ∧ KeepsRest s s') :
    Follows p q := by
  intro s L c' a hz hz' h
  obtain ⟨h1, h2⟩ := hp.core h
  obtain ⟨s', h3, h4⟩ := ht s hz hz'
  exact ⟨h1, s', h3, (hq.run h3).trans h2.symm, h4⟩

/-! ### BiDi -/

syntax "idle1" : tactic
macro_rules | `(tactic| idle1) => `(tactic| exact Idles.get (by decide) _)
macro_rules | `(tactic| idle1) => `(tactic| exact Idles.lift (by decide) _)
macro_rules | `(tactic| idle1) => `(tactic| exact Idles.set (by decide) fun s => by with_unfolding_all rfl)
macro_rules | `(tactic| idle1) => `(tactic| exact Idles.call (by decide) fun s => by with_unfolding_all rfl)
macro_rules | `(tactic| idle1) => `(tactic| exact Idles.pure _)

macro "idles" : tactic => `(tactic| repeat' first
  | with_reducible idle1
  | refine Idles.bind ?_ fun _ => ?_
  | split
  | dsimp only)

theorem idles_push {l : Nat} (hl : otherLine l) (n : Nat) (get : Rx → List (List Byte))
    (put : Rx → List (List Byte) → Rx) (d : List Byte) (h : ∀ s q, core (put s q) = core s) :
    Idles (Prog.act l fun s => do return put s (← pushBack n (get s) d)) :=
  .act hl fun s s' hs => by
    simp only [bind_eq_ok, pure_eq_ok] at hs
    obtain ⟨q, hq, hs⟩ := hs
    cases hs
    exact h s q

theorem idles_adrHigh (a : Address) : Idles (Thread.adrHigh a) := by
  unfold Thread.adrHigh
  idles

theorem idles_adrLow (a : Address) : Idles (Thread.adrLow a) := by
  unfold Thread.adrLow
  idles

macro_rules | `(tactic| idle1) => `(tactic| exact idles_adrHigh _)
macro_rules | `(tactic| idle1) => `(tactic| exact idles_adrLow _)

theorem idles_pushAdr {l : Nat} (hl : otherLine l) (d : List Byte) : Idles (Thread.pushAdr l d) :=
  idles_push hl 2 (·.q.adr) (fun s q => { s with q := { s.q with adr := q } }) d fun _ _ => rfl

theorem idles_pushAdrs {l : Nat} (hl : otherLine l) (hl' : otherLine (l + 1)) (a : Rx → Address) :
    Idles (Thread.pushAdrs l a) :=
  .bind (.get hl _) fun _ => .bind (idles_adrHigh _) fun _ => .bind (idles_pushAdr hl _) fun _ =>
    .bind (.get hl' _) fun _ => .bind (idles_adrLow _) fun _ => idles_pushAdr hl' _

macro_rules | `(tactic| idle1) => `(tactic| exact idles_pushAdrs (by decide) (by decide) _)

theorem idles_adr : Idles Thread.adr := by
  unfold Thread.adr
  idles

theorem follows_adr : Follows Thread.adr Thread.adr := by
  refine .idles idles_adr idles_adr fun s _ _ => ⟨{ s with q := { s.q with adr := s.adrQueue } }, ?_, ⟨rfl, id, rfl, rfl⟩⟩
  rw [run_adr, adr_total]
  rfl

theorem idles_updateQos : Idles Thread.updateQos := by
  unfold Thread.updateQos
  idles

theorem follows_updateQos : Follows Thread.updateQos Thread.updateQos := by
  refine .idles idles_updateQos idles_updateQos fun s _ _ => ⟨s.updateQos, run_updateQos s, ?_⟩
  unfold Rx.updateQos
  split <;> exact ⟨rfl, id, rfl, rfl⟩

theorem idles_updateTimepoints (now : Int) : Idles (Thread.updateTimepoints now) := by
  unfold Thread.updateTimepoints
  idles

theorem follows_updateTimepoints (now : Int) : Follows (Thread.updateTimepoints now) (Thread.updateTimepoints 0) := by
  refine .idles (idles_updateTimepoints _) (idles_updateTimepoints _) fun s h h' =>
    ⟨s.updateTimepoints 0, run_updateTimepoints 0 s, ?_⟩
  unfold Rx.updateTimepoints
  rw [h]
  exact ⟨rfl, id, h.symm, rfl⟩

theorem idles_pom (v : Byte) : Idles (Thread.pom v) := by
  unfold Thread.pom
  repeat' first
    | exact idles_push (by decide) _ (·.q.pom) (fun s q => { s with q := { s.q with pom := q } }) _ fun _ _ => rfl
    | with_reducible idle1
    | refine Idles.bind ?_ fun _ => ?_
    | split

theorem follows_pom (v : Byte) : Follows (Thread.pom v) (Thread.pom v) := by
  refine .idles (idles_pom v) (idles_pom v) fun s _ _ => ?_
  rw [run_pom, pom_eq]
  exact ⟨_, rfl, ⟨rfl, id, rfl, rfl⟩⟩

theorem idles_tipOffSearch (rand : Nat) : Idles (Thread.tipOffSearch rand) := by
  unfold Thread.tipOffSearch
  repeat' first
    | exact idles_push (by decide) _ (·.q.tos) (fun s q => { s with q := { s.q with tos := q } }) _ fun _ _ => rfl
    | with_reducible idle1
    | refine Idles.bind ?_ fun _ => ?_
    | split
    | dsimp only

theorem follows_tipOffSearch (rand rand' : Nat) : Follows (Thread.tipOffSearch rand) (Thread.tipOffSearch rand') := by
  refine .idles (idles_tipOffSearch _) (idles_tipOffSearch _) fun s h h' => ?_
  rw [run_tipOffSearch]
  cases hx : s.tipOffSearch rand' with
  | error f =>
    have := (tipOffSearch_fault hx).2
    rw [h, h'] at this
    exact absurd this (by decide)
  | ok s' =>
    obtain ⟨b, q, hs⟩ := (searches_tipOffSearch s rand').out _ hx
    exact ⟨s', rfl, by rw [hs]; exact ⟨rfl, id, rfl, rfl⟩⟩

end Dcc
