import Verif.Lemmas.RxCv
import Verif.Lemmas.RxInv
import Verif.Spec.Independence
/-!
Two decoders with the same signal stay alike: one lemma for each function of the receiver.
-/
namespace Dcc
open Spec

/-- If both have a result, `P` holds of them. -/
def Both {α β} (P : α → β → Prop) : R α → R β → Prop
  | .ok a, .ok b => P a b
  | _, _ => True

theorem Both.bind {α β γ δ} {P : α → β → Prop} {Q : γ → δ → Prop} {x : R α} {y : R β} {f : α → R γ}
    {g : β → R δ} (h : Both P x y) (hf : ∀ a b, P a b → Both Q (f a) (g b)) : Both Q (x >>= f) (y >>= g) := by
  cases x with
  | error => exact trivial
  | ok a =>
    cases y with
    | error =>
      rw [error_bind]
      cases (Except.ok a >>= f) <;> exact trivial
    | ok b => exact hf a b h

/-- The same on both sides. -/
theorem Both.same {α γ δ} {Q : γ → δ → Prop} (x : R α) {f : α → R γ}
    {g : α → R δ} (hf : ∀ a, Both Q (f a) (g a)) : Both Q (x >>= f) (x >>= g) := by
  cases x with
  | error => exact trivial
  | ok a => exact hf a

theorem Both.mono {α β} {P Q : α → β → Prop} {x : R α} {y : R β} (h : Both P x y)
    (hpq : ∀ a b, P a b → Q a b) : Both Q x y := by
  cases x <;> cases y <;> first | exact trivial | exact hpq _ _ h

/-- What is needed to compare two user classes.  `ν` is what one notices of a call.  If `k` does not hold, one
notices nothing of acknowledgements and of reading CVs for a command station, and does not distinguish
synchronous and asynchronous writing. -/
structure Replies (k : Bool) (ν : Event → Option Event) (e e' : Env) (ρ : List Event → List Event → Prop) : Prop where
  rxDeque : e.rxDeque = e'.rxDeque
  highCurrent : e.highCurrent = e'.highCurrent
  eastWest : e.eastWest = e'.eastWest
  async : k = true → e.asyncReadable = e'.asyncReadable ∧ e.asyncWritable = e'.asyncWritable
  readCv : ∀ a b cv, ρ a b → e.readCv a cv = e'.readCv b cv
  readCvByte : k = true → ∀ a b cv x, ρ a b → e.readCvByte a cv x = e'.readCvByte b cv x
  readCvBit : k = true → ∀ a b cv x p, ρ a b → e.readCvBit a cv x p = e'.readCvBit b cv x p
  writeCvByte : k = true → ∀ a b cv x, ρ a b → e.writeCvByte a cv x = e'.writeCvByte b cv x
  writeCvBit : k = true → ∀ a b cv x p, ρ a b → e.writeCvBit a cv x p = e'.writeCvBit b cv x p
  both : ∀ a b ev, ρ a b → ρ (a ++ [ev]) (b ++ [ev])
  left : ∀ a b m, ρ a b → ρ (a ++ [.transmitBiDi m]) b
  right : ∀ a b m, ρ a b → ρ a (b ++ [.transmitBiDi m])
  silent : ∀ m, ν (.transmitBiDi m) = none
  hiddenLeft : k = false → ∀ a b ev, ν ev = none → ρ a b → ρ (a ++ [ev]) b
  hiddenRight : k = false → ∀ a b ev, ν ev = none → ρ a b → ρ a (b ++ [ev])
  same : k = false → ∀ a b ev ev', ν ev = ν ev' → ρ a b → ρ (a ++ [ev]) (b ++ [ev'])
  ack : k = false → ν .serviceAck = none
  reads : k = false → (∀ cv x v, ν (.readCvByte cv x v) = none) ∧ (∀ cv x q v, ν (.readCvBit cv x q v) = none) ∧
    (∀ cv x, ν (.asyncReadCvByte cv x) = none) ∧ ∀ cv x q, ν (.asyncReadCvBit cv x q) = none
  writes : k = false → (∀ cv x v, ν (.writeCvByte cv x v) = ν (.asyncWriteCvByte cv x)) ∧
    ∀ cv x q v, ν (.writeCvBit cv x q v) = ν (.asyncWriteCvBit cv x q)

/-- Alike, and the same was noticed since the calls `V` and `W`. -/
structure Pair (k : Bool) (ν : Event → Option Event) (ρ : List Event → List Event → Prop) (F : Packet → Prop)
    (V W : List Event) (s t : Rx) : Prop extends Similar ρ F s t where
  callbacks : k = true → s.callbacks = t.callbacks
  out : ∃ d, s.trace.filterMap ν = V ++ d ∧ t.trace.filterMap ν = W ++ d

variable {k : Bool} {ν : Event → Option Event} {e e' : Env} {ρ : List Event → List Event → Prop} {F : Packet → Prop}
  {V W : List Event} {s t : Rx}

theorem Pair.emit_same (h : Pair k ν ρ F V W s t) {ev ev' : Event} (hn : ν ev = ν ev')
    (hc : ρ (s.trace ++ [ev]) (t.trace ++ [ev'])) : Pair k ν ρ F V W (s.emit ev) (t.emit ev') := by
  refine { h with calls := hc, out := ?_ }
  obtain ⟨d, h1, h2⟩ := h.out
  refine ⟨d ++ [ev].filterMap ν, ?_, ?_⟩
  · show (s.trace ++ [ev]).filterMap ν = _
    rw [List.filterMap_append, h1, List.append_assoc]
  · show (t.trace ++ [ev']).filterMap ν = _
    rw [List.filterMap_append, h2, List.append_assoc, List.filterMap_cons, List.filterMap_cons, hn]

theorem Pair.emit_left (h : Pair k ν ρ F V W s t) {ev : Event} (hn : ν ev = none) (hc : ρ (s.trace ++ [ev]) t.trace) :
    Pair k ν ρ F V W (s.emit ev) t := by
  refine { h with calls := hc, out := ?_ }
  show ∃ d, (s.trace ++ [ev]).filterMap ν = _ ∧ _
  rw [List.filterMap_append, List.filterMap_cons_none hn, List.filterMap_nil, List.append_nil]
  exact h.out

theorem Pair.emit_right (h : Pair k ν ρ F V W s t) {ev : Event} (hn : ν ev = none) (hc : ρ s.trace (t.trace ++ [ev])) :
    Pair k ν ρ F V W s (t.emit ev) := by
  refine { h with calls := hc, out := ?_ }
  show ∃ d, _ ∧ (t.trace ++ [ev]).filterMap ν = _
  rw [List.filterMap_append, List.filterMap_cons_none hn, List.filterMap_nil, List.append_nil]
  exact h.out

theorem Pair.emit (hv : Replies k ν e e' ρ) (h : Pair k ν ρ F V W s t) (ev : Event) :
    Pair k ν ρ F V W (s.emit ev) (t.emit ev) :=
  h.emit_same rfl (hv.both _ _ ev h.calls)

/-! ### Configuration -/

theorem Pair.readCv (hv : Replies k ν e e' ρ) (h : Pair k ν ρ F V W s t) (cv : BitVec 32) :
    ∃ v s' t', s.readCv e cv = (v, s') ∧ t.readCv e' cv = (v, t') ∧ Pair k ν ρ F V W s' t' :=
  ⟨_, _, _, rfl, by rw [Rx.readCv, ← hv.readCv _ _ cv h.calls], h.emit hv _⟩

theorem Pair.writeCvByte (hv : Replies k ν e e' ρ) (h : Pair k ν ρ F V W s t) (cv : BitVec 32) (b : Byte) :
    ∃ v v' s' t', s.writeCvByte e cv b = (v, s') ∧ t.writeCvByte e' cv b = (v', t') ∧ Pair k ν ρ F V W s' t' := by
  refine ⟨_, _, _, _, rfl, rfl, ?_⟩
  cases k with
  | true => rw [← hv.writeCvByte rfl _ _ cv b h.calls]; exact h.emit hv _
  | false =>
    have hn := ((hv.writes rfl).1 cv b (e.writeCvByte s.trace cv b)).trans
      ((hv.writes rfl).1 cv b (e'.writeCvByte t.trace cv b)).symm
    exact h.emit_same hn (hv.same rfl _ _ _ _ hn h.calls)

theorem Pair.writeCvBit (hv : Replies k ν e e' ρ) (h : Pair k ν ρ F V W s t) (cv : BitVec 32) (b : Bool)
    (p : BitVec 32) :
    ∃ v v' s' t', s.writeCvBit e cv b p = (v, s') ∧ t.writeCvBit e' cv b p = (v', t') ∧ Pair k ν ρ F V W s' t' := by
  refine ⟨_, _, _, _, rfl, rfl, ?_⟩
  cases k with
  | true => rw [← hv.writeCvBit rfl _ _ cv b p h.calls]; exact h.emit hv _
  | false =>
    have hn := ((hv.writes rfl).2 cv b p (e.writeCvBit s.trace cv b p)).trans
      ((hv.writes rfl).2 cv b p (e'.writeCvBit t.trace cv b p)).symm
    exact h.emit_same hn (hv.same rfl _ _ _ _ hn h.calls)

theorem Pair.initRest (hv : Replies k ν e e' ρ) (h : Pair k ν ρ F V W s t) (cv29 : Byte) :
    Pair k ν ρ F V W (s.initRest e cv29) (t.initRest e' cv29) := by
  unfold Rx.initRest
  obtain ⟨v19, s, t, hs, ht, h⟩ := h.readCv hv 18#32
  rw [hs, ht]; dsimp only; clear hs ht
  obtain ⟨v20, s, t, hs, ht, h⟩ := h.readCv hv 19#32
  rw [hs, ht]; dsimp only; clear hs ht
  obtain ⟨v15, s, t, hs, ht, h⟩ := h.readCv hv 14#32
  rw [hs, ht]; dsimp only; clear hs ht
  obtain ⟨v16, s, t, hs, ht, h⟩ := h.readCv hv 15#32
  rw [hs, ht]; dsimp only; clear hs ht
  obtain ⟨v28, s, t, hs, ht, h⟩ := h.readCv hv 27#32
  rw [hs, ht]; dsimp only; clear hs ht
  have h : Pair k ν ρ F V W (if e.highCurrent then s.emit (.highCurrentBiDi (v28.getLsbD 6)) else s)
      (if e'.highCurrent then t.emit (.highCurrentBiDi (v28.getLsbD 6)) else t) := by
    rw [hv.highCurrent]
    split
    · exact h.emit hv _
    · exact h
  generalize (if e.highCurrent then s.emit (.highCurrentBiDi (v28.getLsbD 6)) else s) = s at *
  generalize (if e'.highCurrent then t.emit (.highCurrentBiDi (v28.getLsbD 6)) else t) = t at *
  obtain ⟨v250, s, t, hs, ht, h⟩ := h.readCv hv 249#32
  rw [hs, ht]; dsimp only; clear hs ht
  obtain ⟨v251, s, t, hs, ht, h⟩ := h.readCv hv 250#32
  rw [hs, ht]; dsimp only; clear hs ht
  obtain ⟨v252, s, t, hs, ht, h⟩ := h.readCv hv 251#32
  rw [hs, ht]; dsimp only; clear hs ht
  obtain ⟨v253, s, t, hs, ht, h⟩ := h.readCv hv 252#32
  rw [hs, ht]; dsimp only; clear hs ht
  obtain ⟨c0, s, t, hs, ht, h⟩ := h.readCv hv 65296#32
  rw [hs, ht]; dsimp only; clear hs ht
  obtain ⟨c1, s, t, hs, ht, h⟩ := h.readCv hv 65297#32
  rw [hs, ht]; dsimp only; clear hs ht
  obtain ⟨c2, s, t, hs, ht, h⟩ := h.readCv hv 65298#32
  rw [hs, ht]; dsimp only; clear hs ht
  exact { h with consist := rfl, cfg := rfl, cidFront := rfl, sessionFront := rfl }

theorem Pair.initPrimary (hv : Replies k ν e e' ρ) (h : Pair k ν ρ F V W s t) (cv29 : Byte) :
    Both (Pair k ν ρ F V W) (s.initPrimary e cv29) (t.initPrimary e' cv29) := by
  unfold Rx.initPrimary
  split
  · obtain ⟨v17, s, t, hs, ht, h⟩ := h.readCv hv 16#32
    rw [hs, ht]; dsimp only; clear hs ht
    obtain ⟨v18, s, t, hs, ht, h⟩ := h.readCv hv 17#32
    rw [hs, ht]; dsimp only; clear hs ht
    exact .same _ fun a => { h with primary := rfl }
  · obtain ⟨v1, s, t, hs, ht, h⟩ := h.readCv hv 0#32
    rw [hs, ht]; dsimp only; clear hs ht
    exact .same _ fun a => { h with primary := rfl }

theorem Pair.init (hv : Replies k ν e e' ρ) (h : Pair k ν ρ F V W s t) :
    Both (Pair k ν ρ F V W) (s.init e) (t.init e') := by
  unfold Rx.init
  obtain ⟨v29, s, t, hs, ht, h⟩ := h.readCv hv 28#32
  rw [hs, ht]; dsimp only; clear hs ht
  exact (h.initPrimary hv v29).bind fun a b hab => hab.initRest hv v29

/-! ### CV access -/

theorem Pair.serviceMode (h : Pair k ν ρ F V W s t) : s.serviceMode = t.serviceMode := by
  unfold Rx.serviceMode
  rw [h.mode]

theorem Pair.answerByte (hv : Replies k ν e e' ρ) (h : Pair k ν ρ F V W s t) (b red : Byte) :
    Pair k ν ρ F V W (s.answerByte b red) (t.answerByte b red) := by
  unfold Rx.answerByte
  rw [h.serviceMode]
  split
  · split
    · exact h.emit hv _
    · exact h
  · exact { h with }

theorem Pair.answerBit (hv : Replies k ν e e' ρ) (h : Pair k ν ρ F V W s t) (b red : Bool) :
    Pair k ν ρ F V W (s.answerBit b red) (t.answerBit b red) := by
  unfold Rx.answerBit
  rw [h.serviceMode]
  split
  · split
    · exact h.emit hv _
    · exact h
  · exact { h with }

theorem Pair.defer (hv : Replies k ν e e' ρ) (h : Pair k ν ρ F V W s t) (c : Callback) (ev : Event) :
    Pair k ν ρ F V W (s.defer c ev) (t.defer c ev) := by
  have : Pair k ν ρ F V W { s with callbacks := s.callbacks ++ [c] } { t with callbacks := t.callbacks ++ [c] } :=
    { h with callbacks := fun hk => congrArg (· ++ [c]) (h.callbacks hk) }
  exact this.emit hv ev

/-- Nobody notices when a callback is called. -/
theorem Pair.answerByte_left (hv : Replies false ν e e' ρ) (h : Pair false ν ρ F V W s t) (b red : Byte) :
    Pair false ν ρ F V W (s.answerByte b red) t := by
  unfold Rx.answerByte
  split
  · split
    · exact h.emit_left (hv.ack rfl) (hv.hiddenLeft rfl _ _ _ (hv.ack rfl) h.calls)
    · exact h
  · exact { h with }

theorem Pair.answerByte_right (hv : Replies false ν e e' ρ) (h : Pair false ν ρ F V W s t) (b red : Byte) :
    Pair false ν ρ F V W s (t.answerByte b red) := by
  unfold Rx.answerByte
  split
  · split
    · exact h.emit_right (hv.ack rfl) (hv.hiddenRight rfl _ _ _ (hv.ack rfl) h.calls)
    · exact h
  · exact { h with }

theorem Pair.answerBit_left (hv : Replies false ν e e' ρ) (h : Pair false ν ρ F V W s t) (b red : Bool) :
    Pair false ν ρ F V W (s.answerBit b red) t := by
  unfold Rx.answerBit
  split
  · split
    · exact h.emit_left (hv.ack rfl) (hv.hiddenLeft rfl _ _ _ (hv.ack rfl) h.calls)
    · exact h
  · exact { h with }

theorem Pair.answerBit_right (hv : Replies false ν e e' ρ) (h : Pair false ν ρ F V W s t) (b red : Bool) :
    Pair false ν ρ F V W s (t.answerBit b red) := by
  unfold Rx.answerBit
  split
  · split
    · exact h.emit_right (hv.ack rfl) (hv.hiddenRight rfl _ _ _ (hv.ack rfl) h.calls)
    · exact h
  · exact { h with }

/-- The callbacks do not count. -/
theorem Pair.pending (h : Pair false ν ρ F V W s t) (cs ct : List Callback) :
    Pair false ν ρ F V W { s with callbacks := cs } { t with callbacks := ct } :=
  { h with callbacks := nofun }

theorem Pair.quiet_left (hv : Replies false ν e e' ρ) (h : Pair false ν ρ F V W s t) {ev : Event} (hn : ν ev = none) :
    Pair false ν ρ F V W (s.emit ev) t :=
  h.emit_left hn (hv.hiddenLeft rfl _ _ _ hn h.calls)

theorem Pair.quiet_right (hv : Replies false ν e e' ρ) (h : Pair false ν ρ F V W s t) {ev : Event} (hn : ν ev = none) :
    Pair false ν ρ F V W s (t.emit ev) :=
  h.emit_right hn (hv.hiddenRight rfl _ _ _ hn h.calls)

theorem Pair.alike (hv : Replies false ν e e' ρ) (h : Pair false ν ρ F V W s t) {ev ev' : Event} (hn : ν ev = ν ev') :
    Pair false ν ρ F V W (s.emit ev) (t.emit ev') :=
  h.emit_same hn (hv.same rfl _ _ _ _ hn h.calls)

theorem Pair.defer_left (hv : Replies false ν e e' ρ) (h : Pair false ν ρ F V W s t) (c : Callback) {ev : Event}
    (hn : ν ev = none) : Pair false ν ρ F V W (s.defer c ev) t :=
  (h.pending (s.callbacks ++ [c]) t.callbacks).quiet_left hv hn

theorem Pair.defer_right (hv : Replies false ν e e' ρ) (h : Pair false ν ρ F V W s t) (c : Callback) {ev : Event}
    (hn : ν ev = none) : Pair false ν ρ F V W s (t.defer c ev) :=
  (h.pending s.callbacks (t.callbacks ++ [c])).quiet_right hv hn

theorem Pair.verifiedByte (hv : Replies k ν e e' ρ) (h : Pair k ν ρ F V W s t) (cv : BitVec 32) (b : Byte) :
    Pair k ν ρ F V W (s.verifiedByte e cv b) (t.verifiedByte e' cv b) := by
  unfold Rx.verifiedByte
  cases k with
  | true =>
    rw [(hv.async rfl).1, hv.readCvByte rfl _ _ cv b h.calls]
    split
    · exact h.defer hv _ _
    · exact (h.emit hv _).answerByte hv _ _
  | false =>
    obtain ⟨h1, -, h2, -⟩ := hv.reads rfl
    have h : Pair false ν ρ F V W (if e.asyncReadable then s.defer (.byte b) (.asyncReadCvByte cv b)
        else (s.emit (.readCvByte cv b (e.readCvByte s.trace cv b))).answerByte b (e.readCvByte s.trace cv b)) t := by
      split
      · exact h.defer_left hv _ (h2 _ _)
      · exact (h.quiet_left hv (h1 _ _ _)).answerByte_left hv _ _
    generalize (if e.asyncReadable then s.defer (.byte b) (.asyncReadCvByte cv b)
        else (s.emit (.readCvByte cv b (e.readCvByte s.trace cv b))).answerByte b (e.readCvByte s.trace cv b)) = s at h ⊢
    split
    · exact h.defer_right hv _ (h2 _ _)
    · exact (h.quiet_right hv (h1 _ _ _)).answerByte_right hv _ _

theorem Pair.verifiedBit (hv : Replies k ν e e' ρ) (h : Pair k ν ρ F V W s t) (cv : BitVec 32) (b : Bool)
    (p : BitVec 32) : Pair k ν ρ F V W (s.verifiedBit e cv b p) (t.verifiedBit e' cv b p) := by
  unfold Rx.verifiedBit
  cases k with
  | true =>
    rw [(hv.async rfl).1, hv.readCvBit rfl _ _ cv b p h.calls]
    split
    · exact h.defer hv _ _
    · exact (h.emit hv _).answerBit hv _ _
  | false =>
    obtain ⟨-, h1, -, h2⟩ := hv.reads rfl
    have h : Pair false ν ρ F V W (if e.asyncReadable then s.defer (.bit b) (.asyncReadCvBit cv b p)
        else (s.emit (.readCvBit cv b p (e.readCvBit s.trace cv b p))).answerBit b (e.readCvBit s.trace cv b p)) t := by
      split
      · exact h.defer_left hv _ (h2 _ _ _)
      · exact (h.quiet_left hv (h1 _ _ _ _)).answerBit_left hv _ _
    generalize (if e.asyncReadable then s.defer (.bit b) (.asyncReadCvBit cv b p)
        else (s.emit (.readCvBit cv b p (e.readCvBit s.trace cv b p))).answerBit b (e.readCvBit s.trace cv b p)) = s
      at h ⊢
    split
    · exact h.defer_right hv _ (h2 _ _ _)
    · exact (h.quiet_right hv (h1 _ _ _ _)).answerBit_right hv _ _

theorem Pair.wroteByte (hv : Replies k ν e e' ρ) (h : Pair k ν ρ F V W s t) (cv : BitVec 32) (b : Byte) :
    Pair k ν ρ F V W (s.wroteByte e cv b) (t.wroteByte e' cv b) := by
  unfold Rx.wroteByte
  cases k with
  | true =>
    rw [(hv.async rfl).2, hv.writeCvByte rfl _ _ cv b h.calls]
    split
    · exact h.defer hv _ _
    · exact (h.emit hv _).answerByte hv _ _
  | false =>
    have hw := (hv.writes rfl).1
    split <;> split
    · exact h.defer hv _ _
    · exact ((h.pending (s.callbacks ++ [.byte b]) t.callbacks).alike hv (hw _ _ _).symm).answerByte_right hv _ _
    · exact ((h.pending s.callbacks (t.callbacks ++ [.byte b])).alike hv (hw _ _ _)).answerByte_left hv _ _
    · exact ((h.alike hv ((hw _ _ _).trans (hw _ _ _).symm)).answerByte_left hv _ _).answerByte_right hv _ _

theorem Pair.wroteBit (hv : Replies k ν e e' ρ) (h : Pair k ν ρ F V W s t) (cv : BitVec 32) (b : Bool)
    (p : BitVec 32) : Pair k ν ρ F V W (s.wroteBit e cv b p) (t.wroteBit e' cv b p) := by
  unfold Rx.wroteBit
  cases k with
  | true =>
    rw [(hv.async rfl).2, hv.writeCvBit rfl _ _ cv b p h.calls]
    split
    · exact h.defer hv _ _
    · exact (h.emit hv _).answerBit hv _ _
  | false =>
    have hw := (hv.writes rfl).2
    split <;> split
    · exact h.defer hv _ _
    · exact ((h.pending (s.callbacks ++ [.bit b]) t.callbacks).alike hv (hw _ _ _ _).symm).answerBit_right hv _ _
    · exact ((h.pending s.callbacks (t.callbacks ++ [.bit b])).alike hv (hw _ _ _ _)).answerBit_left hv _ _
    · exact ((h.alike hv ((hw _ _ _ _).trans (hw _ _ _ _).symm)).answerBit_left hv _ _).answerBit_right hv _ _

theorem Pair.cvVerifyByte (hv : Replies k ν e e' ρ) (h : Pair k ν ρ F V W s t) (cv : BitVec 32) (b : Byte) :
    Both (Pair k ν ρ F V W) (s.cvVerifyByte e cv b) (t.cvVerifyByte e' cv b) := by
  rw [cvVerifyByte_eq, cvVerifyByte_eq, h.cfg]
  show Pair k ν ρ F V W (if _ then _ else _) (if _ then _ else _)
  split
  · exact h
  · exact h.verifiedByte hv cv b

theorem Pair.cvVerifyBit (hv : Replies k ν e e' ρ) (h : Pair k ν ρ F V W s t) (cv : BitVec 32) (b : Bool)
    (p : BitVec 32) : Both (Pair k ν ρ F V W) (s.cvVerifyBit e cv b p) (t.cvVerifyBit e' cv b p) := by
  rw [cvVerifyBit_eq, cvVerifyBit_eq, h.cfg]
  show Pair k ν ρ F V W (if _ then _ else _) (if _ then _ else _)
  split
  · exact h
  · exact h.verifiedBit hv cv b p

theorem Pair.initIfNeeded (hv : Replies k ν e e' ρ) (h : Pair k ν ρ F V W s t) (cv : BitVec 32) :
    Both (Pair k ν ρ F V W) (s.initIfNeeded e cv) (t.initIfNeeded e' cv) := by
  unfold Rx.initIfNeeded
  split
  · exact h.init hv
  · exact h

theorem Pair.cvWriteByte (hv : Replies k ν e e' ρ) (h : Pair k ν ρ F V W s t) (cv : BitVec 32) (b : Byte) :
    Both (Pair k ν ρ F V W) (s.cvWriteByte e cv b) (t.cvWriteByte e' cv b) := by
  rw [cvWriteByte_eq, cvWriteByte_eq, h.cfg]
  split
  · exact h
  · exact Pair.initIfNeeded hv (h.wroteByte hv cv b) cv

theorem Pair.cvWriteBit (hv : Replies k ν e e' ρ) (h : Pair k ν ρ F V W s t) (cv : BitVec 32) (b : Bool)
    (p : BitVec 32) : Both (Pair k ν ρ F V W) (s.cvWriteBit e cv b p) (t.cvWriteBit e' cv b p) := by
  rw [cvWriteBit_eq, cvWriteBit_eq, h.cfg]
  split
  · exact h
  · exact Pair.initIfNeeded hv (h.wroteBit hv cv b p) cv

/-- Counting a packet that may come makes the counts equal. -/
theorem Pair.count (h : Pair k ν ρ F V W s t) {p : Packet} (hp : F p) :
    Pair k ν ρ F V W (s.countOwnEqualCvPackets p) (t.countOwnEqualCvPackets p) ∧
      (s.countOwnEqualCvPackets p).ownEqualCvPackets = (t.countOwnEqualCvPackets p).ownEqualCvPackets := by
  unfold Rx.countOwnEqualCvPackets
  rcases h.counted with ⟨h1, h2⟩ | hne
  · rw [h1]
    split
    · exact ⟨{ h with counted := .inl ⟨rfl, congrArg (· + 1) h2⟩ }, congrArg (· + 1) h2⟩
    · exact ⟨{ h with counted := .inl ⟨rfl, rfl⟩ }, rfl⟩
  · rw [if_neg (hne p hp).1.symm, if_neg (hne p hp).2.symm]
    exact ⟨{ h with counted := .inl ⟨rfl, rfl⟩ }, rfl⟩

theorem Pair.cvLongBody (hv : Replies k ν e e' ρ) (h : Pair k ν ρ F V W s t)
    (hc : s.ownEqualCvPackets = t.ownEqualCvPackets) (bs : List Byte) :
    Both (Pair k ν ρ F V W) (s.cvLongBody e bs) (t.cvLongBody e' bs) := by
  unfold Rx.cvLongBody
  refine .same _ fun b0 => .same _ fun b1 => ?_
  dsimp only
  rw [hc]
  split
  · exact h
  split
  · exact .same _ fun b2 => h.cvVerifyByte hv _ _
  split
  · split
    · exact h
    split
    · exact .same _ fun b2 => h.cvWriteByte hv _ _
    · exact .same _ fun b2 => h.cvVerifyByte hv _ _
  · refine .same _ fun b2 => ?_
    split
    · exact h.cvVerifyBit hv _ _ _
    split
    · exact h.cvWriteBit hv _ _ _
    · exact h

theorem Pair.cvLong (hv : Replies k ν e e' ρ) (h : Pair k ν ρ F V W s t) (a : BitVec 16) {p : Packet} (hp : F p)
    (bs : List Byte) : Both (Pair k ν ρ F V W) (s.cvLong e a p bs) (t.cvLong e' a p bs) := by
  unfold Rx.cvLong
  rw [h.consist]
  split
  · exact h
  · obtain ⟨h1, h2⟩ := h.count hp
    dsimp only
    rw [h1.serviceMode, h2]
    split
    · exact h1
    · exact h1.cvLongBody hv h2 bs

theorem Pair.cvShortBody (hv : Replies k ν e e' ρ) (h : Pair k ν ρ F V W s t)
    (hc : s.ownEqualCvPackets = t.ownEqualCvPackets) (bs : List Byte) :
    Both (Pair k ν ρ F V W) (s.cvShortBody e bs) (t.cvShortBody e' bs) := by
  unfold Rx.cvShortBody
  refine .same _ fun b0 => ?_
  dsimp only
  rw [hc]
  split
  · exact .same _ fun b1 => h.cvWriteByte hv _ _
  split
  · exact .same _ fun b1 => h.cvWriteByte hv _ _
  split
  · split
    · exact h
    · exact .same _ fun b1 => (h.cvWriteByte hv _ _).bind fun a b hab => .same _ fun b2 =>
        (hab.cvWriteByte hv _ _).bind fun a b hab => hab.cvWriteBit hv _ _ _
  split
  · split
    · exact h
    · exact .same _ fun b1 => (h.cvWriteByte hv _ _).bind fun a b hab => .same _ fun b2 => hab.cvWriteByte hv _ _
  · exact h

theorem Pair.cvShort (hv : Replies k ν e e' ρ) (h : Pair k ν ρ F V W s t) (a : BitVec 16) {p : Packet} (hp : F p)
    (bs : List Byte) : Both (Pair k ν ρ F V W) (s.cvShort e a p bs) (t.cvShort e' a p bs) := by
  unfold Rx.cvShort
  rw [h.consist]
  split
  · exact h
  · obtain ⟨h1, h2⟩ := h.count hp
    exact h1.cvShortBody hv h2 bs

theorem Pair.registerMode (hv : Replies k ν e e' ρ) (h : Pair k ν ρ F V W s t) (bs : List Byte) :
    Both (Pair k ν ρ F V W) (s.registerMode e bs) (t.registerMode e' bs) := by
  unfold Rx.registerMode
  refine .same _ fun b0 => ?_
  dsimp only
  refine .same _ fun b1 => ?_
  rw [h.indexReg]
  split
  · split
    · exact h.cvWriteByte hv _ _
    · exact h.cvVerifyByte hv _ _
  split
  · split
    · exact h.cvWriteByte hv _ _
    · exact h.cvVerifyByte hv _ _
  split
  · split
    · exact { h with indexReg := rfl }
    split
    · exact h.emit hv _
    · exact h
  · split
    · exact h.cvWriteByte hv _ _
    · exact h.cvVerifyByte hv _ _

/-! ### Execution -/

theorem Pair.setServiceMode (hv : Replies k ν e e' ρ) (h : Pair k ν ρ F V W s t) (enter : Bool) :
    Pair k ν ρ F V W (s.setServiceMode enter) (t.setServiceMode enter) :=
  { h.emit hv (.serviceModeHook enter) with mode := rfl }

theorem Pair.directionSpeed (hv : Replies k ν e e' ρ) (h : Pair k ν ρ F V W s t) (a : BitVec 16) (d : Bool)
    (v : Int) : Pair k ν ρ F V W (s.directionSpeed a d v) (t.directionSpeed a d v) := by
  unfold Rx.directionSpeed
  rw [h.primary, h.consist]
  exact (h.emit hv _).emit hv _

/-- Only what BiDi, the clock and random numbers are about changes. -/
structure Inner (s s' : Rx) : Prop where
  same : s' = { s with
    q := s'.q, packetCount := s'.packetCount, preambleCount := s'.preambleCount, qos := s'.qos
    lastPacketTp := s'.lastPacketTp, tosTp := s'.tosTp, tosBackoff := s'.tosBackoff
    logon := { s.logon with backoff := s'.logon.backoff }
    addrs := { s.addrs with received := s'.addrs.received } }

theorem Inner.refl (s : Rx) : Inner s s := ⟨rfl⟩

theorem Pair.inner (h : Pair k ν ρ F V W s t) {s' t' : Rx} (hs : Inner s s') (ht : Inner t t') :
    Pair k ν ρ F V W s' t' := by
  rw [hs.same, ht.same]
  exact { h with }

theorem Pair.both_inner (h : Pair k ν ρ F V W s t) {x y : R Rx} (hx : Post x (Inner s)) (hy : Post y (Inner t)) :
    Both (Pair k ν ρ F V W) x y := by
  cases x with
  | error => exact trivial
  | ok a =>
    cases y with
    | error => exact trivial
    | ok b => exact h.inner (hx.out a rfl) (hy.out b rfl)

theorem inner_tipOffSearch (s : Rx) (rand : Nat) : Post (s.tipOffSearch rand) (Inner s) := by
  unfold Rx.tipOffSearch
  dsimp only
  split
  · exact .ok ⟨rfl⟩
  split
  · exact .ok ⟨rfl⟩
  · exact .bind_any fun a => .bind_any fun b => .bind_any fun c => .bind_any fun q => .ok ⟨rfl⟩

theorem inner_binaryState (s : Rx) (x : BitVec 32) (b : Bool) (rand : Nat) :
    Post (s.binaryState x b rand) (Inner s) := by
  unfold Rx.binaryState
  split
  · exact inner_tipOffSearch s rand
  · exact .ok (.refl s)

theorem inner_pushAdr (s : Rx) (a : Address) : Post (s.pushAdr a) (Inner s) := by
  unfold Rx.pushAdr
  exact .bind_any fun a => .bind_any fun b => .bind_any fun c => .bind_any fun q => .ok ⟨rfl⟩

theorem inner_adr (s : Rx) : Post s.adr (Inner s) := by
  unfold Rx.adr
  split
  · exact .ok (.refl s)
  split
  · exact inner_pushAdr s _
  split
  · exact inner_pushAdr s _
  split
  · exact inner_pushAdr s _
  · exact .ok (.refl s)

theorem inner_updateQos (s : Rx) : Inner s s.updateQos := by
  unfold Rx.updateQos
  split
  · exact .refl s
  · exact ⟨rfl⟩

theorem inner_updateTimepoints (s : Rx) (now : Int) : Inner s (s.updateTimepoints now) := by
  unfold Rx.updateTimepoints
  dsimp only
  split <;> exact ⟨rfl⟩

theorem Pair.optFunctions (hv : Replies k ν e e' ρ) (h : Pair k ν ρ F V W s t) (a : BitVec 16) (bs : List Byte)
    (i : Nat) (mask : BitVec 32) (sh : Nat) :
    Both (Pair k ν ρ F V W) (s.optFunctions a bs i mask sh) (t.optFunctions a bs i mask sh) := by
  unfold Rx.optFunctions
  split
  · cases byteAt bs i with
    | error => exact trivial
    | ok b => exact h.emit hv _
  · exact h

theorem Pair.speed126 (hv : Replies k ν e e' ρ) (h : Pair k ν ρ F V W s t) (a : BitVec 16) (b : Byte) :
    Pair k ν ρ F V W (s.speed126 a b) (t.speed126 a b) := by
  unfold Rx.speed126
  dsimp only
  split
  · exact h.directionSpeed hv _ _ _
  split
  · exact h.emit hv _
  · exact h.directionSpeed hv _ _ _

theorem Pair.specialOperatingModes (hv : Replies k ν e e' ρ) (h : Pair k ν ρ F V W s t) (a : BitVec 16) (b : Byte) :
    Pair k ν ρ F V W (s.specialOperatingModes e a b) (t.specialOperatingModes e' a b) := by
  unfold Rx.specialOperatingModes
  have h : Pair k ν ρ F V W { s with man := b.getLsbD 7 } { t with man := b.getLsbD 7 } := { h with }
  dsimp only
  rw [hv.eastWest]
  split
  · split
    · exact h.emit hv _
    split
    · exact h.emit hv _
    · exact h.emit hv _
  · exact h

theorem Pair.advancedOperations (hv : Replies k ν e e' ρ) (h : Pair k ν ρ F V W s t) (a : BitVec 16)
    (bs : List Byte) : Both (Pair k ν ρ F V W) (s.advancedOperations e a bs) (t.advancedOperations e' a bs) := by
  unfold Rx.advancedOperations
  refine .same _ fun b0 => ?_
  split
  · refine Both.bind (P := Pair k ν ρ F V W) ?_ fun s t h => .same _ fun b1 => h.speed126 hv _ _
    unfold Rx.speedDirFunctions
    exact (h.optFunctions hv _ _ _ _ _).bind fun s t h => (h.optFunctions hv _ _ _ _ _).bind fun s t h =>
      (h.optFunctions hv _ _ _ _ _).bind fun s t h => h.optFunctions hv _ _ _ _ _
  split
  · exact .same _ fun b1 => h.speed126 hv _ _
  split
  · exact .same _ fun b1 => h.specialOperatingModes hv _ _
  · exact h

theorem Pair.speedAndDirection (hv : Replies k ν e e' ρ) (h : Pair k ν ρ F V W s t) (a : BitVec 16)
    (bs : List Byte) : Both (Pair k ν ρ F V W) (s.speedAndDirection a bs) (t.speedAndDirection a bs) := by
  unfold Rx.speedAndDirection
  refine .same _ fun b0 => ?_
  dsimp only
  rw [h.cfg]
  split
  · exact h.emit hv _
  split
  · exact (h.emit hv _).directionSpeed hv _ _ _
  · exact h.directionSpeed hv _ _ _

theorem Pair.functionGroup (hv : Replies k ν e e' ρ) (h : Pair k ν ρ F V W s t) (a : BitVec 16)
    (bs : List Byte) : Both (Pair k ν ρ F V W) (s.functionGroup a bs) (t.functionGroup a bs) := by
  unfold Rx.functionGroup
  refine .same _ fun b0 => ?_
  dsimp only
  rw [h.cfg]
  split
  · exact h.emit hv _
  split
  · exact h.emit hv _
  split
  · exact h.emit hv _
  · exact h.emit hv _

theorem Pair.featureExpansion (hv : Replies k ν e e' ρ) (h : Pair k ν ρ F V W s t) (a : BitVec 16)
    (bs : List Byte) (r r' : Nat) :
    Both (Pair k ν ρ F V W) (s.featureExpansion a bs r) (t.featureExpansion a bs r') := by
  unfold Rx.featureExpansion
  refine .same _ fun b0 => ?_
  split
  · exact .same _ fun b2 => .same _ fun b1 => h.both_inner (inner_binaryState ..) (inner_binaryState ..)
  split
  · exact .same _ fun b1 => h.both_inner (inner_binaryState ..) (inner_binaryState ..)
  split
  · exact .same _ fun b1 => h.emit hv _
  split
  · exact .same _ fun b1 => h.emit hv _
  · exact h

theorem Pair.executeInstruction (hv : Replies k ν e e' ρ) (h : Pair k ν ρ F V W s t) (a : BitVec 16) {p : Packet}
    (hp : F p) (bs : List Byte) (r r' : Nat) :
    Both (Pair k ν ρ F V W) (s.executeInstruction e a p bs r) (t.executeInstruction e' a p bs r') := by
  unfold Rx.executeInstruction
  refine .same _ fun i => ?_
  cases i with
  | decoderControl =>
    dsimp only
    split
    · refine .same _ fun b => ?_
      split
      · exact h.setServiceMode hv _
      · exact h
    · exact h
  | consistControl =>
    show Both _ (s.consistControl e bs) (t.consistControl e' bs)
    unfold Rx.consistControl
    exact .same _ fun b0 => .same _ fun b1 => h.cvWriteByte hv _ _
  | advancedOperations => exact h.advancedOperations hv _ _
  | speedDirection => exact h.speedAndDirection hv _ _
  | functionGroup => exact h.functionGroup hv _ _
  | featureExpansion => exact h.featureExpansion hv _ _ _ _
  | cvLong => exact h.cvLong hv _ hp _
  | cvShort => exact h.cvShort hv _ hp _
  | unknownService => exact h
  | logon => exact h

/-- Alike with the same result. -/
def Pair.Result (k : Bool) (ν : Event → Option Event) (ρ : List Event → List Event → Prop) (F : Packet → Prop)
    (V W : List Event) (x y : Rx × Bool) : Prop := Pair k ν ρ F V W x.1 y.1 ∧ x.2 = y.2

theorem Pair.executeOperationsAddressed (hv : Replies k ν e e' ρ) (h : Pair k ν ρ F V W s t) (a : Address)
    {p : Packet} (hp : F p) (bs : List Byte) (r r' : Nat) :
    Both (Pair.Result k ν ρ F V W) (s.executeOperationsAddressed e a p bs r)
      (t.executeOperationsAddressed e' a p bs r') := by
  unfold Rx.executeOperationsAddressed Rx.effectiveAddress
  rw [h.primary, h.consist, h.assigned]
  split
  · exact ⟨h, rfl⟩
  · exact (h.executeInstruction hv _ hp bs r r').bind fun a b hab => ⟨hab, rfl⟩

theorem Pair.executeOperations (hv : Replies k ν e e' ρ) (h : Pair k ν ρ F V W s t) {p : Packet} (hp : F p)
    (r r' : Nat) : Both (Pair.Result k ν ρ F V W) (s.executeOperations e p r) (t.executeOperations e' p r') := by
  unfold Rx.executeOperations
  refine .same _ fun a => ?_
  split
  · exact h.executeOperationsAddressed hv _ hp _ _ _
  · exact h.executeOperationsAddressed hv _ hp _ _ _
  · exact h.executeOperationsAddressed hv _ hp _ _ _
  · exact ⟨h, rfl⟩

theorem Pair.executeService (hv : Replies k ν e e' ρ) (h : Pair k ν ρ F V W s t) {p : Packet} (hp : F p) :
    Both (Pair.Result k ν ρ F V W) (s.executeService e p) (t.executeService e' p) := by
  unfold Rx.executeService
  refine .same _ fun b0 => ?_
  split
  · exact ⟨h, rfl⟩
  split
  · exact ⟨h.setServiceMode hv _, rfl⟩
  split
  · exact (h.registerMode hv p).bind fun a b hab => ⟨hab, rfl⟩
  split
  · exact (h.cvLong hv _ hp p).bind fun a b hab => ⟨hab, rfl⟩
  · exact ⟨h, rfl⟩

/-! ### Automatic logon -/

theorem Pair.writeCvs (hv : Replies k ν e e' ρ) (ws : List (BitVec 32 × Byte)) : ∀ {s t : Rx},
    Pair k ν ρ F V W s t → Pair k ν ρ F V W (s.writeCvs e ws) (t.writeCvs e' ws) := by
  induction ws with
  | nil => exact id
  | cons w ws ih =>
    intro s t h
    obtain ⟨v, v', s', t', hs, ht, h⟩ := h.writeCvByte hv w.1 w.2
    show Pair k ν ρ F V W (Rx.writeCvs e (s.writeCvByte e w.1 w.2).2 ws) (Rx.writeCvs e' (t.writeCvByte e' w.1 w.2).2 ws)
    rw [hs, ht]
    exact ih h

private def storeStation (e : Env) (s : Rx) : Rx :=
  Rx.writeCvs e { s with logon := { s.logon with cidFront := s.logon.cidBack } }
    [(65296#32, (s.logon.cidBack >>> 8).setWidth 8), (65297#32, s.logon.cidBack.setWidth 8)]

private def storeSession (e : Env) (s : Rx) : Rx :=
  Rx.writeCvs e { s with logon := { s.logon with sessionFront := s.logon.sessionBack } }
    [(65298#32, s.logon.sessionBack), (65299#32, (s.addrs.logon.value >>> 8).setWidth 8),
     (65300#32, s.addrs.logon.value.setWidth 8)]

theorem Pair.storeTail (hv : Replies k ν e e' ρ) (h : Pair k ν ρ F V W s t) :
    Pair k ν ρ F V W (s.storeTail e) (t.storeTail e') := by
  have station : ∀ {s t : Rx}, Pair k ν ρ F V W s t → Pair k ν ρ F V W (storeStation e s) (storeStation e' t) := by
    intro s t h
    unfold storeStation
    rw [h.cidBack]
    exact Pair.writeCvs hv _ { h with cidFront := rfl }
  have session : ∀ {s t : Rx}, Pair k ν ρ F V W s t → Pair k ν ρ F V W (storeSession e s) (storeSession e' t) := by
    intro s t h
    unfold storeSession
    rw [h.sessionBack, h.assigned]
    exact Pair.writeCvs hv _ { h with sessionFront := rfl }
  exact session (station (Pair.writeCvs hv _ h))

theorem Pair.storePrimary (hv : Replies k ν e e' ρ) (h : Pair k ν ρ F V W s t) :
    Pair k ν ρ F V W (s.storePrimary e) (t.storePrimary e') := by
  unfold Rx.storePrimary
  rw [h.primary]
  obtain ⟨v, v', s, t, hs, ht, h⟩ := h.writeCvByte hv 16#32 (0xC0#8 ||| (t.addrs.primary.value >>> 8).setWidth 8)
  rw [hs, ht]; dsimp only; clear hs ht
  rw [h.primary]
  obtain ⟨v, v', s, t, hs, ht, h⟩ := h.writeCvByte hv 17#32 (t.addrs.primary.value.setWidth 8)
  rw [hs, ht]; dsimp only; clear hs ht
  obtain ⟨v, v', s, t, hs, ht, h⟩ := h.writeCvBit hv 28#32 true 5#32
  rw [hs, ht]; exact h

theorem Pair.storeLogon (hv : Replies k ν e e' ρ) (h : Pair k ν ρ F V W s t) :
    Pair k ν ρ F V W (s.logonStore e) (t.logonStore e') := by
  unfold Rx.logonStore
  rw [h.logonStore]
  split
  · exact h
  · refine Pair.storeTail hv ?_
    have h : Pair k ν ρ F V W { s with logon := { s.logon with store := false } }
      { t with logon := { t.logon with store := false } } := { h with logonStore := rfl }
    dsimp only
    rw [h.primary, h.assigned]
    split
    · exact h.storePrimary hv
    · exact h

theorem inner_pushLogon (s : Rx) (d : List Byte) : Post (s.pushLogon d) (Inner s) := by
  unfold Rx.pushLogon
  split
  · exact .ok ⟨rfl⟩
  · exact .error

theorem inner_logonAnswer (e : Env) (s : Rx) (gg : AddressGroup) (r : Nat) :
    Post (s.logonAnswer e gg r) (Inner s) := by
  have push : ∀ (b : Backoff) (d : List Byte),
      Post (Rx.pushLogon { s with logon := { s.logon with backoff := b } } d) (Inner s) := by
    intro b d
    unfold Rx.pushLogon
    split
    · exact .ok ⟨rfl⟩
    · exact .error
  unfold Rx.logonAnswer
  split
  · exact .ok (.refl s)
  · dsimp only
    split
    · split
      · exact .ok ⟨rfl⟩
      · exact .bind_any fun d => push _ d
    · split
      · exact .ok ⟨rfl⟩
      · exact .bind_any fun d => push _ d

theorem Pair.logonEnable (hv : Replies k ν e e' ρ) (h : Pair k ν ρ F V W s t) (gg : AddressGroup) (cid : BitVec 16)
    (session : Byte) (r r' : Nat) :
    Both (Pair k ν ρ F V W) (s.logonEnable e gg cid session r) (t.logonEnable e' gg cid session r') := by
  unfold Rx.logonEnable
  have hq : (!s.cfg.logonEnabled || s.logon.selected) = (!t.cfg.logonEnabled || t.logon.selected) := by
    rw [h.cfg, h.logonSelected]
  rw [hq]
  split
  · exact h
  · dsimp only
    by_cases hc : cid = t.logon.cidFront
    · rw [if_pos hc, if_pos (hc.trans h.cidFront.symm)]
      by_cases hd : sessionDiff session t.logon.sessionFront ≤ 4#32
      · rw [if_pos hd, if_pos (by rw [h.sessionFront]; exact hd)]
        have h : Pair k ν ρ F V W
            { s with logon := { s.logon with
              cidBack := cid, sessionBack := session, selected := true, assigned := true, store := true } }
            { t with logon := { t.logon with
              cidBack := cid, sessionBack := session, selected := true, assigned := true, store := true } } :=
          { h with cidBack := rfl, sessionBack := rfl, logonSelected := rfl, logonAssigned := rfl, logonStore := rfl }
        obtain ⟨v, s, t, hs, ht, h⟩ := h.readCv hv 65299#32
        rw [hs, ht]; dsimp only; clear hs ht
        obtain ⟨v', s, t, hs, ht, h⟩ := h.readCv hv 65300#32
        rw [hs, ht]; dsimp only; clear hs ht
        exact .same _ fun a => { h with assigned := rfl }
      · rw [if_neg hd, if_neg (by rw [h.sessionFront]; exact hd)]
        refine Pair.both_inner ?_ (inner_logonAnswer ..) (inner_logonAnswer ..)
        exact { h with
          cidBack := rfl, sessionBack := rfl, logonSelected := rfl, logonAssigned := rfl, logonStore := rfl
          assigned := congrArg (·.assignValue 0#16) h.assigned }
    · rw [if_neg hc, if_neg (by rw [h.cidFront]; exact hc)]
      refine Pair.both_inner ?_ (inner_logonAnswer ..) (inner_logonAnswer ..)
      exact { h with cidBack := rfl, sessionBack := rfl }

theorem Pair.logonSelect (h : Pair k ν ρ F V W s t) (did : List Byte) :
    Both (Pair k ν ρ F V W) (s.logonSelect did) (t.logonSelect did) := by
  unfold Rx.logonSelect
  have hq : (!s.cfg.logonEnabled || s.logon.assigned || decide (did ≠ s.cfg.did)) =
      (!t.cfg.logonEnabled || t.logon.assigned || decide (did ≠ t.cfg.did)) := by
    rw [h.cfg, h.logonAssigned]
  rw [hq]
  split
  · exact h
  · dsimp only
    refine Pair.both_inner (s := { s with logon := { s.logon with selected := true } })
      (t := { t with logon := { t.logon with selected := true } }) ?_
      (.bind_any fun _ => inner_pushLogon ..) (.bind_any fun _ => inner_pushLogon ..)
    exact { h with logonSelected := rfl }

theorem Pair.logonAssign (h : Pair k ν ρ F V W s t) (did : List Byte) (a : Address) (o : Bool) :
    Both (Pair k ν ρ F V W) (s.logonAssign did a o) (t.logonAssign did a o) := by
  unfold Rx.logonAssign
  have hq : (!s.cfg.logonEnabled || decide (did ≠ s.cfg.did)) =
      (!t.cfg.logonEnabled || decide (did ≠ t.cfg.did)) := by
    rw [h.cfg]
  rw [hq]
  split
  · exact h
  · dsimp only
    refine Pair.both_inner ?_ (.bind_any fun _ => inner_pushLogon ..) (.bind_any fun _ => inner_pushLogon ..)
    exact { h with
      logonAssigned := rfl, logonStore := rfl, assigned := rfl
      consist := congrArg (·.assignValue 0#16) h.consist
      primary := congrArg (fun p => if a.value ≠ 0#16 ∧ o then a else p) h.primary }

theorem Pair.executeAutomaticLogon (hv : Replies k ν e e' ρ) (h : Pair k ν ρ F V W s t) (a : Address)
    (bs : List Byte) (r r' : Nat) :
    Both (Pair k ν ρ F V W) (s.executeAutomaticLogon e a bs r) (t.executeAutomaticLogon e' a bs r') := by
  unfold Rx.executeAutomaticLogon
  split
  · exact h
  refine .same _ fun b0 => ?_
  dsimp only
  split
  · exact .same _ fun did => h.logonSelect did
  split
  · refine .same _ fun did => .same _ fun b6 => ?_
    split
    · exact .same _ fun a => h.logonAssign _ _ _
    split
    · exact h
    split
    · exact .same _ fun a => h.logonAssign _ _ _
    · exact h
  split
  · exact .same _ fun cid => .same _ fun session => h.logonEnable hv _ _ _ _ _
  · exact h

/-! ### Packets -/

theorem logonStore_deque (e : Env) (s : Rx) : (s.logonStore e).deque = s.deque := by
  obtain ⟨evs, h⟩ := logonStore_eq e s
  rw [h.1]
  split <;> rfl

theorem Pair.executeFront (hv : Replies k ν e e' ρ) (h : Pair k ν ρ F V W s t) (r r' : Nat)
    (hp : ∀ p ∈ s.deque.take 1, F p) :
    Both (Pair.Result k ν ρ F V W) (s.executeFront e r) (t.executeFront e' r') := by
  unfold Rx.executeFront
  rw [← h.deque]
  split
  · exact trivial
  · rename_i p _ hd
    have hp : F p := hp p (by rw [hd]; exact List.mem_singleton.2 rfl)
    rw [h.serviceMode]
    split
    · exact h.executeService hv hp
    · exact h.executeOperations hv hp r r'

theorem Pair.execute (hv : Replies k ν e e' ρ) (h : Pair k ν ρ F V W s t) (n n' : Int) (r r' : Nat)
    (hp : s.packetEnd = false → ∀ p ∈ s.deque.take 1, F p) :
    Both (Pair.Result k ν ρ F V W) (s.execute e n r) (t.execute e' n' r') := by
  unfold Rx.execute
  have hend : s.packetEnd = t.packetEnd := h.packetEnd
  rw [← hend, ← h.deque]
  split
  · exact ⟨h, rfl⟩
  rename_i hne
  simp only [Bool.or_eq_true, not_or, Bool.not_eq_true] at hne
  have hp := hp hne.1
  have ha : Both (fun a b => Pair k ν ρ F V W a b ∧ a.deque = s.deque) s.adr t.adr := by
    have h1 := inner_adr s
    have h2 := inner_adr t
    cases hs : s.adr with
    | error => exact trivial
    | ok a =>
      cases ht : t.adr with
      | error => exact trivial
      | ok b =>
        have h1 := h1.out a hs
        exact ⟨h.inner h1 (h2.out b ht), by rw [h1.same]⟩
  refine ha.bind fun a b hab => ?_
  dsimp only
  have hd : ((a.logonStore e).updateQos.updateTimepoints n).deque = s.deque := by
    rw [(inner_updateTimepoints _ n).same]
    show (a.logonStore e).updateQos.deque = _
    rw [(inner_updateQos _).same]
    exact (logonStore_deque e a).trans hab.2
  have h3 := (hab.1.storeLogon hv).inner (inner_updateQos _) (inner_updateQos _)
  have h4 := h3.inner (inner_updateTimepoints _ n) (inner_updateTimepoints _ n')
  refine (h4.executeFront hv r r' (by rw [hd]; exact hp)).bind ?_
  rintro ⟨a, x⟩ ⟨b, y⟩ ⟨h5, rfl⟩
  refine ⟨?_, rfl⟩
  exact { h5 with deque := congrArg (List.drop 1) h5.deque }

theorem Pair.reset (h : Pair k ν ρ F V W s t) : Pair k ν ρ F V W s.reset t.reset :=
  { h with
    bitCount := rfl, byte := rfl, checksum := rfl, state := rfl
    packet := by rintro (h | h) <;> cases h }

theorem Pair.enable (h : Pair k ν ρ F V W s t) : Pair k ν ρ F V W s.enable t.enable := by
  unfold Rx.enable
  have he := h.enabled
  by_cases hs : s.enabled = true
  · rw [if_pos hs, if_pos (he ▸ hs)]; exact h
  · rw [if_neg hs, if_neg (he ▸ hs)]; exact { h with enabled := rfl }

theorem Pair.disable (h : Pair k ν ρ F V W s t) : Pair k ν ρ F V W s.disable t.disable := by
  unfold Rx.disable
  have he := h.enabled
  by_cases hs : (!s.enabled) = true
  · rw [if_pos hs, if_pos (he ▸ hs)]; exact h
  · rw [if_neg hs, if_neg (he ▸ hs)]
    have h : Pair k ν ρ F V W { s with enabled := false } { t with enabled := false } := { h with enabled := rfl }
    exact h.reset

theorem Pair.endOfPacket (hv : Replies k ν e e' ρ) (h : Pair k ν ρ F V W s t) (r r' : Nat)
    (hst : s.link.state = .endbit) :
    Both (fun a b => Pair k ν ρ F V W a.reset b.reset) (s.endOfPacket e r) (t.endOfPacket e' r') := by
  unfold Rx.endOfPacket
  have hp := h.packet (.inr hst)
  by_cases hc : t.link.checksum = 0#8 ∧ 3 ≤ t.link.packet.length
  · rw [if_pos hc, if_pos (by rw [h.checksum, hp]; exact hc)]
    dsimp only
    rw [hp]
    refine .same _ fun a => ?_
    have h : Pair k ν ρ F V W
        { s with
          link := { s.link with packetEnd := true, packet := t.link.packet }
          packetCount := s.packetCount + 1
          addrs := { s.addrs with received := a } }
        { t with
          link := { t.link with packetEnd := true }
          packetCount := t.packetCount + 1
          addrs := { t.addrs with received := a } } := { h with packetEnd := rfl, packet := fun _ => rfl }
    unfold Rx.executeHandlerMode
    dsimp only at h ⊢
    by_cases ht : a.type ≠ .automaticLogon
    · rw [if_pos ht, if_pos ht]
      simp only [ok_bind, Bool.false_eq_true, if_false]
      have hd : s.deque = t.deque := h.deque
      rw [hv.rxDeque]
      refine Both.bind (P := fun a b => a = b) ?_ ?_
      · rw [hd]
        cases pushBack e'.rxDeque t.deque t.link.packet <;> first | exact trivial | rfl
      · rintro q _ rfl
        show Pair k ν ρ F V W _ _
        exact Pair.reset { h with deque := rfl }
    · rw [if_neg ht, if_neg ht]
      by_cases hl : t.link.packet.length ≤ 7 ∨ crc8Packet t.link.packet = 0#8
      · rw [if_pos hl, if_pos hl]
        simp only [bind_assoc]
        refine (h.executeAutomaticLogon hv a (t.link.packet.drop 1) r r').bind fun a b hab => ?_
        exact hab.reset
      · rw [if_neg hl, if_neg hl]
        exact h.reset
  · rw [if_neg hc, if_neg (by rw [h.checksum, hp]; exact hc)]
    refine Pair.reset ?_
    exact { h with packet := fun _ => rfl }

theorem Pair.receiveBit (hv : Replies k ν e e' ρ) (h : Pair k ν ρ F V W s t) (b : Bool) (r r' : Nat) :
    Both (Pair k ν ρ F V W) (s.receiveBit e b r) (t.receiveBit e' b r') := by
  unfold Rx.receiveBit
  dsimp only
  cases hs : s.link.state with
  | preamble =>
    have ht : t.link.state = .preamble := h.state ▸ hs
    rw [ht]
    dsimp only
    split
    · refine { h with state := rfl, bitCount := congrArg (· + 1) h.bitCount, packet := ?_ }
      rintro (h | h) <;> cases h
    · by_cases hc : t.link.bitCount < 10 * 2
      · rw [if_pos hc, if_pos (by rw [h.bitCount]; exact hc)]
        exact h.reset
      · rw [if_neg hc, if_neg (by rw [h.bitCount]; exact hc)]
        refine { h with state := rfl, packet := ?_ }
        rintro (h | h) <;> cases h
  | startbit =>
    have ht : t.link.state = .startbit := h.state ▸ hs
    rw [ht]
    exact { h with state := rfl, bitCount := rfl, isHalfbit := rfl, packet := fun _ => rfl }
  | data =>
    have ht : t.link.state = .data := h.state ▸ hs
    have hp := h.packet (.inl hs)
    rw [ht]
    dsimp only
    by_cases hc : t.link.bitCount + 1 < 8
    · rw [if_pos hc, if_pos (by rw [h.bitCount]; exact hc)]
      exact { h with
        state := rfl
        packet := fun _ => hp
        byte := congrArg (fun x : Byte => (x <<< 1) ||| (if b then 1#8 else 0#8)) h.byte
        bitCount := congrArg (· + 1) h.bitCount }
    · rw [if_neg hc, if_neg (by rw [h.bitCount]; exact hc)]
      rw [h.byte, hp]
      refine .same _ fun q => ?_
      exact { h with
        state := rfl, packet := fun _ => rfl, byte := rfl, bitCount := rfl
        checksum := congrArg (· ^^^ _) h.checksum }
  | endbit =>
    have ht : t.link.state = .endbit := h.state ▸ hs
    have hp := h.packet (.inr hs)
    rw [ht]
    dsimp only
    split
    · exact { h with state := rfl, packet := fun _ => hp }
    · exact (h.endOfPacket hv r r' hs).bind fun a b hab => hab

theorem Pair.receive (hv : Replies k ν e e' ρ) (h : Pair k ν ρ F V W s t) (n r r' : Nat) :
    Both (Pair k ν ρ F V W) (s.receive e n r) (t.receive e' n r') := by
  unfold Rx.receive
  have h : Pair k ν ρ F V W { s with link := { s.link with packetEnd := false } }
      { t with link := { t.link with packetEnd := false } } := { h with packetEnd := rfl }
  revert h
  generalize { s with link := { s.link with packetEnd := false } } = s
  generalize { t with link := { t.link with packetEnd := false } } = t
  intro h
  dsimp only
  split
  · exact h
  · have hst := h.state
    have hh := h.isHalfbit
    by_cases hc : (t.link.state.halves && !t.link.isHalfbit) = true
    · rw [if_pos hc, if_pos (by rw [hst, hh]; exact hc)]
      exact { h with isHalfbit := rfl }
    · rw [if_neg hc, if_neg (by rw [hst, hh]; exact hc)]
      have h : Pair k ν ρ F V W
          (if s.link.state.halves then { s with link := { s.link with isHalfbit := false } } else s)
          (if t.link.state.halves then { t with link := { t.link with isHalfbit := false } } else t) := by
        by_cases hx : t.link.state.halves = true
        · rw [if_pos hx, if_pos (by rw [hst]; exact hx)]
          exact { h with isHalfbit := rfl }
        · rw [if_neg hx, if_neg (by rw [hst]; exact hx)]
          exact h
      revert h
      generalize (if s.link.state.halves then { s with link := { s.link with isHalfbit := false } } else s) = s
      generalize (if t.link.state.halves then { t with link := { t.link with isHalfbit := false } } else t) = t
      intro h
      by_cases hl : t.deque.length = e'.rxDeque
      · rw [if_pos hl, if_pos (by rw [h.deque, hv.rxDeque]; exact hl)]
        exact h.reset
      · rw [if_neg hl, if_neg (by rw [h.deque, hv.rxDeque]; exact hl)]
        exact h.receiveBit hv _ r r'

/-! ### BiDi -/

theorem Inner.trans {a b c : Rx} (h : Inner a b) (h' : Inner b c) : Inner a c := by
  refine ⟨?_⟩
  rw [h'.same, h.same]

theorem inner_dyn (e : Env) (s : Rx) (d x : Byte) : Post (s.dyn e d x) (Inner s) := by
  unfold Rx.dyn
  split
  · exact .ok (.refl s)
  · exact .bind_any fun _ => .bind_any fun _ => .ok ⟨rfl⟩

theorem inner_dyns (e : Env) (ds : List Dyn) : ∀ s : Rx, Post (s.dyns e ds) (Inner s) := by
  induction ds with
  | nil => exact fun s => .ok (.refl s)
  | cons d ds ih =>
    intro s
    exact (inner_dyn e s _ _).bind fun a ha => (ih a).mono fun b hb => ha.trans hb

theorem inner_datagram (e : Env) (s : Rx) (ds : List Dyn) : Post (s.datagram e ds) (Inner s) := by
  unfold Rx.datagram
  have h : Post (s.datagramStart e) (Inner s) := by
    unfold Rx.datagramStart
    split
    · exact .ok ⟨rfl⟩
    split
    · exact (inner_dyn e _ _ _).mono fun b hb => Inner.trans ⟨rfl⟩ hb
    · exact .ok (.refl s)
  refine h.bind fun a ha => ?_
  split
  · exact (inner_dyns e ds a).mono fun b hb => ha.trans hb
  · exact .ok ha

/-- Only BiDi is concerned, and acknowledgements if `k` does not hold. -/
def Aside (k : Bool) (s s' : Rx) : Prop :=
  Inner s s' ∨ ∃ ev a, ((∃ m, ev = .transmitBiDi m) ∨ k = false ∧ ev = .serviceAck) ∧ Inner s a ∧ s' = a.emit ev

theorem Pair.aside (hv : Replies k ν e e' ρ) (h : Pair k ν ρ F V W s t) {s' : Rx} (hs : Aside k s s') :
    Pair k ν ρ F V W s' t := by
  rcases hs with hs | ⟨ev, a, ⟨m, rfl⟩ | ⟨rfl, rfl⟩, hs, rfl⟩
  · exact h.inner hs (.refl t)
  · have := h.inner hs (.refl t)
    exact this.emit_left (hv.silent m) (hv.left _ _ m this.calls)
  · exact (h.inner hs (.refl t)).quiet_left hv (hv.ack rfl)

theorem Pair.aside_right (hv : Replies k ν e e' ρ) (h : Pair k ν ρ F V W s t) {t' : Rx} (ht : Aside k t t') :
    Pair k ν ρ F V W s t' := by
  rcases ht with ht | ⟨ev, a, ⟨m, rfl⟩ | ⟨rfl, rfl⟩, ht, rfl⟩
  · exact h.inner (.refl s) ht
  · have := h.inner (.refl s) ht
    exact this.emit_right (hv.silent m) (hv.right _ _ m this.calls)
  · exact (h.inner (.refl s) ht).quiet_right hv (hv.ack rfl)

theorem aside_biDiChannel1 (s : Rx) : Aside k s s.biDiChannel1 := by
  unfold Rx.biDiChannel1 Rx.appAdr Rx.appLogon1
  repeat' split
  all_goals first
    | exact .inl (.refl s)
    | exact .inr ⟨_, _, .inl ⟨_, rfl⟩, ⟨rfl⟩, rfl⟩

theorem aside_biDiChannel2 (s : Rx) : Post s.biDiChannel2 (Aside k s) := by
  unfold Rx.biDiChannel2
  have tos : Aside k s s.appTos := by
    unfold Rx.appTos
    split
    · exact .inl (.refl s)
    · exact .inr ⟨_, _, .inl ⟨_, rfl⟩, ⟨rfl⟩, rfl⟩
  have dyn : Aside k s s.appDyn := by
    unfold Rx.appDyn
    split
    · exact .inl (.refl s)
    · exact .inr ⟨_, _, .inl ⟨_, rfl⟩, ⟨rfl⟩, rfl⟩
  have pom : Aside k s s.appPom := by
    unfold Rx.appPom
    repeat' split
    all_goals first
      | exact .inl (.refl s)
      | exact .inr ⟨_, _, .inl ⟨_, rfl⟩, ⟨rfl⟩, rfl⟩
  have logon : Aside k s s.appLogon2 := by
    unfold Rx.appLogon2
    split
    · exact .inl (.refl s)
    · exact .inr ⟨_, _, .inl ⟨_, rfl⟩, ⟨rfl⟩, rfl⟩
  have addressed : Post (if s.addrs.received.eq (if s.logon.assigned then s.addrs.logon else s.addrs.primary) then do
      let i ← decodeInstructionPacket s.link.packet
      return if i = .cvLong then s.appPom else s.appDyn
    else if s.addrs.received.eq s.addrs.consist && s.cfg.ch2ConsistEnabled then .ok s.appDyn
    else .ok s) (Aside k s) := by
    generalize s.addrs.received.eq (if s.logon.assigned then s.addrs.logon else s.addrs.primary) = own
    split
    · refine .bind_any fun i => .ok ?_
      split
      · exact pom
      · exact dyn
    split
    · exact .ok dyn
    · exact .ok (.inl (.refl s))
  split
  · exact .ok tos
  · exact addressed
  · exact addressed
  · exact .ok logon
  · exact .ok (.inl (.refl s))

/-! ### Histories -/

/-- What remains of a call, without callbacks if `k` does not hold. -/
def bareOf (k : Bool) : RxOp → Option RxOp
  | .callbackByte i v => if k then some (.callbackByte i v) else none
  | .callbackBit i v => if k then some (.callbackBit i v) else none
  | op => bare op

theorem bareOf_true : bareOf true = bare := by
  funext op
  cases op <;> rfl

theorem aside_answerByte (s : Rx) (b red : Byte) : Aside false s (s.answerByte b red) := by
  unfold Rx.answerByte
  split
  · split
    · exact .inr ⟨_, s, .inr ⟨rfl, rfl⟩, .refl s, rfl⟩
    · exact .inl (.refl s)
  · exact .inl ⟨rfl⟩

theorem aside_answerBit (s : Rx) (b red : Bool) : Aside false s (s.answerBit b red) := by
  unfold Rx.answerBit
  split
  · split
    · exact .inr ⟨_, s, .inr ⟨rfl, rfl⟩, .refl s, rfl⟩
    · exact .inl (.refl s)
  · exact .inl ⟨rfl⟩

theorem aside_step {op : RxOp} (hb : bareOf k op = none) (e : Env) (s : Rx) : Post (s.step e op) (Aside k s) := by
  cases op with
  | datagram ds => exact (inner_datagram e s ds).mono fun _ h => .inl h
  | biDiChannel1 => exact .ok (aside_biDiChannel1 s)
  | biDiChannel2 => exact aside_biDiChannel2 s
  | callbackByte i v =>
    cases k with
    | true => cases hb
    | false =>
      show Post (match s.callbacks[i]? with | some (.byte b) => s.callbackByte b v | _ => .ok s) _
      split
      · rw [callbackByte_eq]; exact .ok (aside_answerByte s _ _)
      · exact .ok (.inl (.refl s))
  | callbackBit i v =>
    cases k with
    | true => cases hb
    | false =>
      show Post (match s.callbacks[i]? with | some (.bit b) => s.callbackBit b v | _ => .ok s) _
      split
      · rw [callbackBit_eq]; exact .ok (aside_answerBit s _ _)
      · exact .ok (.inl (.refl s))
  | _ => cases hb

theorem Pair.step (hv : Replies k ν e e' ρ) (h : Pair k ν ρ F V W s t) {op op' b : RxOp} (ho : bareOf k op = some b)
    (ho' : bareOf k op' = some b) (hp : op.isExecute = true → s.packetEnd = false → ∀ p ∈ s.deque.take 1, F p) :
    Both (Pair k ν ρ F V W) (s.step e op) (t.step e' op') := by
  cases k with
  | false =>
    cases op <;> cases ho <;> cases op' <;> cases ho'
    · exact h.init hv
    · exact h.enable
    · exact h.disable
    · exact h.receive hv _ _ _
    · exact (h.execute hv _ _ _ _ (hp rfl)).bind fun a b hab => hab.1
  | true =>
    cases op <;> cases ho <;> cases op' <;> cases ho'
    · exact h.init hv
    · exact h.enable
    · exact h.disable
    · exact h.receive hv _ _ _
    · exact (h.execute hv _ _ _ _ (hp rfl)).bind fun a b hab => hab.1
    · rename_i i v
      show Both _ (match s.callbacks[i]? with | some (.byte b) => s.callbackByte b v | _ => .ok s)
        (match t.callbacks[i]? with | some (.byte b) => t.callbackByte b v | _ => .ok t)
      rw [h.callbacks rfl]
      split
      · rw [callbackByte_eq, callbackByte_eq]; exact h.answerByte hv _ _
      · exact h
    · rename_i i v
      show Both _ (match s.callbacks[i]? with | some (.bit b) => s.callbackBit b v | _ => .ok s)
        (match t.callbacks[i]? with | some (.bit b) => t.callbackBit b v | _ => .ok t)
      rw [h.callbacks rfl]
      split
      · rw [callbackBit_eq, callbackBit_eq]; exact h.answerBit hv _ _
      · exact h

theorem Pair.run (hv : Replies k ν e e' ρ) : ∀ (ops ops' : List RxOp) {s t s' t' : Rx},
    Pair k ν ρ F V W s t → ops.filterMap (bareOf k) = ops'.filterMap (bareOf k) →
    (∀ p ∈ executed e s ops, F p) → s.run e ops = .ok s' → t.run e' ops' = .ok t' → Pair k ν ρ F V W s' t'
  | [], [], s, t, s', t', h, _, _, hs, ht => by cases hs; cases ht; exact h
  | op :: ops, ops', s, t, s', t', h, hb, hp, hs, ht => by
    cases hsx : s.step e op with
    | error => rw [Rx.run, hsx] at hs; cases hs
    | ok a =>
      rw [Rx.run, hsx] at hs
      rw [executed, hsx] at hp
      cases hbo : bareOf k op with
      | none =>
        refine Pair.run hv ops ops' (h.aside hv ((aside_step hbo e s).out a hsx)) ?_
          (fun p hx => hp p (List.mem_append_right _ hx)) hs ht
        rw [← hb, List.filterMap_cons_none hbo]
      | some b =>
        match ops' with
        | [] => rw [List.filterMap_cons_some hbo] at hb; cases hb
        | op' :: ops' =>
          cases htx : t.step e' op' with
          | error => rw [Rx.run, htx] at ht; cases ht
          | ok c =>
            rw [Rx.run, htx] at ht
            cases hbo' : bareOf k op' with
            | none =>
              refine Pair.run hv (op :: ops) ops' (h.aside_right hv ((aside_step hbo' e' t).out c htx)) ?_
                ?_ ?_ ht
              · rw [hb, List.filterMap_cons_none hbo']
              · rw [executed, hsx]; exact hp
              · rw [Rx.run, hsx]; exact hs
            | some b' =>
              rw [List.filterMap_cons_some hbo, List.filterMap_cons_some hbo'] at hb
              injection hb with hb1 hb2
              subst hb1
              have hstep := h.step hv hbo hbo' (fun hx hpe p hm => hp p (List.mem_append_left _ (by
                rw [hx, hpe]; exact hm)))
              rw [hsx, htx] at hstep
              exact Pair.run hv ops ops' hstep hb2 (fun p hx => hp p (List.mem_append_right _ hx)) hs ht
  | [], op' :: ops', s, t, s', t', h, hb, hp, hs, ht => by
    cases htx : t.step e' op' with
    | error => rw [Rx.run, htx] at ht; cases ht
    | ok c =>
      rw [Rx.run, htx] at ht
      cases hbo' : bareOf k op' with
      | none =>
        refine Pair.run hv [] ops' (h.aside_right hv ((aside_step hbo' e' t).out c htx)) ?_ hp hs ht
        rw [hb, List.filterMap_cons_none hbo']
      | some b' => rw [List.filterMap_cons_some hbo'] at hb; cases hb
  termination_by ops ops' => ops.length + ops'.length

end Dcc
