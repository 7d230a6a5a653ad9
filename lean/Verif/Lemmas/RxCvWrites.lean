import Verif.Lemmas.RxCvExec
/-! The accesses and acknowledgements among calls. -/
namespace Dcc
open Spec

theorem writes_append (a b : List Event) : writes (a ++ b) = writes a ++ writes b :=
  List.filterMap_append

theorem writes_quiet {evs : List Event} (h : ∀ ev ∈ evs, ev.isQuiet = true) : writes evs = [] := by
  unfold writes
  rw [List.filterMap_eq_nil_iff]
  intro ev hev
  have := h ev hev
  cases ev <;> first | rfl | cases this

theorem writes_ack (a b : Bool) : writes (ack a b) = [] := by cases a <;> cases b <;> rfl

theorem writes_nil : writes [] = [] := rfl

theorem writes_cons (ev : Event) (evs : List Event) :
    writes (ev :: evs) = (writeOf ev).toList ++ writes evs := by
  unfold writes
  rw [List.filterMap_cons]
  cases writeOf ev <;> rfl

theorem longRequest_range {bs : List Byte} {k : Kind} {a : Access}
    (h : longRequest bs = some (k, a)) : a.cv < 1024 ∧ ∀ cv b pos, a = .bit cv b pos → pos < 8 := by
  obtain _ | ⟨b0, _ | ⟨b1, _ | ⟨b2, rest⟩⟩⟩ := bs
  · cases h
  · cases h
  · cases h
  have := b1.isLt
  unfold longRequest at h
  dsimp only at h
  split at h
  · cases h
    exact ⟨by simp [Access.cv]; omega, nofun⟩
  split at h
  · cases h
    exact ⟨by simp [Access.cv]; omega, nofun⟩
  split at h
  · simp only [Option.some.injEq, Prod.mk.injEq] at h
    obtain ⟨-, rfl⟩ := h
    refine ⟨by simp [Access.cv]; omega, ?_⟩
    intro cv b pos h
    cases h
    omega
  · cases h

theorem writes_accessCalls (e : Env) (tr : List Event) (sv : Bool) (k : Kind) (a : Access)
    (hcv : a.cv < 1024) (hpos : ∀ cv b pos, a = .bit cv b pos → pos < 8) :
    writes (accessCalls e tr sv k a) = if k = .write then [a] else [] := by
  cases a with
  | byte cv b =>
    have hcv : cv < 1024 := hcv
    have m : cv % 4294967296 = cv := by omega
    cases k <;> cases h : e.asyncReadable <;> cases h' : e.asyncWritable <;>
      simp [accessCalls, h, h', writes_cons, writes_ack, writeOf, writes_nil, m]
  | bit cv b pos =>
    have hcv : cv < 1024 := hcv
    have m : cv % 4294967296 = cv := by omega
    have := hpos _ _ _ rfl
    have m' : pos % 4294967296 = pos := by omega
    cases k <;> cases h : e.asyncReadable <;> cases h' : e.asyncWritable <;>
      simp [accessCalls, h, h', writes_cons, writes_ack, writeOf, writes_nil, m, m']

theorem accesses_append (a b : List Event) : accesses (a ++ b) = accesses a ++ accesses b :=
  List.filterMap_append

theorem accesses_quiet {evs : List Event} (h : ∀ ev ∈ evs, ev.isQuiet = true) : accesses evs = [] := by
  unfold accesses
  rw [List.filterMap_eq_nil_iff]
  intro ev hev
  have := h ev hev
  cases ev <;> first | rfl | cases this

theorem accesses_ack (a b : Bool) : accesses (ack a b) = [] := by cases a <;> cases b <;> rfl

theorem accesses_nil : accesses [] = [] := rfl

theorem accesses_cons (ev : Event) (evs : List Event) :
    accesses (ev :: evs) = (accessOf ev).toList ++ accesses evs := by
  unfold accesses
  rw [List.filterMap_cons]
  cases accessOf ev <;> rfl

theorem accesses_accessCalls (e : Env) (tr : List Event) (sv : Bool) (k : Kind) (a : Access)
    (hcv : a.cv < 1024) (hpos : ∀ cv b pos, a = .bit cv b pos → pos < 8) :
    accesses (accessCalls e tr sv k a) = [(k, a)] := by
  cases a with
  | byte cv b =>
    have hcv : cv < 1024 := hcv
    have m : cv % 4294967296 = cv := by omega
    cases k <;> cases h : e.asyncReadable <;> cases h' : e.asyncWritable <;>
      simp [accessCalls, h, h', accesses_cons, accesses_ack, accessOf, writeOf, verifyOf, accesses_nil, m]
  | bit cv b pos =>
    have hcv : cv < 1024 := hcv
    have m : cv % 4294967296 = cv := by omega
    have := hpos _ _ _ rfl
    have m' : pos % 4294967296 = pos := by omega
    cases k <;> cases h : e.asyncReadable <;> cases h' : e.asyncWritable <;>
      simp [accessCalls, h, h', accesses_cons, accesses_ack, accessOf, writeOf, verifyOf, accesses_nil, m, m']

theorem ackCount_quiet {evs : List Event} (h : ∀ ev ∈ evs, ev.isQuiet = true) : ackCount evs = 0 := by
  unfold ackCount
  rw [List.count_eq_zero]
  intro h'
  have := h _ h'
  cases this

end Dcc
