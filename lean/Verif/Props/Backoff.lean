import Verif.Spec.Backoff
/-!
C51: the backoff is bounded.
-/
namespace Dcc
open Spec

/-- The invariant of `Backoff`. -/
structure Backoff.Bounded (b : Backoff) : Prop where
  range : b.range < 4
  count : b.count < 64

private theorem shift_le (k : Nat) (h : k < 4) : 0 < 8 <<< k ∧ 8 <<< k ≤ 64 := by
  revert k; decide

theorem Backoff.Bounded.query {b : Backoff} (h : b.Bounded) (r : Nat) : (b.query r).1.Bounded := by
  unfold Backoff.query
  have h1 := h.range
  have h2 := h.count
  by_cases hc : b.count ≠ 0
  · rw [if_pos hc]
    exact ⟨h1, by dsimp only; omega⟩
  · rw [if_neg hc]
    have h3 := shift_le _ h1
    have h4 := Nat.mod_lt r h3.1
    exact ⟨by dsimp only; omega, by dsimp only; omega⟩

theorem backoffRun_bounded {b : Backoff} (h : b.Bounded) (ops : List BackoffOp) :
    (backoffRun b ops).Bounded := by
  induction ops generalizing b with
  | nil => exact h
  | cons op ops ih =>
    cases op with
    | query r => exact ih (h.query r)
    | now => exact ih ⟨(by decide : (0 : Nat) < 4), (by decide : (0 : Nat) < 64)⟩

theorem fresh_bounded : ({} : Backoff).Bounded := ⟨by decide, by decide⟩

/-- **C51** In every history of queries and calls to `now()` the range stays below 4 and the count
below 64, so neither `int8_t` nor `uint8_t` overflows. -/
theorem C51_backoff_state_bounded (ops : List BackoffOp) :
    (backoffRun {} ops).range < 4 ∧ (backoffRun {} ops).count < 64 :=
  ⟨(backoffRun_bounded fresh_bounded ops).range, (backoffRun_bounded fresh_bounded ops).count⟩

/-- **C51** The first query after construction or after `now()` does not back off. -/
theorem C51_first (ops : List BackoffOp) (r : Nat) :
    (({} : Backoff).query r).2 = false ∧
      ((backoffRun {} (ops ++ [.now])).query r).2 = false := by
  have h : ∀ b : Backoff, backoffRun b (ops ++ [.now]) = { range := 0, count := 0 } := by
    induction ops with
    | nil => exact fun _ => rfl
    | cons op ops ih => intro b; cases op <;> exact ih _
  rw [h]
  exact ⟨rfl, rfl⟩

theorem leading_answers (b : Backoff) (rs : List Nat) :
    leading (backoffAnswers b rs) = min b.count rs.length := by
  induction rs generalizing b with
  | nil => rw [backoffAnswers, leading]; simp; nofun
  | cons r rs ih =>
    rw [backoffAnswers]
    by_cases hc : b.count ≠ 0
    · simp only [Backoff.query, if_pos hc]
      rw [leading, ih]
      simp only [List.length_cons]
      omega
    · simp only [Backoff.query, if_neg hc]
      rw [leading]
      · omega
      · nofun

/-- The bound after the `k`-th query that did not back off. -/
private theorem pauses_bound (b : Backoff) (hb : b.Bounded) (rs : List Nat) (k : Nat) (n : Nat)
    (h : (pauses (backoffAnswers b rs))[k]? = some n) : n < 8 <<< min (b.range + k) 3 := by
  induction rs generalizing b k with
  | nil => simp [backoffAnswers, pauses] at h
  | cons r rs ih =>
    have h1 := hb.range
    have hq := hb.query r
    rw [backoffAnswers] at h
    by_cases hc : b.count ≠ 0
    · simp only [Backoff.query, if_pos hc] at h hq
      rw [pauses] at h
      exact ih _ hq k h
    · simp only [Backoff.query, if_neg hc] at h hq
      rw [pauses] at h
      cases k with
      | zero =>
        rw [leading_answers] at h
        simp only [List.getElem?_cons_zero, Option.some.injEq] at h
        have h3 := shift_le _ h1
        have h4 := Nat.mod_lt r h3.1
        rw [show min (b.range + 0) 3 = b.range by omega]
        omega
      | succ k =>
        rw [List.getElem?_cons_succ] at h
        have h3 := ih _ hq k h
        rw [show min (min (b.range + 1) 3 + k) 3 = min (b.range + (k + 1)) 3 by omega] at h3
        exact h3

/-- **C51** Between two queries that do not back off there are fewer than 8, then 16, then 32 and
from then on fewer than 64 that do, counted from construction or `now()`. -/
theorem C51_pauses (rs : List Nat) (k n : Nat)
    (h : (pauses (backoffAnswers {} rs))[k]? = some n) :
    n < if k = 0 then 8 else if k = 1 then 16 else if k = 2 then 32 else 64 := by
  have h1 := pauses_bound {} fresh_bounded rs k n h
  match k with
  | 0 => exact h1
  | 1 => exact h1
  | 2 => exact h1
  | k + 3 =>
    rw [show min ((({} : Backoff).range) + (k + 3)) 3 = 3 by
      rw [show (({} : Backoff).range) = 0 from rfl]; omega] at h1
    exact h1

/-- The pause behind the query number `i`, which is the `k`-th not to back off. -/
private theorem pause_exact (b : Backoff) (hb : b.Bounded) (rs : List Nat) (i r : Nat)
    (hr : rs[i]? = some r) (hi : (backoffAnswers b rs)[i]? = some false) :
    (pauses (backoffAnswers b rs))[((backoffAnswers b rs).take i).count false]? =
      some (min (r % (8 <<< min (b.range + ((backoffAnswers b rs).take i).count false) 3))
        (rs.length - i - 1)) := by
  induction rs generalizing b i with
  | nil => cases hr
  | cons r' rs ih =>
    have h1 := hb.range
    have hq := hb.query r'
    rw [backoffAnswers] at hi ⊢
    by_cases hc : b.count ≠ 0
    · simp only [Backoff.query, if_pos hc] at hi hq ⊢
      cases i with
      | zero => simp at hi
      | succ i =>
        rw [List.getElem?_cons_succ] at hi hr
        have := ih _ hq i hr hi
        rw [pauses, List.take_succ_cons, List.count_cons_of_ne (by decide), this,
          List.length_cons, show rs.length + 1 - (i + 1) - 1 = rs.length - i - 1 by omega]
    · simp only [Backoff.query, if_neg hc] at hi hq ⊢
      cases i with
      | zero =>
        rw [List.getElem?_cons_zero] at hr
        cases hr
        rw [pauses, List.take_zero, List.count_nil, List.getElem?_cons_zero, leading_answers,
          show min (b.range + 0) 3 = b.range by omega, List.length_cons]
        rfl
      | succ i =>
        rw [List.getElem?_cons_succ] at hi hr
        have := ih _ hq i hr hi
        rw [pauses, List.take_succ_cons, List.count_cons_self, List.getElem?_cons_succ, this,
          List.length_cons, show rs.length + 1 - (i + 1) - 1 = rs.length - i - 1 by omega]
        dsimp only
        rw [← Nat.add_assoc, show ∀ k, min (min (b.range + 1) 3 + k) 3 = min (b.range + k + 1) 3 by
          intro k; omega]

/-- **C51** The pauses are as long as the random source says: if query number `i` does not back off and
`k` queries before it did not either, then the next `r` queries do back off and the one behind them does
not, where `r` is the random value query `i` draws modulo 8, 16, 32, 64, 64, ... for `k` = 0, 1, 2, 3,
4, ... (as far as there are further queries). -/
theorem C51_pause_exact (rs : List Nat) (i r : Nat) (hr : rs[i]? = some r)
    (hi : (backoffAnswers {} rs)[i]? = some false) :
    let k := ((backoffAnswers {} rs).take i).count false
    (pauses (backoffAnswers {} rs))[k]? =
      some (min (r % (if k = 0 then 8 else if k = 1 then 16 else if k = 2 then 32 else 64))
        (rs.length - i - 1)) := by
  intro k
  have h := pause_exact {} fresh_bounded rs i r hr hi
  show (pauses (backoffAnswers {} rs))[k]? = _
  rw [h]
  change some (min (r % (8 <<< min (0 + k) 3)) _) = _
  generalize k = k
  match k with
  | 0 => rfl
  | 1 => rfl
  | 2 => rfl
  | k + 3 =>
    rw [show min (0 + (k + 3)) 3 = 3 by omega]
    rfl

/-- **C51** `now()` makes the object as good as new: whatever happened before, all further answers are
those of a new one. -/
theorem C51_now (ops : List BackoffOp) (rs : List Nat) :
    backoffAnswers (backoffRun {} (ops ++ [.now])) rs = backoffAnswers {} rs := by
  have h : ∀ b : Backoff, backoffRun b (ops ++ [.now]) = { range := 0, count := 0 } := by
    induction ops with
    | nil => exact fun _ => rfl
    | cons op ops ih => intro b; cases op <;> exact ih _
  rw [h]

/-- The second query that does not back off is the one behind five that do; it draws 29 % 16. -/
example : let rs := [5, 0, 0, 0, 0, 0, 29] ++ List.replicate 20 0
    rs[6]? = some 29 ∧ (backoffAnswers {} rs)[6]? = some false ∧
      ((backoffAnswers {} rs).take 6).count false = 1 ∧ (pauses (backoffAnswers {} rs))[1]? = some 13 := by
  decide +kernel

theorem false_mem_answers (b : Backoff) (rs : List Nat) (h : b.count < rs.length) :
    false ∈ backoffAnswers b rs := by
  induction rs generalizing b with
  | nil => simp at h
  | cons r rs ih =>
    rw [backoffAnswers]
    by_cases hc : b.count ≠ 0
    · simp only [Backoff.query, if_pos hc]
      refine List.mem_cons_of_mem _ (ih _ ?_)
      simp only [List.length_cons] at h
      dsimp only
      omega
    · simp only [Backoff.query, if_neg hc]
      exact List.mem_cons_self

/-- **C51** Among any 64 consecutive queries at least one does not back off, whatever happened
before. -/
theorem C51_any_64 (ops : List BackoffOp) (rs : List Nat) (h : rs.length = 64) :
    false ∈ backoffAnswers (backoffRun {} ops) rs :=
  false_mem_answers _ _ (by
    have := (backoffRun_bounded fresh_bounded ops).count
    omega)

/-! The bound 64 is reached: after four draws of -1 modulo the range, 63 queries back off. -/

example : backoffAnswers (backoffRun {} ((List.replicate 7 (.query 63)) ++ [.now, .query 0, .query 0,
    .query 0, .query 63])) (List.replicate 64 63) = List.replicate 63 true ++ [false] := by
  decide +kernel

example : pauses (backoffAnswers {} (List.replicate 200 63)) = [7, 15, 31, 63, 63, 15] := by
  decide +kernel

end Dcc
