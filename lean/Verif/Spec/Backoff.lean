import Verif.Model.Backoff
/-!
Specification of C51: what a user of `Backoff` observes.
-/
namespace Dcc.Spec

/-- A call on a `Backoff` object: a query, together with what `rand()` would return, or `now()`. -/
inductive BackoffOp where
  | query (rand : Nat)
  | now
  deriving DecidableEq, Repr

/-- The object after a number of calls. -/
def backoffRun (b : Backoff) : List BackoffOp → Backoff
  | [] => b
  | .query r :: ops => backoffRun (b.query r).1 ops
  | .now :: ops => backoffRun b.now ops

/-- The answers to consecutive queries, `true` means back off. -/
def backoffAnswers (b : Backoff) : List Nat → List Bool
  | [] => []
  | r :: rs => (b.query r).2 :: backoffAnswers (b.query r).1 rs

/-- Number of times to back off in front of the first "do not back off". -/
def leading : List Bool → Nat
  | true :: as => leading as + 1
  | _ => 0

/-- After the answers `false, true, true, false, true`, two and then one: for each "do not back
off", how many times one has to back off until the next. -/
def pauses : List Bool → List Nat
  | [] => []
  | false :: as => leading as :: pauses as
  | true :: as => pauses as

/-- How many random values the query that is the `k`-th not to back off (counting from 0) chooses
from. -/
def window (k : Nat) : Nat := if k = 0 then 8 else if k = 1 then 16 else if k = 2 then 32 else 64

/-- A reference backoff: the number of queries that did not back off, and how many of the next ones have
to. -/
structure Pause where
  free : Nat := 0
  left : Nat := 0
  deriving DecidableEq, Repr

/-- A query; the second component is true if one has to back off. -/
def Pause.query (p : Pause) (rand : Nat) : Pause × Bool :=
  if 0 < p.left then ({ p with left := p.left - 1 }, true)
  else ({ free := p.free + 1, left := rand % window p.free }, false)

/-- The answers to consecutive queries. -/
def Pause.answers (p : Pause) : List Nat → List Bool
  | [] => []
  | r :: rs => (p.query r).2 :: Pause.answers (p.query r).1 rs

end Dcc.Spec
