import Verif.Spec.Bidi
/-! Which answer to a tip-off search is transmitted when. -/
namespace Dcc.Spec

/-- What a decoder knows about tip-off searches after a history. -/
def searchState (e : Env) (s : Rx) (x : Search) : List RxOp → Search
  | [] => x
  | op :: ops =>
    match s.step e op with
    | .error _ => x
    | .ok s' => searchState e s' (x.step s op) ops

/-- The answers to tip-off searches transmitted in a history, as words. -/
def searchReplies (e : Env) (ops : List RxOp) : List (List Nat) :=
  (sent (inChannel2 .tipOff) e {} ops).map fun m => (pairs m).map read

/-- Executed at `now`, the first packet of the queue is a search that is to be answered: no answer waits, less than
30 seconds have passed since the last gap, and the backoff permits it. -/
def ToAnswer (s : Rx) (x : Search) (now : Int) (rand : Nat) : Prop :=
  ∃ p, front s = some p ∧ searchPacket s p ∧ x.waiting = [] ∧ (x.times.execute now).seconds < 30 ∧
    ((if 2000000000 ≤ now - x.times.last then {} else x.pause : Pause).query rand).2 = false

end Dcc.Spec
