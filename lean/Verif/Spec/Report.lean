import Verif.Spec.Bidi
/-! Values reported again and again. -/
namespace Dcc.Spec

/-- The number of cutouts for dynamic data in which channel 2 is attended to. -/
def reportCutouts (e : Env) (s : Rx) : List RxOp → Nat
  | [] => 0
  | op :: ops =>
    match s.step e op with
    | .error _ => 0
    | .ok s' => (if inChannel2 .dynamic s op then 1 else 0) + reportCutouts e s' ops

/-- The words transmitted from a state on, one after the other. -/
def reported (e : Env) (s : Rx) (ops : List RxOp) : List Nat :=
  ((sent (inChannel2 .dynamic) e s ops).map fun m => (triples m).map read).flatten

/-- The program reports `ds` exactly once between two cutouts for dynamic data; `cut` says whether the next of these
calls is the cutout. -/
def paced (ds : List Dyn) (e : Env) (s : Rx) (cut : Bool) : List RxOp → Bool
  | [] => true
  | op :: ops =>
    match s.step e op with
    | .error _ => true
    | .ok s' =>
      if inChannel2 .dynamic s op then cut && paced ds e s' false ops
      else if isDatagram op then !cut && decide (op = .datagram ds) && paced ds e s' true ops
      else paced ds e s' cut ops

/-- The program reports `ds` at least twice before every cutout for dynamic data, and nothing else; `n` times it has
done so since the last one. -/
def eager (ds : List Dyn) (e : Env) (s : Rx) (n : Nat) : List RxOp → Bool
  | [] => true
  | op :: ops =>
    match s.step e op with
    | .error _ => true
    | .ok s' =>
      if inChannel2 .dynamic s op then decide (2 ≤ n) && eager ds e s' 0 ops
      else if isDatagram op then decide (op = .datagram ds) && eager ds e s' (n + 1) ops
      else eager ds e s' n ops

end Dcc.Spec
