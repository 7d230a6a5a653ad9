import Verif.Spec.Bidi
/-!
The quality of service (RCN-217 5.3.2, dynamic data with subindex 7): how many of the packets begun
were not received, in percent.
-/
namespace Dcc.Spec

/-- A packet is being received: its start bit has been, its end bit has not. -/
def receiving (s : Rx) : Bool := s.link.state = .data || s.link.state = .endbit

/-- Packets begun and packets received since the value was determined last, and that value. -/
structure Quality where
  begun : Nat := 0
  received : Nat := 0
  value : Int := 0
  deriving DecidableEq, Repr

/-- What a call leading from `s` to `s'` means for the quality.  When a packet is executed and at
least 100 packets have begun, the value is determined and the counts start again. -/
def Quality.step (q : Quality) (s s' : Rx) : RxOp → Quality
  | .receive _ _ =>
    { q with
      begun := q.begun + if !receiving s && receiving s' then 1 else 0
      received := q.received + if s'.packetEnd then 1 else 0 }
  | .execute _ _ =>
    if (front s).isSome && decide (100 ≤ q.begun) then
      { value := 100 - ((q.received * 100 / q.begun : Nat) : Int) }
    else q
  | _ => q

/-- The quality after a history. -/
def quality (e : Env) (s : Rx) (q : Quality) : List RxOp → Quality
  | [] => q
  | op :: ops =>
    match s.step e op with
    | .error _ => q
    | .ok s' => quality e s' (q.step s s' op) ops

/-- No packet is executed while one is being received. -/
def executesBetween (e : Env) (s : Rx) : List RxOp → Bool
  | [] => true
  | op :: ops =>
    !(op.isExecute && (front s).isSome && receiving s) &&
      match s.step e op with
      | .error _ => true
      | .ok s' => executesBetween e s' ops

/-- No packet that was begun is lost. -/
def losesNone (e : Env) (s : Rx) : List RxOp → Bool
  | [] => true
  | op :: ops =>
    match s.step e op with
    | .error _ => true
    | .ok s' => (!(receiving s && !receiving s') || s'.packetEnd) && losesNone e s' ops

end Dcc.Spec
