import Verif.Model.RxLink
/-!
The receiver as a machine: calls of its public methods in any order.
-/
namespace Dcc

/-- A call of a public method of `CrtpBase`, or of a callback the user's class holds
(include/dcc/rx/crtp_base.hpp:52-251).  `rand` and `now` are what `rand()` and the clock return
during the call. -/
inductive RxOp where
  | init
  | enable
  | disable
  | receive (time rand : Nat)
  | execute (now : Int) (rand : Nat)
  | datagram (ds : List Dyn)
  | biDiChannel1
  | biDiChannel2
  | callbackByte (i : Nat) (v : Byte)
  | callbackBit (i : Nat) (v : Bool)
  deriving DecidableEq, Repr

/-- One call.  Calling a callback that was never handed out is no operation. -/
def Rx.step (e : Env) (s : Rx) : RxOp → R Rx
  | .init => s.init e
  | .enable => .ok s.enable
  | .disable => .ok s.disable
  | .receive time rand => s.receive e time rand
  | .execute now rand => do return (← s.execute e now rand).1
  | .datagram ds => s.datagram e ds
  | .biDiChannel1 => .ok s.biDiChannel1
  | .biDiChannel2 => s.biDiChannel2
  | .callbackByte i v =>
    match s.callbacks[i]? with
    | some (.byte b) => s.callbackByte b v
    | _ => .ok s
  | .callbackBit i v =>
    match s.callbacks[i]? with
    | some (.bit b) => s.callbackBit b v
    | _ => .ok s

/-- A sequence of calls; it stops at the first fault. -/
def Rx.run (e : Env) (s : Rx) : List RxOp → R Rx
  | [] => .ok s
  | op :: ops => do
    let s ← s.step e op
    s.run e ops

/-- What a freshly constructed object and every state reached from it without a fault are. -/
inductive Reachable (e : Env) : Rx → Prop
  | start : Reachable e {}
  | step {s s' : Rx} (op : RxOp) : Reachable e s → s.step e op = .ok s' → Reachable e s'

end Dcc
