import Verif.Model.RxMachine
import Verif.Spec.Tx
/-!
Vocabulary for the properties of the receiver, in terms of its public calls and their observable
effects.
-/
namespace Dcc

/-- The call is one of `execute`. -/
def RxOp.isExecute : RxOp → Bool
  | .execute _ _ => true
  | _ => false

/-- The call is one of `receive`. -/
def RxOp.isReceive : RxOp → Bool
  | .receive _ _ => true
  | _ => false

/-- A packet the receiver may accept: 3 to 18 bytes (`DCC_MAX_PACKET_SIZE`) with exclusive-or 0. -/
structure ValidPacket (p : Packet) : Prop where
  min : 3 ≤ p.length
  max : p.length ≤ maxPacketSize
  sum : exor p = 0#8

/-- A packet to the address of automatic logon (254), which `receive` handles itself. -/
def isLogon (p : Packet) : Bool := p.head? == some 254#8

namespace Spec

/-- The calls of `receive` for a list of durations (with whatever `rand()` returns). -/
def recvOps (xs : List (Nat × Nat)) : List RxOp := xs.map fun x => .receive x.1 x.2

/-- The durations passed to `receive` among the calls. -/
def recvTimes (ops : List RxOp) : List Nat := ops.filterMap fun
  | .receive t _ => some t
  | _ => none

/-- `receive` is never called while the queue is full. -/
def NeverFull (e : Env) (s : Rx) : List RxOp → Prop
  | [] => True
  | op :: ops => (op.isReceive = true → s.deque.length < e.rxDeque) ∧
    match s.step e op with
    | .ok s' => NeverFull e s' ops
    | .error _ => True

instance NeverFull.decide (e : Env) : ∀ (ops : List RxOp) (s : Rx), Decidable (NeverFull e s ops)
  | [], _ => .isTrue trivial
  | op :: ops, s => by
    unfold NeverFull
    cases s.step e op with
    | ok s' => exact @instDecidableAnd _ _ _ (NeverFull.decide e ops s')
    | error _ => exact inferInstance

/-- What calls of `receive` add to the queue, in order. -/
def arrivals (e : Env) (s : Rx) : List RxOp → List Packet
  | [] => []
  | op :: ops =>
    match s.step e op with
    | .error _ => []
    | .ok s' => (if op.isReceive then s'.deque.drop s.deque.length else []) ++ arrivals e s' ops

/-- The packets calls of `execute` handle, in order: each handles the front of the queue, unless
`packetEnd()` holds. -/
def executed (e : Env) (s : Rx) : List RxOp → List Packet
  | [] => []
  | op :: ops =>
    match s.step e op with
    | .error _ => []
    | .ok s' => (if op.isExecute && !s.packetEnd then s.deque.take 1 else []) ++ executed e s' ops

end Spec
end Dcc
