import Verif.Spec.Guest
/-! A decoder that logs on, with a program that attends to the track. -/
namespace Dcc.Spec

/-- The calls of a program that attends to both channels; `due` is the number of channels still to be called. -/
def mayCall (due : Nat) (s : Rx) : RxOp → Bool
  | .receive _ _ => due == 0 && (s.packetEnd || s.deque.isEmpty)
  | .biDiChannel1 => due == 2
  | .biDiChannel2 => due == 1
  | .execute _ _ => true
  | _ => false

/-- The number of channels still to be called after a call; `s` is the state then. -/
def dueAfter (due : Nat) (s : Rx) : RxOp → Nat
  | .receive _ _ => if s.packetEnd then 2 else 0
  | .biDiChannel1 => 1
  | .biDiChannel2 => 0
  | _ => due

/-- A program that attends to both channels: they are called once each, in their order, between the end of a
packet and the next half bit, and a packet is executed before the second half bit after its end.  There are no
other calls. -/
def visits (e : Env) : Nat → Rx → List RxOp → Bool
  | _, _, [] => true
  | due, s, op :: ops =>
    mayCall due s op &&
    match s.step e op with
    | .error _ => true
    | .ok s' => visits e (dueAfter due s' op) s' ops

/-- The random numbers drawn at the ends of packets. -/
def drawnAt (e : Env) (s : Rx) : List RxOp → List Nat
  | [] => []
  | op :: ops =>
    match s.step e op with
    | .error _ => []
    | .ok s' =>
      (match op with
        | .receive _ r => if s'.packetEnd then [r] else []
        | _ => []) ++ drawnAt e s' ops

/-- The bytes transmitted by a call in the cutout after a logon packet. -/
def heardIn (s s' : Rx) : List Byte := if cutout s = .logon then (transmitted (newCalls s s')).flatten else []

/-- What is heard in the cutouts after logon packets, for every cutout that is over; `half` is what was heard in
channel 1 of the present one. -/
def cuts (e : Env) : List Byte → Rx → List RxOp → List (List Byte)
  | _, _, [] => []
  | half, s, op :: ops =>
    match s.step e op with
    | .error _ => []
    | .ok s' =>
      match op with
      | .biDiChannel1 => cuts e (heardIn s s') s' ops
      | .biDiChannel2 => (half ++ heardIn s s') :: cuts e [] s' ops
      | _ => cuts e half s' ops

/-- The number of a decoder after a packet. -/
def numberAfter (uid : BitVec 32) (number : Option Nat) : GuestItem → Option Nat
  | .assign _ u n => if u = uid then some n else number
  | _ => number

/-- The calls several packets ask for, of the decoder with this unique ID and this number; `s` is the decoder
before it logged on. -/
def drivenBy (s : Rx) (uid : BitVec 32) (number : Option Nat) : List GuestItem → List Event
  | [] => []
  | i :: items => Guest.calls s { uid := uid, number := number } i ++ drivenBy s uid (numberAfter uid number i) items

end Dcc.Spec
