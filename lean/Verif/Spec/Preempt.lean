import Verif.Model.RxPreempt
import Verif.Spec.Rx
/-!
Vocabulary for the interleavings of interrupts with the steps of `execute`.
-/
namespace Dcc

/-- The method called in a step, other than the `execute` the thread is in. -/
def Micro.call? (x : Task) : Micro → Option RxOp
  | .receive time rand => some (.receive time rand)
  | .biDiChannel1 => some .biDiChannel1
  | .biDiChannel2 => some .biDiChannel2
  | .call op => if x.phase = .idle then some op else none
  | .thread _ _ => none

namespace Spec

/-- The packet accepted in a step from `x` to `x'`: `receive` is called, `packetEnd()` is true
afterwards and the packet is none for automatic logon, which `receive` handles itself. -/
def accepts (x x' : Task) (m : Micro) : List Packet :=
  if (m.call? x).any RxOp.isReceive && x'.s.packetEnd && !isLogon x'.s.link.packet then
    [x'.s.link.packet]
  else []

/-- The packet executed in a step: the thread gets to the call that executes the packet in front,
or makes a whole call of `execute` at once. -/
def executesPacket (x : Task) (m : Micro) : List Packet :=
  match m with
  | .thread _ _ => if x.phase = .exec then x.s.deque.take 1 else []
  | m => if (m.call? x).any RxOp.isExecute && !x.s.packetEnd then x.s.deque.take 1 else []

/-- The packets accepted. -/
def acceptedIn (e : Env) (x : Task) : List Micro → List Packet
  | [] => []
  | m :: ms =>
    match x.step e m with
    | .error _ => []
    | .ok x' => accepts x x' m ++ acceptedIn e x' ms

/-- The packets executed. -/
def executedIn (e : Env) (x : Task) : List Micro → List Packet
  | [] => []
  | m :: ms =>
    match x.step e m with
    | .error _ => []
    | .ok x' => executesPacket x m ++ executedIn e x' ms

/-- The packets accepted but not executed: those in the queue, except for the one in front while
the thread has executed but not yet removed it. -/
def waiting (x : Task) : List Packet := if x.phase = .pop then x.s.deque.drop 1 else x.s.deque

/-- How many steps the thread still needs to leave `execute`, at most. -/
def stepsLeft : Phase → Nat
  | .idle => 0 | .adr => 7 | .adrLow _ => 6 | .store => 5 | .qos => 4 | .timepoints => 3
  | .exec => 2 | .pop => 1

end Spec
end Dcc
