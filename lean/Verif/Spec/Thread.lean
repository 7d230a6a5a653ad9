import Verif.Model.RxThread
import Verif.Spec.Rx
/-!
Vocabulary for interrupts between any two accesses of the thread.
-/
namespace Dcc

/-- The step is a call of `receive`. -/
def Beat.isReceive : Beat → Bool
  | .receive _ _ => true
  | _ => false

/-- The call made in a step that is not one of the thread. -/
def Beat.call? : Beat → Option RxOp
  | .receive time rand => some (.receive time rand)
  | .biDiChannel1 => some .biDiChannel1
  | .biDiChannel2 => some .biDiChannel2
  | _ => none

namespace Spec

/-- What is found in the steps of a history, one after the other. -/
def collect {α : Type} (e : Env) (g : Preempted → Preempted → Beat → List α) (x : Preempted) :
    List Beat → List α
  | [] => []
  | m :: ms =>
    match x.step e m with
    | .error _ => []
    | .ok x' => g x x' m ++ collect e g x' ms

/-- Something is true of every step of a history. -/
def Always (e : Env) (P : Preempted → Beat → Prop) (x : Preempted) : List Beat → Prop
  | [] => True
  | m :: ms => P x m ∧ ∀ x', x.step e m = .ok x' → Always e P x' ms

/-- The packets accepted: `receive` is called, `packetEnd()` is true afterwards and the packet is none
for automatic logon, which `receive` handles itself. -/
def acceptedBy (e : Env) : Preempted → List Beat → List Packet :=
  collect e fun _ x' m =>
    if m.isReceive && x'.s.packetEnd && !isLogon x'.s.link.packet then [x'.s.link.packet] else []

/-- The packets in front of the queue when the thread makes its access in one of some lines of
include/dcc/rx/crtp_base.hpp. -/
def frontAt (lines : List Nat) (e : Env) : Preempted → List Beat → List Packet :=
  collect e fun x _ m =>
    if m = .access ∧ x.line.any (lines.contains ·) then x.s.deque.take 1 else []

/-- The packets the thread executes, as it fetches them with `_deque.front()` in `executeOperations`
and `executeService`. -/
def executedBy : Env → Preempted → List Beat → List Packet := frontAt [291, 315]

/-- The packets removed with `_deque.pop_front()`. -/
def removedBy : Env → Preempted → List Beat → List Packet := frontAt [281]

/-- `receive` is not called between the assignments of `reset`, which `disable` calls. -/
def resetAlone (x : Preempted) (m : Beat) : Prop :=
  x.line = some 871 ∨ x.line = some 872 → m.isReceive = false

/-- The CV answers queued by `pom` since `_last_own_cv_packet` changed. -/
def answersSince (e : Env) (x : Preempted) (answers : List (List Byte)) : List Beat → List (List Byte)
  | [] => answers
  | m :: ms =>
    match x.step e m with
    | .error _ => []
    | .ok x' =>
      answersSince e x'
        (if x'.s.lastOwnCvPacket ≠ x.s.lastOwnCvPacket then []
         else if m = .access ∧ x.line = some 895 then answers ++ x'.s.q.pom.drop x.s.q.pom.length
         else answers) ms

end Spec
end Dcc
