import Verif.Model.Esp32
import Verif.Spec.Rmt
/-! What a decoder sees of the output of an RMT channel. -/
namespace Dcc.Rmt

/-- The times between the changes of a level, which has been `level` for `acc` µs.  The time after the last
change is not over. -/
def changes (level : Bool) (acc : Nat) : List (Bool × Nat) → List Nat
  | [] => []
  | (l, d) :: ps => if l = level then changes level (acc + d) ps else acc :: changes l d ps

/-- The pause behind a packet of the example does not make a zero of the half bit it prolongs: the second half
of the end bit (34 µs) if the level is held, otherwise the first half bit of the next cutout (60 µs). -/
def pauseHeard (eot : Bool) (pause : Nat) : Bool :=
  if eot then pause < 56 || 9966 < pause else pause < 30 || 9940 < pause

end Dcc.Rmt
