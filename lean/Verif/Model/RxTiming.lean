import Verif.Model.Basic
/-!
Model of include/dcc/rx/timing.hpp and include/dcc/bit.hpp.
-/
namespace Dcc

/-- `enum Bit` (include/dcc/bit.hpp:17). -/
inductive Bit where
  | b0 | b1 | invalid
  deriving DecidableEq, Repr

/-- `time2bit` (include/dcc/rx/timing.hpp:32-36) with the default values of the CMake options;
`Bit0MaxAnalog` is 10000. -/
def time2bit (time : Nat) : Bit :=
  if 52 ≤ time ∧ time ≤ 64 then .b1
  else if 90 ≤ time ∧ time ≤ 10000 then .b0
  else .invalid

end Dcc
