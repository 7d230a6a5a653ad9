import Verif.Model.Basic
/-!
Model of include/dcc/rx/backoff.hpp.
-/
namespace Dcc

/-- `struct Backoff` (include/dcc/rx/backoff.hpp:21-46).  Simplification: `int8_t _range` and
`uint8_t _count` are natural numbers; `C51_backoff_state_bounded` shows that they stay below 4
and 64. -/
structure Backoff where
  range : Nat := 0
  count : Nat := 0
  deriving DecidableEq, Repr

/-- `Backoff::operator bool` (include/dcc/rx/backoff.hpp:22-31) and `randomCount`
(include/dcc/rx/backoff.hpp:40-42).  `rand` is what `rand()` returns if it is called; the second
component is the result, `true` means back off. -/
def Backoff.query (b : Backoff) (rand : Nat) : Backoff × Bool :=
  if b.count ≠ 0 then ({ b with count := b.count - 1 }, true)
  else ({ range := min (b.range + 1) 3, count := rand % (8 <<< b.range) }, false)

/-- `Backoff::now` (include/dcc/rx/backoff.hpp:34-37). -/
def Backoff.now (_ : Backoff) : Backoff := { range := 0, count := 0 }

end Dcc
