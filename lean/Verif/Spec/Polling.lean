import Verif.Spec.Throttle
import Verif.Spec.Tx
/-! Calls with the times at which they are made. -/
namespace Dcc.Spec

/-- The calls come in the order of their times in µs, at a call of `receive` at least the time it gets has
passed since the call of `receive` before (`edge`), and at no call the last call of `execute` (`last`) is
more than `period` ago. -/
def Punctual (period : Nat) (now last edge : Nat) : List (Nat × RxOp) → Prop
  | [] => True
  | (time, op) :: xs => now ≤ time ∧ time ≤ last + period ∧
    match op with
    | .receive t _ => edge + t ≤ time ∧ Punctual period time last time xs
    | .execute .. => Punctual period time time edge xs
    | _ => Punctual period time last edge xs

/-- `execute` is called every `period` µs, but may be late: all in all `spare` such calls may be left out. -/
def Attended (period : Nat) (spare now last : Nat) : List (Nat × RxOp) → Prop
  | [] => True
  | (time, op) :: xs => now ≤ time ∧ time ≤ last + (spare + 1) * period ∧
    if op.isExecute then Attended period (spare - (time - last - 1) / period) time time xs
    else Attended period spare time last xs

/-- The calls of `receive` are at least as far apart as the intervals of `ds`, of which there is one for
each. -/
def Lasting (edge : Nat) : List Nat → List (Nat × RxOp) → Prop
  | ds, [] => ds = []
  | [], (_, op) :: xs => op.isReceive = false ∧ Lasting edge [] xs
  | d :: ds, (time, op) :: xs =>
    if op.isReceive then edge + d ≤ time ∧ Lasting time ds xs else Lasting edge (d :: ds) xs

/-- The time in µs the shortest packet with a checksum takes, not counting its first half bit: three bytes,
11 zeros and 16 ones besides the preamble and the end bit. -/
def shortest (c : TxConfig) : Nat :=
  2 * ((c.numPreamble.toNat + 17) * c.bit1.toNat + 11 * c.bit0.toNat) - c.bit1.toNat

/-- The calls without their times. -/
def calls (xs : List (Nat × RxOp)) : List RxOp := xs.map (·.2)

instance Punctual.decide (period : Nat) : ∀ (xs : List (Nat × RxOp)) (now last edge : Nat),
    Decidable (Punctual period now last edge xs)
  | [], _, _, _ => .isTrue trivial
  | (time, op) :: xs, now, last, edge => by
    have := Punctual.decide period xs
    unfold Punctual
    cases op <;> exact inferInstance

instance Attended.decide (period : Nat) : ∀ (xs : List (Nat × RxOp)) (spare now last : Nat),
    Decidable (Attended period spare now last xs)
  | [], _, _, _ => .isTrue trivial
  | (time, op) :: xs, spare, now, last => by
    have := Attended.decide period xs
    unfold Attended
    exact inferInstance

instance Lasting.decide : ∀ (xs : List (Nat × RxOp)) (edge : Nat) (ds : List Nat),
    Decidable (Lasting edge ds xs)
  | [], _, ds => by unfold Lasting; exact inferInstance
  | (time, op) :: xs, edge, [] => by
    have := Lasting.decide xs
    unfold Lasting
    exact inferInstance
  | (time, op) :: xs, edge, d :: ds => by
    have := Lasting.decide xs
    unfold Lasting
    exact inferInstance

end Dcc.Spec
