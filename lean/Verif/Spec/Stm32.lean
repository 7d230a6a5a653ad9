import Verif.Model.Stm32
import Verif.Spec.Cv
import Verif.Spec.Polling
/-! Two boards: a command station and a decoder with clocks of their own. -/
namespace Dcc.Spec

/-- A call the main loop makes, what happens until it returns, and the number of interrupts in the delay
after it. -/
structure Turn where
  call : TxOp
  during : List TxBeat
  delay : Nat

/-- The main loop of a command station: each call returns, and in the delay after it there are at least
`gap` interrupts. -/
def Turns (n gap : Nat) (x : TxTask) : List Turn → TxTask → Prop
  | [], z => z = x
  | t :: ts, z => (∀ op, .start op ∉ t.during) ∧ gap ≤ t.delay ∧
    ∃ y y', x.run n (.start t.call :: t.during) = .ok y ∧ y.phase = .idle ∧
      y.run n (List.replicate t.delay .transmit) = .ok y' ∧ Turns n gap y' ts z

/-- The decoder counts `t` ticks for an interval.  The clocks of the two boards differ by at most one part in
53 and the edges come within three ticks. -/
def Clocked (ds : List Nat) (t : Nat) : Prop :=
  52 * t ≤ 53 * stmTicks ds + 3 * 52 ∧ 52 * stmTicks ds ≤ 53 * t + 3 * 52

/-- The same for all intervals. -/
def AllClocked : List (List Nat) → List Nat → Prop
  | [], [] => True
  | g :: gs, t :: ts => Clocked g t ∧ AllClocked gs ts
  | _, _ => False

/-- The same for all intervals but the first one, which began before the signal did. -/
def Counted : List (List Nat) → List Nat → Prop
  | [], [] => True
  | _ :: gs, _ :: ts => AllClocked gs ts
  | _, _ => False

/-- The least time in µs an interval may take by the clock of the decoder: its ticks have 65 cycles, a µs has
64, and the clock of the station may be one part in 53 faster. -/
def stmMicros (ds : List Nat) : Nat := 52 * (65 * stmTicks ds) / (53 * 64)

/-- The command of the `i`-th turn. -/
def stmCommand (i : Nat) : Command :=
  ⟨{ value := 3#16, type := .short },
    match i % 4 with
    | 0 => .advancedSpeed 0xAA#8
    | 1 => .f4f0 0x08#8
    | 2 => .advancedSpeed 0x80#8
    | _ => .f4f0 0x00#8⟩

/-- The answer to a request for a byte: a byte is verified if the array holds it, and written if the CV is in the
array.  CVs outside of it read and write as 0. -/
def stmAnswers (cvs : List Byte) : Kind → Nat → Byte → Bool
  | .verify, cv, b => cvs.getD cv 0#8 = b
  | .write, cv, b => cv < cvs.length ∨ b = 0#8

instance (ds : List Nat) (t : Nat) : Decidable (Clocked ds t) := by unfold Clocked; exact inferInstance

instance AllClocked.decide : ∀ (gs : List (List Nat)) (ts : List Nat), Decidable (AllClocked gs ts)
  | [], [] => .isTrue trivial
  | g :: gs, t :: ts => by
    have := AllClocked.decide gs ts
    unfold AllClocked
    exact inferInstance
  | [], _ :: _ => .isFalse id
  | _ :: _, [] => .isFalse id

instance : ∀ (gs : List (List Nat)) (ts : List Nat), Decidable (Counted gs ts)
  | [], [] => .isTrue trivial
  | _ :: gs, _ :: ts => AllClocked.decide gs ts
  | [], _ :: _ => .isFalse id
  | _ :: _, [] => .isFalse id

end Dcc.Spec
