import Verif.Model.TxPreempt
import Verif.Spec.Tx
/-! Calls of the transmitter in the thread while `transmit` is called in interrupts. -/
namespace Dcc.Spec

/-- The call the thread makes in a step: it makes one only if the one before has returned. -/
def madeNow (x : TxTask) : TxBeat → List TxOp
  | .start op => if x.phase = .idle then [op] else []
  | _ => []

/-- The calls the thread makes. -/
def made (n : Nat) (x : TxTask) : List TxBeat → List TxOp
  | [] => []
  | b :: bs =>
    madeNow x b ++
    match x.step n b with
    | .ok x => made n x bs
    | .error _ => []

/-- The packets handed over. -/
def handed (ops : List TxOp) : List (List Byte) :=
  ops.filterMap fun op => match op with
    | .bytes bs => some bs
    | _ => none

/-- The configurations. -/
def configs (ops : List TxOp) : List TxConfig :=
  ops.filterMap fun op => match op with
    | .init c => some c
    | _ => none

/-- Each member of the configuration `c` is that of one of `cs`. -/
def Mixed (cs : List TxConfig) (c : TxConfig) : Prop :=
  (∃ d ∈ cs, c.numPreamble = d.numPreamble) ∧ (∃ d ∈ cs, c.bit1 = d.bit1) ∧ (∃ d ∈ cs, c.bit0 = d.bit0) ∧
    (∃ d ∈ cs, c.invert = d.invert) ∧ ∃ d ∈ cs, c.bidi = d.bidi

end Dcc.Spec
