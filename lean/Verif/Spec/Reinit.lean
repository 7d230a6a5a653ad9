import Verif.Spec.Tx
/-! A command station that is configured anew while it transmits. -/
namespace Dcc.Spec

/-- The call is about a cutout. -/
def isCutoutCall : TxEvent → Bool
  | .trackOutputs _ _ => false
  | _ => true

/-- The calls about cutouts, in order. -/
def cutoutCalls (outs : List TxOut) : List TxEvent := (outs.flatMap TxOut.events).filter isCutoutCall

/-- Whole cutouts one after the other, the last of which may not be over. -/
def InTurn (calls : List TxEvent) : Prop := ∃ k, calls <+: (List.replicate k cutoutEvents).flatten

/-- BiDi is never switched off between `biDiStart` and `biDiEnd`. -/
def considerate (n : Nat) (h : TxHist) : List TxOp → Prop
  | [] => True
  | op :: ops =>
    (match op with
      | .init c => c.bidi = false → (cutoutCalls h.out).length % 4 = 0
      | _ => True) ∧
    match h.step n op with
    | .ok h' => considerate n h' ops
    | .error _ => True

instance considerateDec (n : Nat) : (h : TxHist) → (ops : List TxOp) → Decidable (considerate n h ops)
  | _, [] => isTrue trivial
  | h, op :: ops => by
    unfold considerate
    refine @instDecidableAnd _ _ ?_ ?_
    · cases op <;> dsimp only <;> infer_instance
    · cases h.step n op with
      | ok h' => exact considerateDec n h' ops
      | error f => exact isTrue trivial

end Dcc.Spec
