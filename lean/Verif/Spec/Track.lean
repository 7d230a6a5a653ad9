import Verif.Spec.Tx
/-! The signal on the track and what an input of a decoder sees of it. -/
namespace Dcc.Spec

/-- How the track looks to an input after a call of `transmit`: `true` if P is above N, `false` if N
is above P.  Without voltage it looks like `off`, or does not change if `off` is `none`: an input for
the polarity is `none`, one for the P wire alone `some false`, one for the N wire alone `some true`. -/
def looks (off : Option Bool) (seen : Bool) (o : TxOut) : Bool :=
  o.events.foldl (fun seen ev => match ev with
    | .trackOutputs false true => true
    | .trackOutputs true false => false
    | .trackOutputs _ _ => off.getD seen
    | _ => seen) seen

/-- The intervals between the changes an input sees, each given by the durations of the calls of
`transmit` it consists of.  `acc` is what happened since the last change.  The interval after the last
change is not over. -/
def crossings (off : Option Bool) (seen : Bool) (acc : List Nat) : List TxOut → List (List Nat)
  | [] => []
  | o :: os =>
    if looks off seen o = seen then crossings off seen (acc ++ [o.duration]) os
    else acc :: crossings off (looks off seen o) [o.duration] os

/-- A decoder measures `t` µs for an interval: if it is a single half bit, `t` is within the limits
of RCN-210 for a decoder, 52-64 µs for a one and 90-10000 µs for a zero.  For any other interval `t`
may be anything. -/
def MeasuredAs : List Nat → Nat → Prop
  | [d], t => (56 ≤ d ∧ d ≤ 60 → 52 ≤ t ∧ t ≤ 64) ∧ (97 ≤ d ∧ d ≤ 114 → 90 ≤ t ∧ t ≤ 10000)
  | _, _ => True

/-- The same for all intervals. -/
def Measured : List (List Nat) → List Nat → Prop
  | [], [] => True
  | g :: gs, t :: ts => MeasuredAs g t ∧ Measured gs ts
  | _, _ => False

/-- A duration is measured with an error of at most `err` µs. -/
def Within (err : Nat) : List (List Nat) → List Nat → Prop
  | [], [] => True
  | g :: gs, t :: ts => (g.sum ≤ t + err ∧ t ≤ g.sum + err) ∧ Within err gs ts
  | _, _ => False

instance : ∀ (g : List Nat) (t : Nat), Decidable (MeasuredAs g t)
  | [], _ => .isTrue trivial
  | [_], _ => by unfold MeasuredAs; exact inferInstance
  | _ :: _ :: _, _ => .isTrue trivial

instance Measured.decide : ∀ (gs : List (List Nat)) (ts : List Nat), Decidable (Measured gs ts)
  | [], [] => .isTrue trivial
  | _ :: gs, _ :: ts => by
    have := Measured.decide gs ts
    unfold Measured
    exact inferInstance
  | [], _ :: _ => .isFalse nofun
  | _ :: _, [] => .isFalse nofun

end Dcc.Spec
