import Verif.Model.Tx

/-!
Times in a BiDi cutout: when bytes of a decoder are on the wire and when the command station drives
the track.
-/

namespace Dcc.Spec

/-- Time of one byte in us: a start bit, eight data bits and a stop bit (RCN-217 2.4). -/
def byteTime (baud : Nat) : Nat := 10 * 1000000 / baud

/-- Time at which call number `i` of `transmit` happens, the first one being at 0. -/
def callTime (os : List TxOut) (i : Nat) : Nat := ((os.take i).map TxOut.duration).sum

/-- What the outputs N and P are after an event. -/
def outputsAfter (now : Bool × Bool) : TxEvent → Bool × Bool
  | .trackOutputs n p => (n, p)
  | _ => now

/-- What the outputs are at a time after the first of these calls, if they are `now` before it. -/
def outputsAt (now : Bool × Bool) : List TxOut → Nat → Bool × Bool
  | [], _ => now
  | o :: os, t =>
    let now := o.events.foldl outputsAfter now
    if t < o.duration then now else outputsAt now os (t - o.duration)

/-- The track is without power from `a` up to `b`, at all times at which the outputs are known. -/
def Dark (os : List TxOut) (a b : Nat) : Prop :=
  ∀ now t, a ≤ t → t < b → outputsAt now os t = (false, false)

end Dcc.Spec
