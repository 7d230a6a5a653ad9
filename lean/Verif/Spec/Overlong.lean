import Verif.Spec.Deframe
/-! Signals with more bytes in a row than a packet may have. -/
namespace Dcc.Spec

/-- Behind a start bit: the separators behind eighteen bytes are zeros, and the bits of another byte
follow.  `k` is how many bytes there were before. -/
def TooLong (k : Nat) (h : List Bool) : Prop :=
  18 * (18 - k) + 16 ≤ h.length ∧ ∀ i < 18 - k, h[18 * i + 17]? = some false

/-- As in `deframe`, there is a preamble with `n` half bits counted before, a start bit and too many bytes. -/
def Overlong (n : Nat) : List Bool → Prop
  | [] => False
  | true :: t => Overlong (n + 1) t
  | false :: t =>
    if n < 20 then Overlong 0 t
    else
      TooLong 0 t.tail ∨
        match _hf : frame t.tail with
        | none => False
        | some (_, t') => Overlong 0 t'
termination_by h => h.length
decreasing_by
  all_goals simp only [List.length_cons]
  · omega
  · omega
  · have := frame_length _hf
    simp only [List.length_tail] at this
    omega

end Dcc.Spec
