import Verif.Spec.Rx
/-! The packets in a sequence of durations. -/
namespace Dcc.Spec

/-- The half bits among the durations, true for a one. -/
def halves (ts : List Nat) : List Bool :=
  ts.filterMap fun t =>
    if 52 ≤ t ∧ t ≤ 64 then some true else if 90 ≤ t ∧ t ≤ 10000 then some false else none

/-- The second half of each bit. -/
def secondHalves : List Bool → List Bool
  | _ :: b :: t => b :: secondHalves t
  | _ => []

/-- A byte from its bits, most significant first. -/
def wholeByte (bs : List Bool) : Byte :=
  BitVec.ofNat 8 (bs.foldl (fun n b => 2 * n + b.toNat) 0)

/-- The bytes up to the end bit and the half bits behind it. -/
def frame (h : List Bool) : Option (List Byte × List Bool) :=
  if h.length < 18 then none
  else
    let bits := secondHalves (h.take 18)
    let byte := wholeByte (bits.take 8)
    if bits.getLast? = some true then some ([byte], h.drop 18)
    else (frame (h.drop 18)).map fun r => (byte :: r.1, r.2)
termination_by h.length

theorem frame_length {h : List Bool} {r : List Byte × List Bool} (hf : frame h = some r) :
    r.2.length + 18 * r.1.length = h.length ∧ 0 < r.1.length := by
  induction hn : h.length using Nat.strongRecOn generalizing h r with
  | ind n ih =>
    rw [frame] at hf
    split at hf
    · cases hf
    next hl =>
      dsimp only at hf
      split at hf
      · cases hf
        simp only [List.length_drop, List.length_cons, List.length_nil]
        omega
      · simp only [Option.map_eq_some_iff] at hf
        obtain ⟨r', h1, rfl⟩ := hf
        have := ih _ (by rw [List.length_drop]; omega) h1 rfl
        simp only [List.length_drop, List.length_cons] at this ⊢
        omega

/-- The packets: at least ten ones, counted in half bits of which there were `n` before, a zero, bytes up
to an end bit.  Bytes that are less than three or have the wrong checksum are dropped. -/
def deframe (n : Nat) : List Bool → List Packet
  | [] => []
  | true :: t => deframe (n + 1) t
  | false :: t =>
    if n < 20 then deframe 0 t
    else
      match _hf : frame t.tail with
      | none => []
      | some (p, t') => (if 3 ≤ p.length ∧ exor p = 0#8 then [p] else []) ++ deframe 0 t'
termination_by h => h.length
decreasing_by
  all_goals simp only [List.length_cons]
  · omega
  · omega
  · have := frame_length _hf
    simp only [List.length_tail] at this
    omega

end Dcc.Spec
