import Verif.Model.Repl
import Verif.Spec.Polling
import Verif.Spec.Memory
import Verif.Spec.Cv
/-! What a user of the example program asks for. -/
namespace Dcc.Spec

/-- A locomotive address as the user enters it. -/
def locoAddress (a : BitVec 16) : Address :=
  if a.toNat = 0 then { value := 0#16, type := .broadcast }
  else if a.toNat ≤ 127 then { value := a, type := .short }
  else { value := a, type := .long }

/-- The driving commands entered, `a` is the address at the beginning. -/
def entered (a : BitVec 16) : List ReplStep → List Command
  | [] => []
  | .input (.address a) :: xs => entered a xs
  | .input (.directionSpeed dir speed) :: xs =>
    ⟨locoAddress a, .advancedSpeed (BitVec.ofNat 8 ((if dir then 128 else 0) + speed.toNat))⟩ :: entered a xs
  | .input (.f4f0 state) :: xs => ⟨locoAddress a, .f4f0 state⟩ :: entered a xs
  | .input (.f8f5 state) :: xs => ⟨locoAddress a, .f8f5 state⟩ :: entered a xs
  | _ :: xs => entered a xs

/-- The CV access a user asks for and how many packets it takes: reading verifies the value 0. -/
def asksFor : ReplInput → Option (Kind × Access × Nat)
  | .readCvByte cv => some (.verify, .byte cv.toNat 0#8, 1)
  | .writeCvByte cv byte => some (.write, .byte cv.toNat byte, 2)
  | .readCvBit cv bit pos => some (.verify, .bit cv.toNat bit pos.toNat, 1)
  | .writeCvBit cv bit pos => some (.write, .bit cv.toNat bit pos.toNat, 2)
  | _ => none

/-- Driving only, with short addresses and speeds in the range shown by the prompt. -/
def DrivesShort : ReplStep → Prop
  | .input (.address a) => a.toNat ≤ 127
  | .input (.directionSpeed _ speed) => speed.toNat ≤ 127
  | .input (.f4f0 _) | .input (.f8f5 _) | .station _ | .execute .. => True
  | _ => False

/-- The decoder's thread calls `execute` at least once while the station's thread goes round 20 times
(they sleep for 5 ms and 1 ms); `k` rounds have passed. -/
def Paced : Nat → List ReplStep → Prop
  | _, [] => True
  | k, .station _ :: xs => k < 20 ∧ Paced (k + 1) xs
  | _, .execute .. :: xs => Paced 0 xs
  | k, _ :: xs => Paced k xs

/-- The user waits: no more than three commands are in the FIFO and in the station's queue. -/
def Patient : ReplLine → List ReplStep → Prop
  | _, [] => True
  | l, .input i :: xs => ∀ l', l.input i = .ok l' →
    l'.fifo.length + l'.tx.s.size replDeque ≤ 3 ∧ Patient l' xs
  | l, .station _ :: xs => ∀ l1 d l2, l.transmit = .ok (l1, d) → l1.feed = .ok l2 → Patient l2 xs
  | l, _ :: xs => Patient l xs

instance Paced.decide : ∀ (xs : List ReplStep) (k : Nat), Decidable (Paced k xs)
  | [], _ => .isTrue trivial
  | x :: xs, k => by
    have := Paced.decide xs
    cases x <;> (unfold Paced; exact inferInstance)

/-- `Patient` as a test. -/
def patient : ReplLine → List ReplStep → Bool
  | _, [] => true
  | l, .input i :: xs =>
    match l.input i with
    | .ok l' => decide (l'.fifo.length + l'.tx.s.size replDeque ≤ 3) && patient l' xs
    | .error _ => true
  | l, .station _ :: xs =>
    match l.transmit with
    | .ok (l1, _) =>
      match l1.feed with
      | .ok l2 => patient l2 xs
      | .error _ => true
    | .error _ => true
  | l, _ :: xs => patient l xs

theorem patient_spec : ∀ (xs : List ReplStep) (l : ReplLine), patient l xs = true → Patient l xs
  | [], _, _ => trivial
  | .input i :: xs, l, h => by
    intro l' hl
    rw [patient, hl] at h
    simp only [Bool.and_eq_true, decide_eq_true_eq] at h
    exact ⟨h.1, patient_spec xs l' h.2⟩
  | .station _ :: xs, l, h => by
    intro l1 d l2 h1 h2
    rw [patient, h1] at h
    simp only [h2] at h
    exact patient_spec xs l2 h
  | .decoder :: xs, l, h => patient_spec xs l h
  | .execute .. :: xs, l, h => patient_spec xs l h

/-- The CVs of the example decoder (examples/repl/src/decoder.cpp:9-13). -/
def replCvs (cv : BitVec 32) : Byte :=
  if cv = 28#32 then 2#8 else if cv = 0#32 then 3#8 else if cv = 7#32 then 0x0D#8 else 0#8

/-- The example decoder (examples/repl/src/decoder.cpp). -/
def replEnv : Env := memEnv replCvs

end Dcc.Spec
