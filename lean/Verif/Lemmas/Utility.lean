import Verif.Spec.Builders
import Verif.Spec.Codec
import Verif.Lemmas.Address
import Verif.Lemmas.Checksum
/-! Helper lemmas about the packet builders. -/
namespace Dcc

theorem byteAt_zero (b : Byte) (bs : List Byte) : byteAt (b :: bs) 0 = .ok b := rfl
theorem byteAt_succ (b : Byte) (bs : List Byte) (n : Nat) : byteAt (b :: bs) (n + 1) = byteAt bs n := by
  simp [byteAt]

theorem byteAt_of_lt (bs : List Byte) (n : Nat) (h : n < bs.length) : byteAt bs n = .ok bs[n] := by
  simp [byteAt, h]

theorem finish_ok (bs : List Byte) (h : bs.length + 1 ≤ maxPacketSize) :
    finish bs = .ok (bs ++ [exor bs]) := by simp [finish, h]

/-- The payload of an addressed call. -/
def payload : Spec.AddressedCall → List Byte
  | .speedDirFunctions r f fs => [0x3C#8, r, f] ++ fs
  | .advancedSpeed r => [0x3F#8, r]
  | .speedAndDirection r => [0x40#8 ||| r]
  | .f4f0 s => [0x80#8 ||| ((s &&& 0x01#8) <<< 4) ||| ((s &&& 0x1F#8) >>> 1)]
  | .f8f5 s => [0xB0#8 ||| (s &&& 0x0F#8)]
  | .f12f9 s => [0xA0#8 ||| (s &&& 0x0F#8)]
  | .f20f13 s => [0xDE#8, s]
  | .f28f21 s => [0xDF#8, s]
  | .binaryStateShort d => [0xDD#8, d]
  | .binaryStateLong d h => [0xC0#8, d, h]
  | .cvVerify cv b => [cvHigh 0xE4#8 cv, cv.setWidth 8, b]
  | .cvWrite cv b => [cvHigh 0xEC#8 cv, cv.setWidth 8, b]
  | .cvVerifyBit cv b pos => [cvHigh 0xE8#8 cv, cv.setWidth 8, cvBitByte 0xE0#8 b pos]
  | .cvWriteBit cv b pos => [cvHigh 0xE8#8 cv, cv.setWidth 8, cvBitByte 0xF0#8 b pos]

theorem run_eq (a : Address) (c : Spec.AddressedCall) : c.run a = addressed a (payload c) := by
  cases c <;> rfl

theorem payload_length (c : Spec.AddressedCall) : (payload c).length = c.payloadLength := by
  cases c <;> simp [payload, Spec.AddressedCall.payloadLength] <;> omega

theorem cv_class : ∀ h : Byte, h.toNat < 4 → decodeInstructionByte (0xE4#8 ||| h) = .cvLong ∧
    decodeInstructionByte (0xEC#8 ||| h) = .cvLong ∧ decodeInstructionByte (0xE8#8 ||| h) = .cvLong := by
  decide +kernel

theorem cvHigh_arg (cv : BitVec 32) : (((cv &&& 0x3FF#32) >>> 8).setWidth 8).toNat < 4 := by
  simp only [BitVec.toNat_setWidth, BitVec.toNat_ushiftRight, BitVec.toNat_and]
  have : cv.toNat &&& (0x3FF#32).toNat = cv.toNat % 2 ^ 10 := Nat.and_two_pow_sub_one_eq_mod _ 10
  rw [this, Nat.shiftRight_eq_div_pow]
  omega

/-- The first payload byte determines the class of the call. -/
theorem payload_class (c : Spec.AddressedCall) (h : c.InRange) :
    ∃ b rest, payload c = b :: rest ∧ decodeInstructionByte b = c.class := by
  have h1 : ∀ r : Byte, r.toNat < 64 → decodeInstructionByte (0x40#8 ||| r) = .speedDirection := by
    decide +kernel
  have h2 : ∀ s : Byte,
      decodeInstructionByte (0x80#8 ||| ((s &&& 0x01#8) <<< 4) ||| ((s &&& 0x1F#8) >>> 1)) =
        .functionGroup ∧ decodeInstructionByte (0xB0#8 ||| (s &&& 0x0F#8)) = .functionGroup ∧
      decodeInstructionByte (0xA0#8 ||| (s &&& 0x0F#8)) = .functionGroup := by
    decide +kernel
  cases c with
  | speedAndDirection r => exact ⟨_, _, rfl, h1 r h⟩
  | f4f0 s => exact ⟨_, _, rfl, (h2 s).1⟩
  | f8f5 s => exact ⟨_, _, rfl, (h2 s).2.1⟩
  | f12f9 s => exact ⟨_, _, rfl, (h2 s).2.2⟩
  | cvVerify cv b => exact ⟨_, _, rfl, (cv_class _ (cvHigh_arg cv)).1⟩
  | cvWrite cv b => exact ⟨_, _, rfl, (cv_class _ (cvHigh_arg cv)).2.1⟩
  | cvVerifyBit cv b p => exact ⟨_, _, rfl, (cv_class _ (cvHigh_arg cv)).2.2⟩
  | cvWriteBit cv b p => exact ⟨_, _, rfl, (cv_class _ (cvHigh_arg cv)).2.2⟩
  | _ => exact ⟨_, _, rfl, by simp only [Spec.AddressedCall.class]; decide⟩

end Dcc
