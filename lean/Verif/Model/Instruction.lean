import Verif.Model.Basic
/-!
Model of include/dcc/instruction.hpp.
-/
namespace Dcc

/-- `enum class Instruction` (include/dcc/instruction.hpp:19-30). -/
inductive Instruction where
  | unknownService
  | decoderControl
  | consistControl
  | advancedOperations
  | speedDirection
  | functionGroup
  | featureExpansion
  | cvLong
  | cvShort
  | logon
  deriving DecidableEq, Repr

/-- `decode_instruction(InputIt)` on the byte the iterator points to
(include/dcc/instruction.hpp:38-60). -/
def decodeInstructionByte (b : Byte) : Instruction :=
  let n := b &&& 0xF0#8
  if n = 0x00#8 then .decoderControl
  else if n = 0x10#8 then .consistControl
  else if n = 0x20#8 ∨ n = 0x30#8 then .advancedOperations
  else if n = 0x40#8 ∨ n = 0x50#8 ∨ n = 0x60#8 ∨ n = 0x70#8 then .speedDirection
  else if n = 0x80#8 ∨ n = 0x90#8 ∨ n = 0xA0#8 ∨ n = 0xB0#8 then .functionGroup
  else if n = 0xC0#8 ∨ n = 0xD0#8 then .featureExpansion
  else if n = 0xE0#8 then .cvLong
  else if n = 0xF0#8 then .cvShort
  else if b = 0xFE#8 then .logon
  else .unknownService

/-- `decode_instruction(std::span)` (include/dcc/instruction.hpp:66-68). -/
def decodeInstruction (bs : List Byte) : R Instruction := do
  return decodeInstructionByte (← byteAt bs 0)

/-- `decode_instruction(Packet const&)` (include/dcc/instruction.hpp:74-77). -/
def decodeInstructionPacket (p : Packet) : R Instruction := do
  let a ← byteAt p 0
  let offset := if 128#8 ≤ a ∧ a ≤ 252#8 then 1 else 0
  return decodeInstructionByte (← byteAt p (1 + offset))

end Dcc
