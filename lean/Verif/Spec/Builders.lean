import Verif.Model.Utility
/-!
Specification of the packet builders: every call a user can make, the payload length RCN-212/214/
216/218 prescribes for it and the instruction class it belongs to.
-/
namespace Dcc.Spec

/-- The calls of addressed packet builders (`make_*_packet(Address, ...)`). -/
inductive AddressedCall where
  | speedDirFunctions (rggggggg f7_f0 : Byte) (fs : List Byte)
  | advancedSpeed (rggggggg : Byte)
  | speedAndDirection (rggggg : Byte)
  | f4f0 (state : Byte)
  | f8f5 (state : Byte)
  | f12f9 (state : Byte)
  | f20f13 (state : Byte)
  | f28f21 (state : Byte)
  | binaryStateShort (dlllllll : Byte)
  | binaryStateLong (dlllllll hhhhhhhh : Byte)
  | cvVerify (cv : BitVec 32) (byte : Byte)
  | cvWrite (cv : BitVec 32) (byte : Byte)
  | cvVerifyBit (cv : BitVec 32) (bit : Bool) (pos : BitVec 32)
  | cvWriteBit (cv : BitVec 32) (bit : Bool) (pos : BitVec 32)

/-- The packet the library makes for a call. -/
def AddressedCall.run (a : Address) : AddressedCall → R Packet
  | speedDirFunctions r f fs => makeSpeedDirFunctionsPacket a r f fs
  | advancedSpeed r => makeAdvancedSpeedPacket a r
  | speedAndDirection r => makeSpeedAndDirectionPacket a r
  | f4f0 s => makeF4F0Packet a s
  | f8f5 s => makeF8F5Packet a s
  | f12f9 s => makeF12F9Packet a s
  | f20f13 s => makeF20F13Packet a s
  | f28f21 s => makeF28F21Packet a s
  | binaryStateShort d => makeBinaryStateShortPacket a d
  | binaryStateLong d h => makeBinaryStateLongPacket a d h
  | cvVerify cv b => makeCvVerifyPacket a cv b
  | cvWrite cv b => makeCvWritePacket a cv b
  | cvVerifyBit cv b pos => makeCvVerifyBitPacket a cv b pos
  | cvWriteBit cv b pos => makeCvWriteBitPacket a cv b pos

/-- Number of bytes between address and checksum. -/
def AddressedCall.payloadLength : AddressedCall → Nat
  | speedDirFunctions _ _ fs => 3 + fs.length
  | advancedSpeed _ => 2
  | speedAndDirection _ => 1
  | f4f0 _ | f8f5 _ | f12f9 _ => 1
  | f20f13 _ | f28f21 _ => 2
  | binaryStateShort _ => 2
  | binaryStateLong _ _ => 3
  | cvVerify _ _ | cvWrite _ _ | cvVerifyBit _ _ _ | cvWriteBit _ _ _ => 3

/-- Instruction class of a call. -/
def AddressedCall.class : AddressedCall → Instruction
  | speedDirFunctions _ _ _ => .advancedOperations
  | advancedSpeed _ => .advancedOperations
  | speedAndDirection _ => .speedDirection
  | f4f0 _ | f8f5 _ | f12f9 _ => .functionGroup
  | f20f13 _ | f28f21 _ => .featureExpansion
  | binaryStateShort _ | binaryStateLong _ _ => .featureExpansion
  | cvVerify _ _ | cvWrite _ _ | cvVerifyBit _ _ _ | cvWriteBit _ _ _ => .cvLong

/-- The arguments are in their documented range: the speed byte of `make_speed_and_direction_packet`
has six bits (`rggggg`), and at most three further function groups (F15-F8, F23-F16, F31-F24) follow
F7-F0. -/
def AddressedCall.InRange : AddressedCall → Prop
  | speedAndDirection r => r.toNat < 64
  | speedDirFunctions _ _ fs => fs.length ≤ 3
  | _ => True

/-- The calls of builders without an address argument. -/
inductive PlainCall where
  | idle
  | reset
  | cvVerifyService (cv : BitVec 32) (byte : Byte)
  | cvWriteService (cv : BitVec 32) (byte : Byte)
  | cvVerifyBitService (cv : BitVec 32) (bit : Bool) (pos : BitVec 32)
  | cvWriteBitService (cv : BitVec 32) (bit : Bool) (pos : BitVec 32)
  | logonEnable (gg : AddressGroup) (cid : BitVec 16) (sessionId : Byte)
  | logonSelect (mid : BitVec 16) (did : BitVec 32) (subcommand : Byte)
  | logonAssign (mid : BitVec 16) (did : BitVec 32) (addr : BitVec 16)

/-- The packet the library makes for a call. -/
def PlainCall.run : PlainCall → R Packet
  | idle => .ok makeIdlePacket
  | reset => .ok makeResetPacket
  | cvVerifyService cv b => makeCvVerifyServicePacket cv b
  | cvWriteService cv b => makeCvWriteServicePacket cv b
  | cvVerifyBitService cv b pos => makeCvVerifyBitServicePacket cv b pos
  | cvWriteBitService cv b pos => makeCvWriteBitServicePacket cv b pos
  | logonEnable gg cid s => makeLogonEnablePacket gg cid s
  | logonSelect m d s => makeLogonSelectPacket m d s
  | logonAssign m d a => makeLogonAssignPacket m d a

/-- Packet length including the checksum. -/
def PlainCall.length : PlainCall → Nat
  | idle | reset => 3
  | cvVerifyService _ _ | cvWriteService _ _ => 4
  | cvVerifyBitService _ _ _ | cvWriteBitService _ _ _ => 4
  | logonEnable _ _ _ => 6
  | logonSelect _ _ _ => 10
  | logonAssign _ _ _ => 11

/-- Address types `encode_address` writes bytes for. -/
def WritableType (t : AddrType) : Prop :=
  t = .broadcast ∨ t = .short ∨ t = .long ∨ t = .dataTransfer ∨ t = .automaticLogon ∨ t = .idleSystem

end Dcc.Spec
