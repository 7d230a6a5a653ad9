import Verif.Model.Address
import Verif.Model.Checksum
import Verif.Model.Instruction
/-!
Model of include/dcc/utility.hpp.
-/
namespace Dcc

/-- `data2uint16` (include/dcc/utility.hpp:30-32); the pointer is the list of readable bytes. -/
def data2uint16 (d : List Byte) : R (BitVec 16) := do
  let b0 ← byteAt d 0
  let b1 ← byteAt d 1
  return (b0.setWidth 16 <<< 8) ||| b1.setWidth 16

/-- `data2uint32` (include/dcc/utility.hpp:38-41). -/
def data2uint32 (d : List Byte) : R (BitVec 32) := do
  let b0 ← byteAt d 0
  let b1 ← byteAt d 1
  let b2 ← byteAt d 2
  let b3 ← byteAt d 3
  return (b0.setWidth 32 <<< 24) ||| (b1.setWidth 32 <<< 16) ||| (b2.setWidth 32 <<< 8) |||
    b3.setWidth 32

/-- `uint16_2data` (include/dcc/utility.hpp:48-52): the bytes written. -/
def uint16ToData (w : BitVec 16) : List Byte :=
  [((w &&& 0xFF00#16) >>> 8).setWidth 8, (w &&& 0x00FF#16).setWidth 8]

/-- `uint32_2data` (include/dcc/utility.hpp:59-65): the bytes written. -/
def uint32ToData (w : BitVec 32) : List Byte :=
  [((w &&& 0xFF000000#32) >>> 24).setWidth 8, ((w &&& 0x00FF0000#32) >>> 16).setWidth 8,
   ((w &&& 0x0000FF00#32) >>> 8).setWidth 8, (w &&& 0x000000FF#32).setWidth 8]

/-- `ztl::lerp<int32_t>` (external, used in include/dcc/utility.hpp:79-84).  Assumed to be
`y0 + (x - x0) * (y1 - y0) / (x1 - x0)` with C++ integer division. -/
def lerp (x x0 x1 y0 y1 : Int) : Int := y0 + Int.tdiv ((x - x0) * (y1 - y0)) (x1 - x0)

/-- The three scales `scale_speed` accepts (include/dcc/utility.hpp:74). -/
inductive Scale where
  | s14 | s28 | s126
  deriving DecidableEq, Repr

/-- The template argument of `scale_speed` (include/dcc/utility.hpp:72-74). -/
def Scale.steps : Scale → Nat
  | .s14 => 14
  | .s28 => 28
  | .s126 => 126

/-- `scale_speed<Scale>` (include/dcc/utility.hpp:72-85). -/
def scaleSpeed (sc : Scale) (speed : Int) : Int :=
  let max : Int := 255
  let min : Int := lerp 1 0 126 0 max
  if speed = 0 then 0
  else if speed = 1 then min
  else match sc with
    | .s14 => lerp speed 1 14 min max
    | .s28 => lerp speed 1 28 min max
    | .s126 => lerp speed 0 126 0 max

/-- The value_type overloads: `{addr, addr <= 127u ? Address::Short : Address::Long}`
(include/dcc/utility.hpp:134 and the same expression in every other overload). -/
def addressOfValue (v : BitVec 16) : Address :=
  { value := v, type := if v ≤ 127#16 then .short else .long }

/-- The common tail of all builders, `*last = exor({first, last}); packet.resize(...)`
(include/dcc/utility.hpp:116-118).  Writing more than the capacity of a packet is a fault. -/
def finish (bs : List Byte) : R Packet :=
  if bs.length + 1 ≤ maxPacketSize then .ok (bs ++ [exor bs]) else .error .overflow

/-- The common frame of the addressed builders: address, payload, checksum
(include/dcc/utility.hpp:109-118). -/
def addressed (a : Address) (payload : List Byte) : R Packet := do
  finish ((← encodeAddress a) ++ payload)

/-- `make_idle_packet` (include/dcc/utility.hpp:90). -/
def makeIdlePacket : Packet := [0xFF#8, 0x00#8, 0xFF#8]

/-- `make_reset_packet` (include/dcc/utility.hpp:95). -/
def makeResetPacket : Packet := [0x00#8, 0x00#8, 0x00#8]

/-- `make_advanced_operations_speed_direction_and_functions_packet`
(include/dcc/utility.hpp:104-119); `fs` is the variadic part. -/
def makeSpeedDirFunctionsPacket (a : Address) (rggggggg f7_f0 : Byte) (fs : List Byte) : R Packet :=
  addressed a ([0x3C#8, rggggggg, f7_f0] ++ fs)

/-- `make_advanced_operations_speed_packet` (include/dcc/utility.hpp:145-155). -/
def makeAdvancedSpeedPacket (a : Address) (rggggggg : Byte) : R Packet :=
  addressed a [0x3F#8, rggggggg]

/-- `make_advanced_operations_restricted_speed_packet` (include/dcc/utility.hpp:169-179): a todo
in the code, the packet is empty. -/
def makeRestrictedSpeedPacket (_ : Address) : Packet := []

/-- `make_advanced_operations_analog_function_group_packet` (include/dcc/utility.hpp:182-192): a
todo in the code, the packet is empty. -/
def makeAnalogFunctionGroupPacket (_ : Address) : Packet := []

/-- `make_speed_and_direction_packet` (include/dcc/utility.hpp:199-207). -/
def makeSpeedAndDirectionPacket (a : Address) (rggggg : Byte) : R Packet :=
  addressed a [0x40#8 ||| rggggg]

/-- `make_function_group_f4_f0_packet` (include/dcc/utility.hpp:225-234). -/
def makeF4F0Packet (a : Address) (state : Byte) : R Packet :=
  addressed a [0x80#8 ||| ((state &&& 0x01#8) <<< 4) ||| ((state &&& 0x1F#8) >>> 1)]

/-- `make_function_group_f8_f5_packet` (include/dcc/utility.hpp:252-260). -/
def makeF8F5Packet (a : Address) (state : Byte) : R Packet :=
  addressed a [0xB0#8 ||| (state &&& 0x0F#8)]

/-- `make_function_group_f12_f9_packet` (include/dcc/utility.hpp:278-286). -/
def makeF12F9Packet (a : Address) (state : Byte) : R Packet :=
  addressed a [0xA0#8 ||| (state &&& 0x0F#8)]

/-- `make_feature_expansion_f20_f13_packet` (include/dcc/utility.hpp:304-314). -/
def makeF20F13Packet (a : Address) (state : Byte) : R Packet :=
  addressed a [0xDE#8, state]

/-- `make_feature_expansion_f28_f21_packet` (include/dcc/utility.hpp:332-342). -/
def makeF28F21Packet (a : Address) (state : Byte) : R Packet :=
  addressed a [0xDF#8, state]

/-- `make_binary_state_short_packet` (include/dcc/utility.hpp:360-369). -/
def makeBinaryStateShortPacket (a : Address) (dlllllll : Byte) : R Packet :=
  addressed a [0xDD#8, dlllllll]

/-- `make_binary_state_long_packet` (include/dcc/utility.hpp:388-400). -/
def makeBinaryStateLongPacket (a : Address) (dlllllll hhhhhhhh : Byte) : R Packet :=
  addressed a [0xC0#8, dlllllll, hhhhhhhh]

/-- The first instruction byte of the long CV access builders,
`base | (cv_addr & 0x3FFu) >> 8u` (include/dcc/utility.hpp:427 and others). -/
def cvHigh (base : Byte) (cv : BitVec 32) : Byte := base ||| ((cv &&& 0x3FF#32) >>> 8).setWidth 8

/-- The third instruction byte of the bit manipulation builders
(include/dcc/utility.hpp:496-497, 534-535). -/
def cvBitByte (base : Byte) (bit : Bool) (pos : BitVec 32) : Byte :=
  base ||| (BitVec.ofBool bit).setWidth 8 <<< 3 ||| (pos &&& 7#32).setWidth 8

/-- `make_cv_access_long_verify_packet`, byte (include/dcc/utility.hpp:421-433). -/
def makeCvVerifyPacket (a : Address) (cv : BitVec 32) (byte : Byte) : R Packet :=
  addressed a [cvHigh 0xE4#8 cv, cv.setWidth 8, byte]

/-- `make_cv_access_long_write_packet`, byte (include/dcc/utility.hpp:454-465). -/
def makeCvWritePacket (a : Address) (cv : BitVec 32) (byte : Byte) : R Packet :=
  addressed a [cvHigh 0xEC#8 cv, cv.setWidth 8, byte]

/-- `make_cv_access_long_verify_packet`, bit (include/dcc/utility.hpp:487-501). -/
def makeCvVerifyBitPacket (a : Address) (cv : BitVec 32) (bit : Bool) (pos : BitVec 32) :
    R Packet :=
  addressed a [cvHigh 0xE8#8 cv, cv.setWidth 8, cvBitByte 0xE0#8 bit pos]

/-- `make_cv_access_long_write_packet`, bit (include/dcc/utility.hpp:525-539). -/
def makeCvWriteBitPacket (a : Address) (cv : BitVec 32) (bit : Bool) (pos : BitVec 32) : R Packet :=
  addressed a [cvHigh 0xE8#8 cv, cv.setWidth 8, cvBitByte 0xF0#8 bit pos]

/-- `make_cv_access_long_verify_service_packet`, byte (include/dcc/utility.hpp:561-572). -/
def makeCvVerifyServicePacket (cv : BitVec 32) (byte : Byte) : R Packet :=
  finish [cvHigh 0x74#8 cv, cv.setWidth 8, byte]

/-- `make_cv_access_long_write_service_packet`, byte (include/dcc/utility.hpp:579-590). -/
def makeCvWriteServicePacket (cv : BitVec 32) (byte : Byte) : R Packet :=
  finish [cvHigh 0x7C#8 cv, cv.setWidth 8, byte]

/-- `make_cv_access_long_verify_service_packet`, bit (include/dcc/utility.hpp:598-611). -/
def makeCvVerifyBitServicePacket (cv : BitVec 32) (bit : Bool) (pos : BitVec 32) : R Packet :=
  finish [cvHigh 0x78#8 cv, cv.setWidth 8, cvBitByte 0xE0#8 bit pos]

/-- `make_cv_access_long_write_service_packet`, bit (include/dcc/utility.hpp:619-632). -/
def makeCvWriteBitServicePacket (cv : BitVec 32) (bit : Bool) (pos : BitVec 32) : R Packet :=
  finish [cvHigh 0x78#8 cv, cv.setWidth 8, cvBitByte 0xF0#8 bit pos]

/-- `enum class AddressGroup` (include/dcc/address_group.hpp:18-23). -/
inductive AddressGroup where
  | all | loco | acc | now
  deriving DecidableEq, Repr

/-- `std::to_underlying(AddressGroup)` (include/dcc/address_group.hpp:18-23). -/
def AddressGroup.toByte : AddressGroup → Byte
  | .all => 0#8
  | .loco => 1#8
  | .acc => 2#8
  | .now => 3#8

/-- `static_cast<AddressGroup>(byte & 0b11u)` (include/dcc/rx/crtp_base.hpp:415). -/
def AddressGroup.ofByte (b : Byte) : AddressGroup :=
  let n := b &&& 3#8
  if n = 0#8 then .all else if n = 1#8 then .loco else if n = 2#8 then .acc else .now

/-- `make_logon_enable_packet` (include/dcc/utility.hpp:640-651). -/
def makeLogonEnablePacket (gg : AddressGroup) (cid : BitVec 16) (sessionId : Byte) : R Packet :=
  finish ([254#8, 0xFC#8 ||| gg.toByte] ++ uint16ToData cid ++ [sessionId])

/-- `make_logon_select_packet` (include/dcc/utility.hpp:658-673). -/
def makeLogonSelectPacket (mid : BitVec 16) (did : BitVec 32) (subcommand : Byte) : R Packet :=
  let bs := [254#8, 0xD0#8 ||| (mid >>> 8).setWidth 8, mid.setWidth 8] ++ uint32ToData did ++
    [subcommand]
  finish (bs ++ [crc8 bs])

/-- `make_logon_assign_packet` (include/dcc/utility.hpp:681-696). -/
def makeLogonAssignPacket (mid : BitVec 16) (did : BitVec 32) (addr : BitVec 16) : R Packet :=
  let bs := [254#8, 0xE0#8 ||| (mid >>> 8).setWidth 8, mid.setWidth 8] ++ uint32ToData did ++
    uint16ToData addr
  finish (bs ++ [crc8 bs])

end Dcc
