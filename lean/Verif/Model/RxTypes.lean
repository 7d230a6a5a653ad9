import Verif.Model.Address
import Verif.Model.Backoff
import Verif.Model.Datagram
import Verif.Model.RxTiming
/-!
State of the receiver, include/dcc/rx/crtp_base.hpp:1199-1257, and the interface to the user's
class (the concept `Decoder`, include/dcc/rx/decoder.hpp).
-/
namespace Dcc

/-- A call of a method of the user's class (include/dcc/rx/decoder.hpp:19-35,
include/dcc/rx/readable.hpp:17-22, include/dcc/rx/writable.hpp:17-21,
include/dcc/rx/async_readable.hpp, async_writable.hpp, east_west.hpp, high_current.hpp).  Calls that
return something carry the returned value as last argument. -/
inductive Event where
  | direction (addr : BitVec 16) (dir : Bool)
  | speed (addr : BitVec 16) (speed : Int)
  | function (addr : BitVec 16) (mask state : BitVec 32)
  | serviceModeHook (enter : Bool)
  | serviceAck
  | transmitBiDi (bytes : List Byte)
  | readCv (cv : BitVec 32) (result : Byte)
  | readCvByte (cv : BitVec 32) (byte result : Byte)
  | readCvBit (cv : BitVec 32) (bit : Bool) (pos : BitVec 32) (result : Bool)
  | writeCvByte (cv : BitVec 32) (byte result : Byte)
  | writeCvBit (cv : BitVec 32) (bit : Bool) (pos : BitVec 32) (result : Bool)
  | asyncReadCvByte (cv : BitVec 32) (byte : Byte)
  | asyncReadCvBit (cv : BitVec 32) (bit : Bool) (pos : BitVec 32)
  | asyncWriteCvByte (cv : BitVec 32) (byte : Byte)
  | asyncWriteCvBit (cv : BitVec 32) (bit : Bool) (pos : BitVec 32)
  | eastWestDirection (addr : BitVec 16) (dir : Option Bool)
  | highCurrentBiDi (highCurrent : Bool)
  deriving DecidableEq, Repr

/-- The user's class and the build configuration.  What a method returns may depend on all calls
made before, so every deterministic user class is covered.  The flags tell which of the optional
concepts the class satisfies (include/dcc/rx/crtp_base.hpp:91, 481, 735, 749, 782, 796).
`rxDeque` is DCC_RX_DEQUE_SIZE, `bidiDeque` DCC_RX_BIDI_DEQUE_SIZE, `manufacturerId`
DCC_MANUFACTURER_ID (CMakeLists.txt:28-54). -/
structure Env where
  rxDeque : Nat := 31
  bidiDeque : Nat := 7
  manufacturerId : Byte := 145#8
  highCurrent : Bool := false
  eastWest : Bool := false
  asyncReadable : Bool := false
  asyncWritable : Bool := false
  readCv : List Event → BitVec 32 → Byte
  readCvByte : List Event → BitVec 32 → Byte → Byte
  readCvBit : List Event → BitVec 32 → Bool → BitVec 32 → Bool
  writeCvByte : List Event → BitVec 32 → Byte → Byte
  writeCvBit : List Event → BitVec 32 → Bool → BitVec 32 → Bool

/-- `enum State` (include/dcc/rx/crtp_base.hpp:1221). -/
inductive LinkState where
  | preamble | startbit | data | endbit
  deriving DecidableEq, Repr

/-- `enum Mode` (include/dcc/rx/crtp_base.hpp:1222). -/
inductive Mode where
  | operations | service
  deriving DecidableEq, Repr

/-- The members only `receive`, `reset` and the constructor write
(include/dcc/rx/crtp_base.hpp:1208, 1213, 1217, 1218, 1221, 1243, 1244). -/
structure Link where
  state : LinkState := .preamble
  bitCount : Nat := 0
  byte : Byte := 0#8
  checksum : Byte := 0#8
  isHalfbit : Bool := false
  packetEnd : Bool := false
  packet : Packet := []
  deriving DecidableEq, Repr

/-- The members `init` derives from the CVs besides the addresses and the logon IDs
(include/dcc/rx/crtp_base.hpp:1228, 1245-1248, 1254, 1255). -/
structure Cfg where
  ch1AddrEnabled : Bool := false
  ch2DataEnabled : Bool := false
  ch2ConsistEnabled : Bool := false
  logonEnabled : Bool := false
  cvsLocked : Bool := false
  f0Exception : Bool := false
  did : List Byte := [0#8, 0#8, 0#8, 0#8]
  deriving DecidableEq, Repr

/-- The members of the automatic logon (include/dcc/rx/crtp_base.hpp:1234, 1237, 1238, 1249-1251).
`_cids` and `_session_ids` have a front (stored) and a back (received). -/
structure Logon where
  selected : Bool := false
  assigned : Bool := false
  store : Bool := false
  cidFront : BitVec 16 := 0
  cidBack : BitVec 16 := 0
  sessionFront : Byte := 0#8
  sessionBack : Byte := 0#8
  backoff : Backoff := {}
  deriving DecidableEq, Repr

/-- The deques with BiDi datagrams, already encoded (include/dcc/rx/crtp_base.hpp:1201-1206, 1257).
The channel buffers `_ch1` and `_ch2` are only scratch memory between filling and
`transmitBiDi` and are not part of the state. -/
structure Queues where
  dyn : List (List Byte) := []
  logon : List (List Byte) := []
  tos : List (List Byte) := []
  adr : List (List Byte) := []
  pom : List (List Byte) := []
  blockDyn : Bool := false
  deriving DecidableEq, Repr

/-- A callback handed to an asynchronous user class (include/dcc/rx/crtp_base.hpp:731-734, 745-748,
778-781, 792-795).  The user may keep it and call it at any time. -/
inductive Callback where
  | byte (byte : Byte)
  | bit (bit : Bool)
  deriving DecidableEq, Repr

/-- `struct CrtpBase` (include/dcc/rx/crtp_base.hpp:1199-1258), the calls made to the user's class
so far (oldest first) and the callbacks it holds.  Simplification: `size_t` counters are unbounded;
time points are nanoseconds. -/
structure Rx where
  link : Link := {}
  deque : List Packet := []
  lastOwnCvPacket : Packet := []
  ownEqualCvPackets : Nat := 0
  addrs : Addresses := {}
  cfg : Cfg := {}
  logon : Logon := {}
  q : Queues := {}
  packetCount : Nat := 0
  preambleCount : Nat := 0
  indexReg : Byte := 1#8
  mode : Mode := .operations
  lastPacketTp : Int := 0
  tosTp : Int := 0
  tosBackoff : Backoff := {}
  qos : Byte := 0#8
  enabled : Bool := false
  man : Bool := false
  trace : List Event := []
  callbacks : List Callback := []
  deriving DecidableEq, Repr

/-- Record a call of a user method that returns nothing. -/
def Rx.emit (s : Rx) (ev : Event) : Rx := { s with trace := s.trace ++ [ev] }

/-- `serviceMode() const` (include/dcc/rx/crtp_base.hpp:187). -/
def Rx.serviceMode (s : Rx) : Bool := s.mode = .service

/-- `packetEnd() const` (include/dcc/rx/crtp_base.hpp:199). -/
def Rx.packetEnd (s : Rx) : Bool := s.link.packetEnd

/-- `push_back` on a deque of the given capacity; more elements than that are a fault. -/
def pushBack (cap : Nat) (q : List α) (a : α) : R (List α) :=
  if q.length < cap then .ok (q ++ [a]) else .error .overflow

end Dcc
