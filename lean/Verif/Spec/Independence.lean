import Verif.Spec.Config
import Verif.Spec.Programming
import Verif.Spec.Rx
/-!
Two decoders that get the same signal, but differ in everything that has to do with BiDi, the clock and
random numbers.
-/
namespace Dcc.Spec

/-- The call is not one to transmit something. -/
def Event.isVisible : Event → Bool
  | .transmitBiDi _ => false
  | _ => true

/-- The calls of the user's class except those that transmit. -/
def visible (tr : List Event) : List Event := tr.filter Event.isVisible

/-- What remains of a call without BiDi, clock and random numbers. -/
def bare : RxOp → Option RxOp
  | .datagram _ | .biDiChannel1 | .biDiChannel2 => none
  | .receive time _ => some (.receive time 0)
  | .execute _ _ => some (.execute 0 0)
  | op => some op

/-- Two user classes give the same answers as long as the calls made before are related by `ρ`, which
takes no notice of what is transmitted. -/
structure SameAnswers (e e' : Env) (ρ : List Event → List Event → Prop) : Prop where
  rxDeque : e.rxDeque = e'.rxDeque
  highCurrent : e.highCurrent = e'.highCurrent
  eastWest : e.eastWest = e'.eastWest
  asyncReadable : e.asyncReadable = e'.asyncReadable
  asyncWritable : e.asyncWritable = e'.asyncWritable
  readCv : ∀ a b cv, ρ a b → e.readCv a cv = e'.readCv b cv
  readCvByte : ∀ a b cv x, ρ a b → e.readCvByte a cv x = e'.readCvByte b cv x
  readCvBit : ∀ a b cv x p, ρ a b → e.readCvBit a cv x p = e'.readCvBit b cv x p
  writeCvByte : ∀ a b cv x, ρ a b → e.writeCvByte a cv x = e'.writeCvByte b cv x
  writeCvBit : ∀ a b cv x p, ρ a b → e.writeCvBit a cv x p = e'.writeCvBit b cv x p
  both : ∀ a b ev, ρ a b → ρ (a ++ [ev]) (b ++ [ev])
  left : ∀ a b m, ρ a b → ρ (a ++ [.transmitBiDi m]) b
  right : ∀ a b m, ρ a b → ρ a (b ++ [.transmitBiDi m])

/-- The user's class does not care about what it transmits. -/
structure Deaf (e : Env) : Prop where
  readCv : ∀ a cv, e.readCv a cv = e.readCv (visible a) cv
  readCvByte : ∀ a cv x, e.readCvByte a cv x = e.readCvByte (visible a) cv x
  readCvBit : ∀ a cv x p, e.readCvBit a cv x p = e.readCvBit (visible a) cv x p
  writeCvByte : ∀ a cv x, e.writeCvByte a cv x = e.writeCvByte (visible a) cv x
  writeCvBit : ∀ a cv x p, e.writeCvBit a cv x p = e.writeCvBit (visible a) cv x p

/-- Two decoders have the same state, apart from: what is queued for BiDi, the address received last,
counters, time points, random backoffs, the MAN bit (which nothing reads), a packet that has ended, and the CV
packet counted last if it is none of the packets `F` to come.  The callbacks the user's class holds do not count. -/
structure Similar (ρ : List Event → List Event → Prop) (F : Packet → Prop) (s t : Rx) : Prop where
  state : s.link.state = t.link.state
  bitCount : s.link.bitCount = t.link.bitCount
  byte : s.link.byte = t.link.byte
  checksum : s.link.checksum = t.link.checksum
  isHalfbit : s.link.isHalfbit = t.link.isHalfbit
  packetEnd : s.link.packetEnd = t.link.packetEnd
  packet : s.link.state = .data ∨ s.link.state = .endbit → s.link.packet = t.link.packet
  deque : s.deque = t.deque
  counted : (s.lastOwnCvPacket = t.lastOwnCvPacket ∧ s.ownEqualCvPackets = t.ownEqualCvPackets) ∨
    ∀ p, F p → p ≠ s.lastOwnCvPacket ∧ p ≠ t.lastOwnCvPacket
  primary : s.addrs.primary = t.addrs.primary
  consist : s.addrs.consist = t.addrs.consist
  assigned : s.addrs.logon = t.addrs.logon
  cfg : s.cfg = t.cfg
  logonSelected : s.logon.selected = t.logon.selected
  logonAssigned : s.logon.assigned = t.logon.assigned
  logonStore : s.logon.store = t.logon.store
  cidFront : s.logon.cidFront = t.logon.cidFront
  cidBack : s.logon.cidBack = t.logon.cidBack
  sessionFront : s.logon.sessionFront = t.logon.sessionFront
  sessionBack : s.logon.sessionBack = t.logon.sessionBack
  indexReg : s.indexReg = t.indexReg
  mode : s.mode = t.mode
  enabled : s.enabled = t.enabled
  calls : ρ s.trace t.trace

/-- The same with the same callbacks. -/
structure Alike (ρ : List Event → List Event → Prop) (F : Packet → Prop) (s t : Rx) : Prop extends
    Similar ρ F s t where
  callbacks : s.callbacks = t.callbacks

/-- A decoder that waits for a packet, outside service mode, and holds nothing that is not in its CVs `c`
apart from the CV packet counted last: no packet in the queue, page register 1, nothing of automatic
logon, and its decoder ID and the command station it knows are those in the CVs. -/
structure AtRest (c : BitVec 32 → Byte) (s : Rx) : Prop where
  state : s.link.state = .preamble
  bitCount : s.link.bitCount = 0
  byte : s.link.byte = 0#8
  checksum : s.link.checksum = 0#8
  isHalfbit : s.link.isHalfbit = false
  packetEnd : s.link.packetEnd = false
  deque : s.deque = []
  assigned : s.addrs.logon = {}
  selected : s.logon.selected = false
  logonAssigned : s.logon.assigned = false
  store : s.logon.store = false
  cidBack : s.logon.cidBack = 0#16
  sessionBack : s.logon.sessionBack = 0#8
  indexReg : s.indexReg = 1#8
  mode : s.mode = .operations
  callbacks : s.callbacks = []
  did : s.cfg.did = [c 249#32, c 250#32, c 251#32, c 252#32]
  station : s.logon.cidFront = c 65296#32 ++ c 65297#32
  session : s.logon.sessionFront = c 65298#32

/-- The calls that switch a decoder on. -/
def switchOn (enabled : Bool) : List RxOp := .init :: if enabled then [.enable] else []

end Dcc.Spec
