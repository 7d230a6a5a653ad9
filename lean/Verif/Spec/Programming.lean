import Verif.Spec.Config
import Verif.Spec.CvShort
import Verif.Spec.Throttle
/-!
A session on the programming track (RCN-216, direct mode): what a programmer sends, and what a decoder
with a memory of CVs is to do about it.
-/
namespace Dcc.Spec

/-- What a programmer sends: a reset packet, an idle packet or a direct mode packet. -/
inductive ServiceItem where
  | reset
  | idle
  | direct (k : Kind) (a : Access)
  deriving DecidableEq, Repr

/-- The packet the builder makes. -/
def ServiceItem.packet : ServiceItem → R Packet
  | .reset => .ok makeResetPacket
  | .idle => .ok makeIdlePacket
  | .direct .verify (.byte cv b) => makeCvVerifyServicePacket (BitVec.ofNat 32 cv) b
  | .direct .write (.byte cv b) => makeCvWriteServicePacket (BitVec.ofNat 32 cv) b
  | .direct .verify (.bit cv b pos) =>
    makeCvVerifyBitServicePacket (BitVec.ofNat 32 cv) b (BitVec.ofNat 32 pos)
  | .direct .write (.bit cv b pos) =>
    makeCvWriteBitServicePacket (BitVec.ofNat 32 cv) b (BitVec.ofNat 32 pos)

/-- There are 1024 CVs of eight bits. -/
def Access.Legal : Access → Prop
  | .byte cv _ => cv < 1024
  | .bit cv _ pos => cv < 1024 ∧ pos < 8

/-- The access is to one of the 1024 CVs of eight bits. -/
def ServiceItem.Legal : ServiceItem → Prop
  | .direct _ a => a.Legal
  | _ => True

/-- The user's class is a memory of CVs: reads return what was written last, writes what was to be
written, all of them at once. -/
structure Memory (e : Env) (init : BitVec 32 → Byte) : Prop extends MemoryLike e init where
  sync : e.asyncWritable = false
  syncRead : e.asyncReadable = false
  readByte : ∀ tr cv b, e.readCvByte tr cv b = mem init tr cv
  readBit : ∀ tr cv b pos, e.readCvBit tr cv b pos = (mem init tr cv).getLsbD pos.toNat
  writeByte : ∀ tr cv b, e.writeCvByte tr cv b = b
  writeBit : ∀ tr cv b pos, e.writeCvBit tr cv b pos = b

/-- The CVs after an access. -/
def stored (c : BitVec 32 → Byte) : Kind → Access → BitVec 32 → Byte
  | .verify, _ => c
  | .write, a => applyWrite c a

/-- A decoder acknowledges verifying the value it has, and every write. -/
def acknowledged (c : BitVec 32 → Byte) : Kind → Access → Bool
  | .verify, .byte cv b => c (BitVec.ofNat 32 cv) = b
  | .verify, .bit cv b pos => (c (BitVec.ofNat 32 cv)).getLsbD pos = b
  | .write, _ => true

/-- The call of the user's class for an access. -/
def accessCall (c : BitVec 32 → Byte) : Kind → Access → Event
  | .verify, .byte cv b => .readCvByte (BitVec.ofNat 32 cv) b (c (BitVec.ofNat 32 cv))
  | .verify, .bit cv b pos =>
    .readCvBit (BitVec.ofNat 32 cv) b (BitVec.ofNat 32 pos) ((c (BitVec.ofNat 32 cv)).getLsbD pos)
  | .write, .byte cv b => .writeCvByte (BitVec.ofNat 32 cv) b b
  | .write, .bit cv b pos => .writeCvBit (BitVec.ofNat 32 cv) b (BitVec.ofNat 32 pos) b

/-- The lock of the CVs: CV15 and CV16 are neither zero nor equal. -/
def locks (c : BitVec 32 → Byte) : Bool := c 14#32 ≠ 0#8 ∧ c 15#32 ≠ 0#8 ∧ c 14#32 ≠ c 15#32

/-- The CVs after a request and the calls: nothing if the lock does not permit it. -/
def performed (c : BitVec 32 → Byte) (k : Kind) (a : Access) : (BitVec 32 → Byte) × List Event :=
  if permitted (locks c) k a then
    (stored c k a, accessCall c k a :: if acknowledged c k a then [.serviceAck] else [])
  else (c, [])

/-- What a decoder is on the programming track: the CVs, whether it is in service mode, the direct mode
packet counted last and how often it came. -/
structure Device where
  cvs : BitVec 32 → Byte
  service : Bool
  last : Packet
  count : Nat

/-- A reset packet enters service mode, an idle packet leaves it.  In service mode the second of
identical direct mode packets in a row is performed; outside nothing is. -/
def Device.step (d : Device) : ServiceItem → Device × List Event
  | .reset => if d.service then (d, []) else ({ d with service := true }, [.serviceModeHook true])
  | .idle => if d.service then ({ d with service := false }, [.serviceModeHook false]) else (d, [])
  | .direct k a =>
    match d.service, (ServiceItem.direct k a).packet with
    | false, _ => (d, [])
    | true, .error _ => (d, [])
    | true, .ok p =>
      let n := if d.last = p then d.count + 1 else 1
      if n = 2 then
        let (c, evs) := performed d.cvs k a
        ({ d with cvs := c, last := p, count := n }, evs)
      else ({ d with last := p, count := n }, [])

/-- The device and the calls after several packets. -/
def Device.run (d : Device) : List ServiceItem → Device × List Event
  | [] => (d, [])
  | i :: is => (((d.step i).1.run is).1, (d.step i).2 ++ ((d.step i).1.run is).2)

/-- Direct mode packets are sent in service mode only. -/
def InService (service : Bool) : List ServiceItem → Prop
  | [] => True
  | .reset :: is => InService true is
  | .idle :: is => InService false is
  | .direct _ _ :: is => service = true ∧ InService service is

/-- The CVs hold none of the addresses 112 to 127, which direct mode packets seem to have outside
service mode. -/
def Elsewhere (c : BitVec 32 → Byte) : Prop :=
  (primaryNumber c < 112 ∨ 127 < primaryNumber c) ∧
    (100 * ((c 19#32).toNat % 128) + (c 18#32).toNat % 128 < 112 ∨
      127 < 100 * ((c 19#32).toNat % 128) + (c 18#32).toNat % 128)

/-- Direct mode packets are sent in service mode, or to a decoder with an address outside 112 to 127. -/
def Served (d : Device) : List ServiceItem → Prop
  | [] => True
  | i :: is => ((∃ k a, i = .direct k a) → d.service = true ∨ Elsewhere d.cvs) ∧ Served (d.step i).1 is

/-- The CVs have an address after each packet. -/
def KeepsAddress (d : Device) : List ServiceItem → Prop
  | [] => True
  | i :: is => HasAddress (d.step i).1.cvs ∧ KeepsAddress (d.step i).1 is

/-- The device a decoder is. -/
def deviceOf (init : BitVec 32 → Byte) (s : Rx) : Device where
  cvs := mem init s.trace
  service := s.serviceMode
  last := s.lastOwnCvPacket
  count := s.ownEqualCvPackets

/-- The decoder is configured as its CVs say and did not log on. -/
structure Settled (m : BitVec 32 → Byte) (s : Rx) : Prop where
  store : s.logon.store = false
  assigned : s.logon.assigned = false
  address : s.addrs.logon.value = 0#16
  reflects : Reflects (mem m s.trace) s

/-- The calls of the user's class except those reading the configuration and those transmitting BiDi. -/
def Event.isSession : Event → Bool
  | .readCv .. | .highCurrentBiDi _ | .transmitBiDi _ => false
  | _ => true

/-- The calls between two states except those reading the configuration and those transmitting BiDi. -/
def sessionCalls (s s' : Rx) : List Event := (newCalls s s').filter Event.isSession

/-- A request of the programmer: an access, sent `times` times and followed by reset packets. -/
structure Request where
  kind : Kind
  access : Access
  times : Nat
  resets : Nat
  deriving DecidableEq, Repr

/-- The packets of a request. -/
def Request.items (r : Request) : List ServiceItem :=
  List.replicate r.times (.direct r.kind r.access) ++ List.replicate r.resets .reset

/-- The CVs and the calls after requests performed once each. -/
def performAll (c : BitVec 32 → Byte) : List Request → (BitVec 32 → Byte) × List (List Event)
  | [] => (c, [])
  | r :: rs =>
    let (c1, evs) := performed c r.kind r.access
    let (c2, evss) := performAll c1 rs
    (c2, evs :: evss)

/-- No two requests in a row are the same. -/
def Alternating : List Request → Prop
  | r :: r' :: rs => (r.kind, r.access) ≠ (r'.kind, r'.access) ∧ Alternating (r' :: rs)
  | _ => True

/-- Reading a CV: ask for each of the eight bits whether it is set. -/
def readRequests (cv times resets : Nat) : List Request :=
  (List.range 8).map fun pos => ⟨.verify, .bit cv true pos, times, resets⟩

/-- Which of the requests were acknowledged. -/
def answers (calls : List (List Event)) : List Bool := calls.map fun evs => decide (.serviceAck ∈ evs)

/-- The value of a byte whose bits were acknowledged or not. -/
def valueOf (answers : List Bool) : Nat :=
  (answers.zipIdx.map fun x => if x.1 then 2 ^ x.2 else 0).sum

end Dcc.Spec
