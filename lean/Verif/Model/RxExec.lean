import Verif.Model.RxLogon
/-!
Execution of packets, include/dcc/rx/crtp_base.hpp.
-/
namespace Dcc

/-- `serviceMode(bool)` (include/dcc/rx/crtp_base.hpp:878-887). -/
def Rx.setServiceMode (s : Rx) (enter : Bool) : Rx :=
  { s.emit (.serviceModeHook enter) with mode := if enter then .service else .operations }

/-- `directionSpeed` (include/dcc/rx/crtp_base.hpp:852-857). -/
def Rx.directionSpeed (s : Rx) (addr : BitVec 16) (dir : Bool) (speed : Int) : Rx :=
  let reversed :=
    if addr = s.addrs.primary.value then s.addrs.primary.reversed else s.addrs.consist.reversed
  (s.emit (.direction addr (if reversed then !dir else dir))).emit (.speed addr speed)

/-- The time between two time points in whole seconds,
`duration_cast<seconds>(_last_packet_tp - _tos_tp)` (include/dcc/rx/crtp_base.hpp:902-903). -/
def seconds (ns : Int) : Int := ns.tdiv 1000000000

/-- `tipOffSearch` (include/dcc/rx/crtp_base.hpp:899-915). -/
def Rx.tipOffSearch (s : Rx) (rand : Nat) : R Rx :=
  let (b, back) := s.tosBackoff.query rand
  let s := { s with tosBackoff := b }
  if back || !s.q.tos.isEmpty then .ok s
  else
    let sec := seconds (s.lastPacketTp - s.tosTp)
    if 30 ≤ sec then .ok s
    else do
      let high ← s.adrHigh s.addrs.primary
      let low ← s.adrLow s.addrs.primary
      let time ← encodeId .b12 14 (BitVec.ofInt 32 sec).toNat
      let q ← pushBack 1 s.q.tos (high ++ low ++ time)
      return { s with q := { s.q with tos := q } }

/-- `binaryState` (include/dcc/rx/crtp_base.hpp:837-845). -/
def Rx.binaryState (s : Rx) (xf : BitVec 32) (state : Bool) (rand : Nat) : R Rx :=
  if xf = 2#32 ∧ !state then s.tipOffSearch rand else .ok s

/-- `consistControl` (include/dcc/rx/crtp_base.hpp:433-435). -/
def Rx.consistControl (e : Env) (s : Rx) (bs : List Byte) : R Rx := do
  s.cvWriteByte e 18#32 (((← byteAt bs 0) <<< 7) ||| (← byteAt bs 1))

/-- One optional function group, `if (size(bytes) > i + 1) impl().function(addr, mask,
bytes[i] << shift)` (include/dcc/rx/crtp_base.hpp:447-461). -/
def Rx.optFunctions (s : Rx) (addr : BitVec 16) (bs : List Byte) (i : Nat) (mask : BitVec 32)
    (shift : Nat) : R Rx :=
  if i + 1 < bs.length then
    match byteAt bs i with
    | .ok b => .ok (s.emit (.function addr mask (b.setWidth 32 <<< shift)))
    | .error f => .error f
  else .ok s

/-- The four optional function groups of the speed, direction and functions instruction
(include/dcc/rx/crtp_base.hpp:446-461); the mask of F31-F24 is the one in the code. -/
def Rx.speedDirFunctions (s : Rx) (addr : BitVec 16) (bs : List Byte) : R Rx := do
  let s ← s.optFunctions addr bs 2 0xFF#32 0
  let s ← s.optFunctions addr bs 3 0xFF00#32 8
  let s ← s.optFunctions addr bs 4 0xFF0000#32 16
  s.optFunctions addr bs 5 0xFF#32 24

/-- 126 speed steps (include/dcc/rx/crtp_base.hpp:465-475). -/
def Rx.speed126 (s : Rx) (addr : BitVec 16) (b1 : Byte) : Rx :=
  let dir := b1.getLsbD 7
  if b1 &&& 0x7F#8 = 0#8 then s.directionSpeed addr dir 0
  else if b1 &&& 0x7E#8 = 0#8 then s.emit (.speed addr (-1))
  else s.directionSpeed addr dir (scaleSpeed .s126 ((b1 &&& 0x7F#8).toNat - 1))

/-- Special operating modes (include/dcc/rx/crtp_base.hpp:480-488).  The condition of the second
branch is the constant `make_mask(5u)`, so the third branch is never taken. -/
def Rx.specialOperatingModes (e : Env) (s : Rx) (addr : BitVec 16) (b1 : Byte) : Rx :=
  let s := { s with man := b1.getLsbD 7 }
  if e.eastWest then
    if b1.getLsbD 6 then s.emit (.eastWestDirection addr (some true))
    else if (0x20#32 : BitVec 32) ≠ 0#32 then s.emit (.eastWestDirection addr (some false))
    else s.emit (.eastWestDirection addr none)
  else s

/-- `advancedOperations` (include/dcc/rx/crtp_base.hpp:441-496). -/
def Rx.advancedOperations (e : Env) (s : Rx) (addr : BitVec 16) (bs : List Byte) : R Rx := do
  let b0 ← byteAt bs 0
  if b0 = 0x3C#8 then
    let s ← s.speedDirFunctions addr bs
    return s.speed126 addr (← byteAt bs 1)
  else if b0 = 0x3F#8 then return s.speed126 addr (← byteAt bs 1)
  else if b0 = 0x3E#8 then return s.specialOperatingModes e addr (← byteAt bs 1)
  else return s

/-- `speedAndDirection` (include/dcc/rx/crtp_base.hpp:502-530). -/
def Rx.speedAndDirection (s : Rx) (addr : BitVec 16) (bs : List Byte) : R Rx := do
  let b0 ← byteAt bs 0
  let dir := b0.getLsbD 5
  if b0 &&& 0x0F#8 ≠ 0#8 ∧ b0 &&& 0x0E#8 = 0#8 then return s.emit (.speed addr (-1))
  else
    let speed : Int := if b0 &&& 0x0F#8 = 0#8 then 0 else (b0 &&& 0x0F#8).toNat - 1
    if s.cfg.f0Exception then
      let s := s.emit (.function addr 1#32 (if b0.getLsbD 4 then 1#32 else 0#32))
      return s.directionSpeed addr dir (scaleSpeed .s14 speed)
    else
      let speed := speed * 2
      let speed := if speed ≠ 0 ∧ !b0.getLsbD 4 then speed - 1 else speed
      return s.directionSpeed addr dir (scaleSpeed .s28 speed)

/-- `functionGroup` (include/dcc/rx/crtp_base.hpp:538-566). -/
def Rx.functionGroup (s : Rx) (addr : BitVec 16) (bs : List Byte) : R Rx := do
  let b0 ← byteAt bs 0
  let n := b0 &&& 0xF0#8
  let low : BitVec 32 := (b0 &&& 0x0F#8).setWidth 32
  if n = 0x80#8 ∨ n = 0x90#8 then
    return s.emit (.function addr (if s.cfg.f0Exception then 0x1E#32 else 0x1F#32)
      ((low <<< 1) ||| ((b0 &&& 0x10#8).setWidth 32 >>> 4)))
  else if n = 0xB0#8 then return s.emit (.function addr 0x1E0#32 (low <<< 5))
  else if n = 0xA0#8 then return s.emit (.function addr 0x1E00#32 (low <<< 9))
  else return s.emit (.function addr 0#32 0#32)

/-- `featureExpansion` (include/dcc/rx/crtp_base.hpp:575-633); `time` (831) does nothing. -/
def Rx.featureExpansion (s : Rx) (addr : BitVec 16) (bs : List Byte) (rand : Nat) : R Rx := do
  let b0 ← byteAt bs 0
  if b0 = 0xC0#8 then
    let b2 ← byteAt bs 2
    let b1 ← byteAt bs 1
    s.binaryState ((b2.setWidth 32 <<< 7) ||| (b1 &&& 0x7F#8).setWidth 32) (b1.getLsbD 7) rand
  else if b0 = 0xDD#8 then
    let b1 ← byteAt bs 1
    s.binaryState ((b1 &&& 0x7F#8).setWidth 32) (b1.getLsbD 7) rand
  else if b0 = 0xDE#8 then
    return s.emit (.function addr 0x1FE000#32 ((← byteAt bs 1).setWidth 32 <<< 13))
  else if b0 = 0xDF#8 then
    return s.emit (.function addr 0x1FE00000#32 ((← byteAt bs 1).setWidth 32 <<< 21))
  else return s

/-- The address tests at the start of `executeOperationsAddressed`
(include/dcc/rx/crtp_base.hpp:339-349): the address to go on with, or none if it is not of
interest. -/
def Rx.effectiveAddress (s : Rx) (addr : Address) : Option Address :=
  if addr.value = 0#16 then some addr
  else if (addr.eq s.addrs.primary || addr.eq s.addrs.consist) && s.addrs.logon.value = 0#16 then
    some addr
  else if addr.eq s.addrs.logon then some s.addrs.primary
  else none

/-- The switch of `executeOperationsAddressed` (include/dcc/rx/crtp_base.hpp:351-369).
`decoderControl` (428) does nothing. -/
def Rx.executeInstruction (e : Env) (s : Rx) (addr : BitVec 16) (packet : Packet) (bs : List Byte)
    (rand : Nat) : R Rx := do
  match ← decodeInstruction bs with
  | .decoderControl =>
    if addr = 0#16 then
      if (← byteAt bs 0) = 0#8 then return s.setServiceMode true else return s
    else return s
  | .consistControl => s.consistControl e bs
  | .advancedOperations => s.advancedOperations e addr bs
  | .speedDirection => s.speedAndDirection addr bs
  | .functionGroup => s.functionGroup addr bs
  | .featureExpansion => s.featureExpansion addr bs rand
  | .cvLong => s.cvLong e addr packet bs
  | .cvShort => s.cvShort e addr packet bs
  | .unknownService | .logon => return s

/-- `executeOperationsAddressed` (include/dcc/rx/crtp_base.hpp:337-372). -/
def Rx.executeOperationsAddressed (e : Env) (s : Rx) (addr : Address) (packet : Packet)
    (bs : List Byte) (rand : Nat) : R (Rx × Bool) :=
  match s.effectiveAddress addr with
  | none => .ok (s, false)
  | some a => do return (← s.executeInstruction e a.value packet bs rand, true)

/-- `executeOperations` (include/dcc/rx/crtp_base.hpp:289-308) for the packet at the front of the
deque.  `executeOperationsSystem` (327) does nothing. -/
def Rx.executeOperations (e : Env) (s : Rx) (packet : Packet) (rand : Nat) : R (Rx × Bool) := do
  let addr ← decodeAddress packet
  match addr.type with
  | .broadcast | .short => s.executeOperationsAddressed e addr packet (packet.drop 1) rand
  | .long => s.executeOperationsAddressed e addr packet (packet.drop 2) rand
  | _ => return (s, false)

/-- `executeService` (include/dcc/rx/crtp_base.hpp:313-324). -/
def Rx.executeService (e : Env) (s : Rx) (packet : Packet) : R (Rx × Bool) := do
  let b0 ← byteAt packet 0
  if b0 = 0#8 then return (s, true)
  else if b0 &&& 0xF0#8 ≠ 0x70#8 then return (s.setServiceMode false, true)
  else if packet.length = 3 then return (← s.registerMode e packet, true)
  else if packet.length = 4 then return (← s.cvLong e 0#16 packet packet, true)
  else return (s, true)

/-- `updateQos` (include/dcc/rx/crtp_base.hpp:1179-1184); the difference may be negative and is cut
to eight bits. -/
def Rx.updateQos (s : Rx) : Rx :=
  if s.preambleCount < 100 then s
  else
    { s with
      qos := BitVec.ofInt 8 (100 - (s.packetCount * 100 / s.preambleCount : Nat))
      packetCount := 0
      preambleCount := 0 }

/-- `updateTimepoints` (include/dcc/rx/crtp_base.hpp:1189-1197); `now` is what the clock returns. -/
def Rx.updateTimepoints (s : Rx) (now : Int) : Rx :=
  let s :=
    if 2000000000 ≤ now - s.lastPacketTp then { s with tosBackoff := s.tosBackoff.now, tosTp := now }
    else s
  { s with lastPacketTp := now }

/-- `serviceMode() ? executeService() : executeOperations()` with `_deque.front()`
(include/dcc/rx/crtp_base.hpp:280). -/
def Rx.executeFront (e : Env) (s : Rx) (rand : Nat) : R (Rx × Bool) :=
  match s.deque with
  | [] => .error .oob
  | packet :: _ =>
    if s.serviceMode then s.executeService e packet else s.executeOperations e packet rand

/-- `_deque.pop_front()` (include/dcc/rx/crtp_base.hpp:281). -/
def Rx.popFront (s : Rx) : Rx := { s with deque := s.deque.drop 1 }

/-- `execute`/`executeThreadMode` (include/dcc/rx/crtp_base.hpp:181, 274-283). -/
def Rx.execute (e : Env) (s : Rx) (now : Int) (rand : Nat) : R (Rx × Bool) :=
  if s.packetEnd || s.deque.isEmpty then .ok (s, false)
  else do
    let s ← s.adr
    let s := s.logonStore e
    let s := s.updateQos
    let s := s.updateTimepoints now
    let (s, ret) ← s.executeFront e rand
    return (s.popFront, ret)

end Dcc
