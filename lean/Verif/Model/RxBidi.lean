import Verif.Model.RxTypes
import Verif.Model.Utility
/-!
BiDi part of include/dcc/rx/crtp_base.hpp.
-/
namespace Dcc

/-- `encode_datagram(make_datagram<I>(id, data))`, used at include/dcc/rx/crtp_base.hpp:895, 911,
957, 1061, 1126, 1138. -/
def encodeId (i : Bits) (id data : Nat) : R (List Byte) := do
  encodeDatagram (← makeDatagramId i id data)

/-- `encode_datagram(make_datagram<I>(data))`, used at include/dcc/rx/crtp_base.hpp:980, 1004. -/
def encodeData (i : Bits) (data : Nat) : R (List Byte) := do
  encodeDatagram (← makeDatagram i data)

/-- `adrHigh` (include/dcc/rx/crtp_base.hpp:1125-1131). -/
def Rx.adrHigh (s : Rx) (a : Address) : R (List Byte) :=
  encodeId .b12 1
    (if a.eq s.addrs.consist then 0x60#16
     else if a.value < 128#16 then 0#16
     else 0x80#16 ||| ((a.value &&& 0x3F00#16) >>> 8)).toNat

/-- `adrLow` (include/dcc/rx/crtp_base.hpp:1137-1143). -/
def Rx.adrLow (s : Rx) (a : Address) : R (List Byte) :=
  encodeId .b12 2
    (if a.eq s.addrs.consist then
      ((BitVec.ofBool s.addrs.consist.reversed).setWidth 16 <<< 7) |||
        (s.addrs.consist.value &&& 0x7F#16)
     else a.value &&& 0xFF#16).toNat

/-- Two `push_back`s of the address datagrams, repeated three times in
include/dcc/rx/crtp_base.hpp:1014-1027. -/
def Rx.pushAdr (s : Rx) (a : Address) : R Rx := do
  let q ← pushBack 2 s.q.adr (← s.adrHigh a)
  let q ← pushBack 2 q (← s.adrLow a)
  return { s with q := { s.q with adr := q } }

/-- `adr` (include/dcc/rx/crtp_base.hpp:1011-1032). -/
def Rx.adr (s : Rx) : R Rx :=
  if !s.cfg.ch1AddrEnabled || !s.q.adr.isEmpty then .ok s
  else if s.addrs.logon.value ≠ 0#16 then s.pushAdr s.addrs.logon
  else if s.addrs.consist.value = 0#16 then s.pushAdr s.addrs.primary
  else if 0#16 < s.addrs.consist.value ∧ s.addrs.consist.value < 128#16 then
    s.pushAdr s.addrs.consist
  else .ok s

/-- `pom` (include/dcc/rx/crtp_base.hpp:892-896). -/
def Rx.pom (s : Rx) (value : Byte) : R Rx :=
  if !s.cfg.ch2DataEnabled then .ok s
  else do
    let q ← pushBack 2 [] (← encodeId .b12 0 value.toNat)
    return { s with q := { s.q with pom := q } }

/-- The structs derived from `Dyn` (include/dcc/bidi/dyn.hpp:17-25, kmh.hpp, temperature.hpp,
direction_status_byte.hpp, track_voltage.hpp).  The value is an `int16_t`, the subindex of a plain
`Dyn` a `uint8_t`.  Simplification: classes the user derives from `Dyn` themselves, for which the
library queues nothing, are left out. -/
inductive Dyn where
  | raw (d : BitVec 16) (x : Byte)
  | kmh (d : BitVec 16)
  | temperature (d : BitVec 16)
  | directionStatusByte (d : BitVec 16)
  | trackVoltage (d : BitVec 16)
  deriving DecidableEq, Repr

/-- The conversions in `dyn(Dyns&&)` (include/dcc/rx/crtp_base.hpp:1038-1052): value and subindex
of the datagram.  `std::max<int16_t>(0, d - 5000)` converts its argument to `int16_t`. -/
def Dyn.convert : Dyn → Byte × Byte
  | .raw d x => (d.setWidth 8, x)
  | .kmh d =>
    let v := d.toInt
    (BitVec.ofInt 8 (if v < 512 then (if v < 256 then v else v - 256) else 255),
     if v < 256 then 0#8 else 1#8)
  | .temperature d => (BitVec.ofInt 8 (lerp d.toInt (-50) 205 0 255), 26#8)
  | .directionStatusByte d => (d.setWidth 8, 27#8)
  | .trackVoltage d =>
    let v := max 0 (BitVec.ofInt 16 (d.toInt - 5000)).toInt
    (BitVec.ofInt 8 (v.tdiv 100), 46#8)

/-- `dyn(uint8_t, uint8_t)` (include/dcc/rx/crtp_base.hpp:1058-1062). -/
def Rx.dyn (e : Env) (s : Rx) (d x : Byte) : R Rx :=
  if !s.cfg.ch2DataEnabled || decide (s.q.dyn.length = e.bidiDeque) then .ok s
  else do
    let q ← pushBack e.bidiDeque s.q.dyn
      (← encodeId .b18 7 ((d.setWidth 32 <<< 6) ||| x.setWidth 32 : BitVec 32).toNat)
    return { s with q := { s.q with dyn := q } }

/-- The fold expression in `datagram` (include/dcc/rx/crtp_base.hpp:221). -/
def Rx.dyns (e : Env) (s : Rx) : List Dyn → R Rx
  | [] => .ok s
  | d :: ds => do
    let s ← s.dyn e d.convert.1 d.convert.2
    s.dyns e ds

/-- The first part of `datagram` (include/dcc/rx/crtp_base.hpp:212-219). -/
def Rx.datagramStart (e : Env) (s : Rx) : R Rx :=
  if s.q.dyn.length = e.bidiDeque then .ok { s with q := { s.q with blockDyn := true } }
  else if s.q.dyn.isEmpty then
    Rx.dyn e { s with q := { s.q with blockDyn := false } } s.qos 7#8
  else .ok s

/-- `datagram` (include/dcc/rx/crtp_base.hpp:211-222). -/
def Rx.datagram (e : Env) (s : Rx) (ds : List Dyn) : R Rx := do
  let s ← s.datagramStart e
  if !s.q.blockDyn then s.dyns e ds else .ok s

/-- `appAdr` (include/dcc/rx/crtp_base.hpp:1065-1070). -/
def Rx.appAdr (s : Rx) : Rx :=
  match s.q.adr with
  | [] => s
  | d :: rest => Rx.emit { s with q := { s.q with adr := rest } } (.transmitBiDi d)

/-- `appPom` (include/dcc/rx/crtp_base.hpp:1073-1084).  `sizeof(acks[0uz])` is 1, so a single ACK is
sent. -/
def Rx.appPom (s : Rx) : Rx :=
  if !s.cfg.ch2DataEnabled then s
  else if s.link.packet ≠ s.lastOwnCvPacket then s.emit (.transmitBiDi (acks.take 1))
  else match s.q.pom with
    | [] => s
    | d :: rest => Rx.emit { s with q := { s.q with pom := rest } } (.transmitBiDi d)

/-- The loop of `appDyn` (include/dcc/rx/crtp_base.hpp:1091-1095): datagrams taken from the queue
until it is empty or the next one does not fit into the six bytes of channel 2.  `first` are the
bytes copied so far. -/
def appDynLoop (first : List Byte) : List (List Byte) → List Byte × List (List Byte)
  | [] => (first, [])
  | d :: rest =>
    if d.length ≤ 6 - first.length then appDynLoop (first ++ d) rest else (first, d :: rest)

/-- `appDyn` (include/dcc/rx/crtp_base.hpp:1087-1097). -/
def Rx.appDyn (s : Rx) : Rx :=
  match s.q.dyn with
  | [] => s
  | d :: rest =>
    let r := appDynLoop d rest
    Rx.emit { s with q := { s.q with dyn := r.2 } } (.transmitBiDi r.1)

/-- `appTos` (include/dcc/rx/crtp_base.hpp:1100-1106). -/
def Rx.appTos (s : Rx) : Rx :=
  match s.q.tos with
  | [] => s
  | d :: rest => Rx.emit { s with q := { s.q with tos := rest } } (.transmitBiDi d)

/-- `appLogon(1u)` (include/dcc/rx/crtp_base.hpp:1109-1113). -/
def Rx.appLogon1 (s : Rx) : Rx :=
  match s.q.logon with
  | [] => s
  | d :: _ => s.emit (.transmitBiDi (d.take 2))

/-- `appLogon(2u)` (include/dcc/rx/crtp_base.hpp:1109-1119). -/
def Rx.appLogon2 (s : Rx) : Rx :=
  match s.q.logon with
  | [] => s
  | d :: rest => Rx.emit { s with q := { s.q with logon := rest } } (.transmitBiDi (d.drop 2))

/-- `biDiChannel1` (include/dcc/rx/crtp_base.hpp:225-233). -/
def Rx.biDiChannel1 (s : Rx) : Rx :=
  match s.addrs.received.type with
  | .broadcast | .short | .long => s.appAdr
  | .automaticLogon => s.appLogon1
  | _ => s

/-- `biDiChannel2` (include/dcc/rx/crtp_base.hpp:236-251).  The instruction is decoded from
`_packet`, which is empty again as soon as the next start bit was received. -/
def Rx.biDiChannel2 (s : Rx) : R Rx :=
  match s.addrs.received.type with
  | .broadcast => .ok s.appTos
  | .short | .long =>
    if s.addrs.received.eq (if s.logon.assigned then s.addrs.logon else s.addrs.primary) then do
      let i ← decodeInstructionPacket s.link.packet
      return if i = .cvLong then s.appPom else s.appDyn
    else if s.addrs.received.eq s.addrs.consist && s.cfg.ch2ConsistEnabled then .ok s.appDyn
    else .ok s
  | .automaticLogon => .ok s.appLogon2
  | _ => .ok s

end Dcc
