import Verif.Model.RxMachine
/-!
The methods of the receiver called in the thread, taken apart into single accesses to the object, so
that an interrupt may come between any two of them.

One access is reading or writing one member (an `Address` in `_addrs`, a packet or an array counts as
one), one method of a container, or one call of a method of the user's class.  Everything else works
on local variables.  The bytes of the packet at the front of `_deque`, to which the C++ code holds a
reference, are read once; that they cannot change meanwhile is `C71_front`.
-/
namespace Dcc

/-- A program of the thread: it ends, or makes one access `f` to the object and goes on with what it
read.  `line` is the line of include/dcc/rx/crtp_base.hpp the access is found in. -/
inductive Prog (α : Type) : Type 1 where
  | ret (a : α)
  | atom {β : Type} (line : Nat) (f : Rx → R (Rx × β)) (k : β → Prog α)

namespace Prog

/-- One program after the other. -/
def bind {α β : Type} : Prog α → (α → Prog β) → Prog β
  | .ret a, g => g a
  | .atom l f k, g => .atom l f fun b => (k b).bind g

instance : Monad Prog where
  pure := .ret
  bind := .bind

/-- Read members. -/
def get {β : Type} (line : Nat) (f : Rx → β) : Prog β := .atom line (fun s => .ok (s, f s)) .ret

/-- Write a member. -/
def set (line : Nat) (f : Rx → Rx) : Prog Unit := .atom line (fun s => .ok (f s, ())) .ret

/-- An operation on a container, which may fault. -/
def act (line : Nat) (f : Rx → R Rx) : Prog Unit :=
  .atom line (fun s => do return (← f s, ())) .ret

/-- A call of a method of the user's class. -/
def call {β : Type} (line : Nat) (f : Rx → β × Rx) : Prog β :=
  .atom line (fun s => .ok ((f s).2, (f s).1)) .ret

/-- A call of a method of the user's class that returns nothing. -/
def emit (line : Nat) (ev : Event) : Prog Unit := set line (·.emit ev)

/-- A computation on local variables that may fault. -/
def lift {β : Type} (line : Nat) (x : R β) : Prog β :=
  .atom line (fun s => do return (s, ← x)) .ret

/-- The program without interrupts. -/
def run {α : Type} : Prog α → Rx → R (Rx × α)
  | .ret a, s => .ok (s, a)
  | .atom _ f k, s => do
    let (s, b) ← f s
    (k b).run s

end Prog

namespace Thread
open Prog

/-- `impl().readCv(cv)`. -/
def readCv (line : Nat) (e : Env) (cv : BitVec 32) : Prog Byte := call line (·.readCv e cv)

/-- `init`, primary address (include/dcc/rx/crtp_base.hpp:55-63). -/
def initPrimary (e : Env) (cv29 : Byte) : Prog Unit := do
  if cv29.getLsbD 5 then
    let cv17 ← readCv 56 e 16#32
    let cv18 ← readCv 57 e 17#32
    let a ← lift 58 (decodeAddress [cv17, cv18])
    set 58 fun s => { s with addrs := { s.addrs with primary := a } }
  else
    let cv1 ← readCv 60 e 0#32
    let a ← lift 61 (decodeAddress [cv1])
    set 61 fun s => { s with addrs := { s.addrs with primary := a } }
  set 63 fun s =>
    { s with addrs := { s.addrs with primary := { s.addrs.primary with reversed := cv29.getLsbD 0 } } }

/-- `init`, consist address (include/dcc/rx/crtp_base.hpp:66-72); the result is CV20. -/
def initConsist (e : Env) : Prog Byte := do
  let cv19 ← readCv 66 e 18#32
  let cv20 ← readCv 67 e 19#32
  set 70 fun s =>
    { s with addrs := { s.addrs with consist := { consistOf cv19 cv20 with reversed := false } } }
  set 72 fun s =>
    { s with addrs := { s.addrs with consist := { s.addrs.consist with reversed := cv19.getLsbD 7 } } }
  return cv20

/-- `init`, F0 and decoder lock (include/dcc/rx/crtp_base.hpp:75-80). -/
def initLock (e : Env) (cv29 : Byte) : Prog Unit := do
  set 75 fun s => { s with cfg := { s.cfg with f0Exception := !cv29.getLsbD 1 } }
  let cv15 ← readCv 78 e 14#32
  let cv16 ← readCv 79 e 15#32
  set 80 fun s =>
    { s with cfg := { s.cfg with cvsLocked := cv15 != cv16 && cv15 != 0#8 && cv16 != 0#8 } }

/-- `init`, BiDi (include/dcc/rx/crtp_base.hpp:83-92). -/
def initBidi (e : Env) (cv29 cv20 : Byte) : Prog Unit := do
  let bidi := cv29.getLsbD 3
  let cv28 ← readCv 86 e 27#32
  set 87 fun s => { s with cfg := { s.cfg with ch1AddrEnabled := bidi && cv28.getLsbD 0 } }
  set 88 fun s => { s with cfg := { s.cfg with ch2DataEnabled := bidi && cv28.getLsbD 1 } }
  set 89 fun s => { s with cfg := { s.cfg with logonEnabled := bidi && cv28.getLsbD 7 } }
  set 90 fun s => { s with cfg := { s.cfg with ch2ConsistEnabled := bidi && cv20.getLsbD 7 } }
  if e.highCurrent then emit 92 (.highCurrentBiDi (cv28.getLsbD 6))

/-- `init`, IDs (include/dcc/rx/crtp_base.hpp:95-101). -/
def initIds (e : Env) : Prog Unit := do
  let cv250 ← readCv 95 e 249#32
  let cv251 ← readCv 96 e 250#32
  let cv252 ← readCv 97 e 251#32
  let cv253 ← readCv 98 e 252#32
  set 95 fun s => { s with cfg := { s.cfg with did := [cv250, cv251, cv252, cv253] } }
  let cv65297 ← readCv 100 e 65296#32
  let cv65298 ← readCv 100 e 65297#32
  set 99 fun s =>
    { s with
      logon := { s.logon with cidFront := (cv65297.setWidth 16 <<< 8) ||| cv65298.setWidth 16 } }
  let cv65299 ← readCv 101 e 65298#32
  set 101 fun s => { s with logon := { s.logon with sessionFront := cv65299 } }

/-- `init` (include/dcc/rx/crtp_base.hpp:52-102). -/
def init (e : Env) : Prog Unit := do
  let cv29 ← readCv 54 e 28#32
  initPrimary e cv29
  let cv20 ← initConsist e
  initLock e cv29
  initBidi e cv29 cv20
  initIds e

/-- `adrHigh` (include/dcc/rx/crtp_base.hpp:1125-1131). -/
def adrHigh (a : Address) : Prog (List Byte) := do
  let own ← get 1128 fun s => a.eq s.addrs.consist
  lift 1126 (encodeId .b12 1
    (if own then 0x60#16
     else if a.value < 128#16 then 0#16
     else 0x80#16 ||| ((a.value &&& 0x3F00#16) >>> 8)).toNat)

/-- `adrLow` (include/dcc/rx/crtp_base.hpp:1137-1143). -/
def adrLow (a : Address) : Prog (List Byte) := do
  let own ← get 1140 fun s => a.eq s.addrs.consist
  if own then
    let reversed ← get 1141 (·.addrs.consist.reversed)
    let value ← get 1141 (·.addrs.consist.value)
    lift 1138 (encodeId .b12 2
      (((BitVec.ofBool reversed).setWidth 16 <<< 7) ||| (value &&& 0x7F#16)).toNat)
  else lift 1138 (encodeId .b12 2 (a.value &&& 0xFF#16).toNat)

/-- `_adr_deque.push_back(...)`. -/
def pushAdr (line : Nat) (d : List Byte) : Prog Unit :=
  act line fun s => do
    let q ← pushBack 2 s.q.adr d
    return { s with q := { s.q with adr := q } }

/-- Both datagrams for one member of `_addrs`, repeated three times in
include/dcc/rx/crtp_base.hpp:1014-1027; the member is read again for the second one. -/
def pushAdrs (line : Nat) (a : Rx → Address) : Prog Unit := do
  pushAdr line (← adrHigh (← get line a))
  pushAdr (line + 1) (← adrLow (← get (line + 1) a))

/-- `adr` (include/dcc/rx/crtp_base.hpp:1011-1032). -/
def adr : Prog Unit := do
  if !(← get 1012 (·.cfg.ch1AddrEnabled)) then return
  if !(← get 1012 (·.q.adr.isEmpty)) then return
  if (← get 1014 (·.addrs.logon.value)) ≠ 0#16 then pushAdrs 1015 (·.addrs.logon)
  else if (← get 1019 (·.addrs.consist.value)) = 0#16 then pushAdrs 1020 (·.addrs.primary)
  else if 0#16 < (← get 1024 (·.addrs.consist.value)) then
    if (← get 1024 (·.addrs.consist.value)) < 128#16 then pushAdrs 1025 (·.addrs.consist)

/-- `impl().writeCv(cv, byte)`; what it returns is not used. -/
def storeCv (line : Nat) (e : Env) (cv : BitVec 32) (byte : Byte) : Prog Unit :=
  set line fun s => (s.writeCvByte e cv byte).2

/-- `logonStore`, the primary address (include/dcc/rx/crtp_base.hpp:1155-1160). -/
def storePrimary (e : Env) : Prog Unit := do
  let a ← get 1157 (·.addrs.primary.value)
  storeCv 1156 e 16#32 (0xC0#8 ||| (a >>> 8).setWidth 8)
  let a ← get 1158 (·.addrs.primary.value)
  storeCv 1158 e 17#32 (a.setWidth 8)
  set 1159 fun s => (s.writeCvBit e 28#32 true 5#32).2

/-- `logonStore`, the rest (include/dcc/rx/crtp_base.hpp:1162-1173). -/
def storeTail (e : Env) : Prog Unit := do
  storeCv 1163 e 18#32 0#8
  storeCv 1164 e 19#32 0#8
  let c ← get 1166 (·.logon.cidBack)
  set 1166 fun s => { s with logon := { s.logon with cidFront := c } }
  let c ← get 1167 (·.logon.cidBack)
  storeCv 1167 e 65296#32 ((c >>> 8).setWidth 8)
  let c ← get 1168 (·.logon.cidBack)
  storeCv 1168 e 65297#32 (c.setWidth 8)
  let i ← get 1170 (·.logon.sessionBack)
  set 1170 fun s => { s with logon := { s.logon with sessionFront := i } }
  let i ← get 1171 (·.logon.sessionBack)
  storeCv 1171 e 65298#32 i
  let a ← get 1172 (·.addrs.logon.value)
  storeCv 1172 e 65299#32 ((a >>> 8).setWidth 8)
  let a ← get 1173 (·.addrs.logon.value)
  storeCv 1173 e 65300#32 (a.setWidth 8)

/-- `logonStore` (include/dcc/rx/crtp_base.hpp:1150-1174). -/
def logonStore (e : Env) : Prog Unit := do
  if !(← get 1151 (·.logon.store)) then return
  set 1152 fun s => { s with logon := { s.logon with store := false } }
  let primary ← get 1155 (·.addrs.primary)
  let logon ← get 1155 (·.addrs.logon)
  if primary.eq logon then storePrimary e
  storeTail e

/-- `updateQos` (include/dcc/rx/crtp_base.hpp:1179-1184). -/
def updateQos : Prog Unit := do
  if (← get 1180 (·.preambleCount)) < 100 then return
  let packets ← get 1182 (·.packetCount)
  let preambles ← get 1182 (·.preambleCount)
  set 1181 fun s => { s with qos := BitVec.ofInt 8 (100 - (packets * 100 / preambles : Nat)) }
  set 1183 fun s => { s with preambleCount := 0 }
  set 1183 fun s => { s with packetCount := 0 }

/-- `updateTimepoints` (include/dcc/rx/crtp_base.hpp:1189-1197). -/
def updateTimepoints (now : Int) : Prog Unit := do
  let last ← get 1192 (·.lastPacketTp)
  if 2000000000 ≤ now - last then
    set 1193 fun s => { s with tosBackoff := s.tosBackoff.now }
    set 1194 fun s => { s with tosTp := now }
  set 1196 fun s => { s with lastPacketTp := now }

/-- `pom` (include/dcc/rx/crtp_base.hpp:892-896). -/
def pom (value : Byte) : Prog Unit := do
  if !(← get 893 (·.cfg.ch2DataEnabled)) then return
  set 894 fun s => { s with q := { s.q with pom := [] } }
  let d ← lift 895 (encodeId .b12 0 value.toNat)
  act 895 fun s => do
    let q ← pushBack 2 s.q.pom d
    return { s with q := { s.q with pom := q } }

/-- The byte callbacks (include/dcc/rx/crtp_base.hpp:731-734, 778-781). -/
def callbackByte (byte red : Byte) : Prog Unit := do
  if !(← get 732 (·.serviceMode)) then pom red
  else if byte = red then emit 733 .serviceAck

/-- The bit callbacks (include/dcc/rx/crtp_base.hpp:745-748, 792-795). -/
def callbackBit (bit red : Bool) : Prog Unit := do
  if !(← get 746 (·.serviceMode)) then pom (if red then 1#8 else 0#8)
  else if bit = red then emit 747 .serviceAck

/-- `cvVerify`, byte (include/dcc/rx/crtp_base.hpp:721-737). -/
def cvVerifyByte (e : Env) (cv : BitVec 32) (byte : Byte) : Prog Unit := do
  if (← get 722 (·.cfg.cvsLocked)) then return
  if e.asyncReadable then set 735 (·.defer (.byte byte) (.asyncReadCvByte cv byte))
  else
    let v ← call 736 fun s =>
      (e.readCvByte s.trace cv byte, s.emit (.readCvByte cv byte (e.readCvByte s.trace cv byte)))
    callbackByte byte v

/-- `cvVerify`, bit (include/dcc/rx/crtp_base.hpp:721-724, 744-751). -/
def cvVerifyBit (e : Env) (cv : BitVec 32) (bit : Bool) (pos : BitVec 32) : Prog Unit := do
  if (← get 722 (·.cfg.cvsLocked)) then return
  if e.asyncReadable then set 749 (·.defer (.bit bit) (.asyncReadCvBit cv bit pos))
  else
    let v ← call 750 fun s =>
      (e.readCvBit s.trace cv bit pos, s.emit (.readCvBit cv bit pos (e.readCvBit s.trace cv bit pos)))
    callbackBit bit v

/-- `cvWriteImpl`, byte (include/dcc/rx/crtp_base.hpp:777-784). -/
def cvWriteImplByte (e : Env) (cv : BitVec 32) (byte : Byte) : Prog Unit := do
  if e.asyncWritable then set 782 (·.defer (.byte byte) (.asyncWriteCvByte cv byte))
  else callbackByte byte (← call 783 (·.writeCvByte e cv byte))

/-- `cvWriteImpl`, bit (include/dcc/rx/crtp_base.hpp:791-798). -/
def cvWriteImplBit (e : Env) (cv : BitVec 32) (bit : Bool) (pos : BitVec 32) : Prog Unit := do
  if e.asyncWritable then set 796 (·.defer (.bit bit) (.asyncWriteCvBit cv bit pos))
  else callbackBit bit (← call 797 (·.writeCvBit e cv bit pos))

/-- `cvWrite`, byte (include/dcc/rx/crtp_base.hpp:757-771). -/
def cvWriteByte (e : Env) (cv : BitVec 32) (byte : Byte) : Prog Unit := do
  if (← get 758 (·.cfg.cvsLocked)) && cv != 14#32 then return
  cvWriteImplByte e cv byte
  if cv ∈ initCvs then init e

/-- `cvWrite`, bit (include/dcc/rx/crtp_base.hpp:757-771). -/
def cvWriteBit (e : Env) (cv : BitVec 32) (bit : Bool) (pos : BitVec 32) : Prog Unit := do
  if (← get 758 (·.cfg.cvsLocked)) && cv != 14#32 then return
  cvWriteImplBit e cv bit pos
  if cv ∈ initCvs then init e

/-- `countOwnEqualCvPackets` (include/dcc/rx/crtp_base.hpp:860-867). -/
def countOwnEqualCvPackets (packet : Packet) : Prog Unit := do
  if (← get 861 (·.lastOwnCvPacket)) = packet then
    set 861 fun s => { s with ownEqualCvPackets := s.ownEqualCvPackets + 1 }
  else
    set 863 fun s => { s with ownEqualCvPackets := 1 }
    set 864 fun s => { s with lastOwnCvPacket := packet }
    set 865 fun s => { s with q := { s.q with pom := [] } }

/-- The switch of `cvLong` (include/dcc/rx/crtp_base.hpp:648-672). -/
def cvLongBody (e : Env) (bs : List Byte) : Prog Unit := do
  let b0 ← lift 648 (byteAt bs 0)
  let b1 ← lift 648 (byteAt bs 1)
  let cv := cvAddrOf b0 b1
  let op := (b0 >>> 2) &&& 3#8
  if op = 0#8 then return
  else if op = 1#8 then cvVerifyByte e cv (← lift 654 (byteAt bs 2))
  else if op = 3#8 then
    if (← get 658 (·.ownEqualCvPackets)) < 2 then return
    else if (← get 659 (·.ownEqualCvPackets)) = 2 then cvWriteByte e cv (← lift 660 (byteAt bs 2))
    else cvVerifyByte e cv (← lift 661 (byteAt bs 2))
  else
    let b2 ← lift 666 (byteAt bs 2)
    let pos := (b2 &&& 7#8).setWidth 32
    let bit := b2.getLsbD 3
    if !b2.getLsbD 4 then cvVerifyBit e cv bit pos
    else if (← get 669 (·.ownEqualCvPackets)) = 2 then cvWriteBit e cv bit pos

/-- `cvLong` (include/dcc/rx/crtp_base.hpp:640-673). -/
def cvLong (e : Env) (addr : BitVec 16) (packet : Packet) (bs : List Byte) : Prog Unit := do
  if addr ≠ 0#16 then
    if addr = (← get 641 (·.addrs.consist.value)) then return
  countOwnEqualCvPackets packet
  if (← get 646 (·.serviceMode)) then
    if (← get 646 (·.ownEqualCvPackets)) ≠ 2 then return
  cvLongBody e bs

/-- The switch of `cvShort` (include/dcc/rx/crtp_base.hpp:684-713). -/
def cvShortBody (e : Env) (bs : List Byte) : Prog Unit := do
  let b0 ← lift 684 (byteAt bs 0)
  let k := b0 &&& 0x0F#8
  if k = 2#8 then cvWriteByte e 22#32 (← lift 690 (byteAt bs 1))
  else if k = 3#8 then cvWriteByte e 23#32 (← lift 695 (byteAt bs 1))
  else if k = 4#8 then
    if (← get 700 (·.ownEqualCvPackets)) ≠ 2 then return
    cvWriteByte e 16#32 (0xC0#8 ||| (← lift 701 (byteAt bs 1)))
    cvWriteByte e 17#32 (← lift 702 (byteAt bs 2))
    cvWriteBit e 28#32 true 5#32
  else if k = 5#8 then
    if (← get 708 (·.ownEqualCvPackets)) ≠ 2 then return
    cvWriteByte e 30#32 (← lift 709 (byteAt bs 1))
    cvWriteByte e 31#32 (← lift 710 (byteAt bs 2))

/-- `cvShort` (include/dcc/rx/crtp_base.hpp:679-714). -/
def cvShort (e : Env) (addr : BitVec 16) (packet : Packet) (bs : List Byte) : Prog Unit := do
  if addr ≠ 0#16 then
    if addr = (← get 680 (·.addrs.consist.value)) then return
  countOwnEqualCvPackets packet
  cvShortBody e bs

/-- `registerMode` (include/dcc/rx/crtp_base.hpp:803-828). -/
def registerMode (e : Env) (bs : List Byte) : Prog Unit := do
  let b0 ← lift 804 (byteAt bs 0)
  let w := b0.getLsbD 3
  let reg := (b0 &&& 7#8).setWidth 32
  let b1 ← lift 810 (byteAt bs 1)
  if reg < 4#32 then
    let index ← get 809 (·.indexReg)
    let i : BitVec 32 := index.setWidth 32 * 4#32 - (4#32 - reg)
    if w then cvWriteByte e i b1 else cvVerifyByte e i b1
  else if reg = 4#32 then
    if w then cvWriteByte e 28#32 b1 else cvVerifyByte e 28#32 b1
  else if reg = 5#32 then
    if w then set 819 fun s => { s with indexReg := b1 }
    else if (← get 820 (·.indexReg)) = b1 then emit 820 .serviceAck
  else
    if w then cvWriteByte e reg b1 else cvVerifyByte e reg b1

/-- `serviceMode(bool)` (include/dcc/rx/crtp_base.hpp:878-887). -/
def setServiceMode (enter : Bool) : Prog Unit := do
  emit 881 (.serviceModeHook enter)
  set 882 fun s => { s with mode := if enter then .service else .operations }

/-- `directionSpeed` (include/dcc/rx/crtp_base.hpp:852-857). -/
def directionSpeed (addr : BitVec 16) (dir : Bool) (speed : Int) : Prog Unit := do
  let reversed ← (do
    if addr = (← get 853 (·.addrs.primary.value)) then get 853 (·.addrs.primary.reversed)
    else get 854 (·.addrs.consist.reversed))
  emit 855 (.direction addr (if reversed then !dir else dir))
  emit 856 (.speed addr speed)

/-- `tipOffSearch` (include/dcc/rx/crtp_base.hpp:899-915).  The datagram is put together in the free
element behind the last one of `_tos_deque`, which `push_back()` then makes part of the deque. -/
def tipOffSearch (rand : Nat) : Prog Unit := do
  let back ← call 901 fun s =>
    ((s.tosBackoff.query rand).2, { s with tosBackoff := (s.tosBackoff.query rand).1 })
  if back then return
  if !(← get 901 (·.q.tos.isEmpty)) then return
  let last ← get 903 (·.lastPacketTp)
  let first ← get 903 (·.tosTp)
  let sec := seconds (last - first)
  if 30 ≤ sec then return
  let high ← adrHigh (← get 906 (·.addrs.primary))
  let low ← adrLow (← get 908 (·.addrs.primary))
  let time ← lift 910 (encodeId .b12 14 (BitVec.ofInt 32 sec).toNat)
  act 913 fun s => do
    let q ← pushBack 1 s.q.tos (high ++ low ++ time)
    return { s with q := { s.q with tos := q } }

/-- `binaryState` (include/dcc/rx/crtp_base.hpp:837-845). -/
def binaryState (xf : BitVec 32) (state : Bool) (rand : Nat) : Prog Unit := do
  if xf = 2#32 ∧ !state then tipOffSearch rand

/-- `consistControl` (include/dcc/rx/crtp_base.hpp:433-435). -/
def consistControl (e : Env) (bs : List Byte) : Prog Unit := do
  let b0 ← lift 434 (byteAt bs 0)
  let b1 ← lift 434 (byteAt bs 1)
  cvWriteByte e 18#32 ((b0 <<< 7) ||| b1)

/-- One optional function group (include/dcc/rx/crtp_base.hpp:447-461). -/
def optFunctions (line : Nat) (addr : BitVec 16) (bs : List Byte) (i : Nat) (mask : BitVec 32)
    (shift : Nat) : Prog Unit := do
  if i + 1 < bs.length then
    let b ← lift line (byteAt bs i)
    emit line (.function addr mask (b.setWidth 32 <<< shift))

/-- The four optional function groups (include/dcc/rx/crtp_base.hpp:446-461). -/
def speedDirFunctions (addr : BitVec 16) (bs : List Byte) : Prog Unit := do
  optFunctions 448 addr bs 2 0xFF#32 0
  optFunctions 452 addr bs 3 0xFF00#32 8
  optFunctions 456 addr bs 4 0xFF0000#32 16
  optFunctions 460 addr bs 5 0xFF#32 24

/-- 126 speed steps (include/dcc/rx/crtp_base.hpp:465-475). -/
def speed126 (addr : BitVec 16) (b1 : Byte) : Prog Unit := do
  let dir := b1.getLsbD 7
  if b1 &&& 0x7F#8 = 0#8 then directionSpeed addr dir 0
  else if b1 &&& 0x7E#8 = 0#8 then emit 470 (.speed addr (-1))
  else directionSpeed addr dir (scaleSpeed .s126 ((b1 &&& 0x7F#8).toNat - 1))

/-- Special operating modes (include/dcc/rx/crtp_base.hpp:480-488). -/
def specialOperatingModes (e : Env) (addr : BitVec 16) (b1 : Byte) : Prog Unit := do
  set 480 fun s => { s with man := b1.getLsbD 7 }
  if e.eastWest then
    if b1.getLsbD 6 then emit 483 (.eastWestDirection addr (some true))
    else if (0x20#32 : BitVec 32) ≠ 0#32 then emit 485 (.eastWestDirection addr (some false))
    else emit 487 (.eastWestDirection addr none)

/-- `advancedOperations` (include/dcc/rx/crtp_base.hpp:441-496). -/
def advancedOperations (e : Env) (addr : BitVec 16) (bs : List Byte) : Prog Unit := do
  let b0 ← lift 443 (byteAt bs 0)
  if b0 = 0x3C#8 then
    speedDirFunctions addr bs
    speed126 addr (← lift 466 (byteAt bs 1))
  else if b0 = 0x3F#8 then speed126 addr (← lift 466 (byteAt bs 1))
  else if b0 = 0x3E#8 then specialOperatingModes e addr (← lift 480 (byteAt bs 1))

/-- `speedAndDirection` (include/dcc/rx/crtp_base.hpp:502-530). -/
def speedAndDirection (addr : BitVec 16) (bs : List Byte) : Prog Unit := do
  let b0 ← lift 504 (byteAt bs 0)
  let dir := b0.getLsbD 5
  if b0 &&& 0x0F#8 ≠ 0#8 ∧ b0 &&& 0x0E#8 = 0#8 then emit 510 (.speed addr (-1))
  else
    let speed : Int := if b0 &&& 0x0F#8 = 0#8 then 0 else (b0 &&& 0x0F#8).toNat - 1
    if (← get 514 (·.cfg.f0Exception)) then
      emit 519 (.function addr 1#32 (if b0.getLsbD 4 then 1#32 else 0#32))
      directionSpeed addr dir (scaleSpeed .s14 speed)
    else
      let speed := speed * 2
      let speed := if speed ≠ 0 ∧ !b0.getLsbD 4 then speed - 1 else speed
      directionSpeed addr dir (scaleSpeed .s28 speed)

/-- `functionGroup` (include/dcc/rx/crtp_base.hpp:538-566). -/
def functionGroup (addr : BitVec 16) (bs : List Byte) : Prog Unit := do
  let b0 ← lift 542 (byteAt bs 0)
  let n := b0 &&& 0xF0#8
  let low : BitVec 32 := (b0 &&& 0x0F#8).setWidth 32
  if n = 0x80#8 ∨ n = 0x90#8 then
    let f0 ← get 546 (·.cfg.f0Exception)
    emit 565 (.function addr (if f0 then 0x1E#32 else 0x1F#32)
      ((low <<< 1) ||| ((b0 &&& 0x10#8).setWidth 32 >>> 4)))
  else if n = 0xB0#8 then emit 565 (.function addr 0x1E0#32 (low <<< 5))
  else if n = 0xA0#8 then emit 565 (.function addr 0x1E00#32 (low <<< 9))
  else emit 565 (.function addr 0#32 0#32)

/-- `featureExpansion` (include/dcc/rx/crtp_base.hpp:575-633). -/
def featureExpansion (addr : BitVec 16) (bs : List Byte) (rand : Nat) : Prog Unit := do
  let b0 ← lift 577 (byteAt bs 0)
  if b0 = 0xC0#8 then
    let b2 ← lift 580 (byteAt bs 2)
    let b1 ← lift 581 (byteAt bs 1)
    binaryState ((b2.setWidth 32 <<< 7) ||| (b1 &&& 0x7F#8).setWidth 32) (b1.getLsbD 7) rand
  else if b0 = 0xDD#8 then
    let b1 ← lift 587 (byteAt bs 1)
    binaryState ((b1 &&& 0x7F#8).setWidth 32) (b1.getLsbD 7) rand
  else if b0 = 0xDE#8 then
    let b1 ← lift 608 (byteAt bs 1)
    emit 606 (.function addr 0x1FE000#32 (b1.setWidth 32 <<< 13))
  else if b0 = 0xDF#8 then
    let b1 ← lift 615 (byteAt bs 1)
    emit 613 (.function addr 0x1FE00000#32 (b1.setWidth 32 <<< 21))

/-- The address tests of `executeOperationsAddressed` (include/dcc/rx/crtp_base.hpp:339-349). -/
def effectiveAddress (addr : Address) : Prog (Option Address) := do
  if addr.value = 0#16 then return some addr
  let primary ← get 343 fun s => addr.eq s.addrs.primary
  let consist ← if primary then pure false else get 343 fun s => addr.eq s.addrs.consist
  let free : Bool ← if primary || consist then get 344 fun s => s.addrs.logon.value == 0#16 else pure false
  if free then return some addr
  if (← get 347 fun s => addr.eq s.addrs.logon) then return some (← get 347 (·.addrs.primary))
  return none

/-- The switch of `executeOperationsAddressed` (include/dcc/rx/crtp_base.hpp:351-369). -/
def executeInstruction (e : Env) (addr : BitVec 16) (packet : Packet) (bs : List Byte)
    (rand : Nat) : Prog Unit := do
  match ← lift 351 (decodeInstruction bs) with
  | .decoderControl =>
    if addr = 0#16 then
      if (← lift 355 (byteAt bs 0)) = 0#8 then setServiceMode true
  | .consistControl => consistControl e bs
  | .advancedOperations => advancedOperations e addr bs
  | .speedDirection => speedAndDirection addr bs
  | .functionGroup => functionGroup addr bs
  | .featureExpansion => featureExpansion addr bs rand
  | .cvLong => cvLong e addr packet bs
  | .cvShort => cvShort e addr packet bs
  | .unknownService | .logon => return

/-- `executeOperationsAddressed` (include/dcc/rx/crtp_base.hpp:337-372). -/
def executeOperationsAddressed (e : Env) (addr : Address) (packet : Packet) (bs : List Byte)
    (rand : Nat) : Prog Bool := do
  match ← effectiveAddress addr with
  | none => return false
  | some a =>
    executeInstruction e a.value packet bs rand
    return true

/-- `executeOperations` (include/dcc/rx/crtp_base.hpp:289-308). -/
def executeOperations (e : Env) (packet : Packet) (rand : Nat) : Prog Bool := do
  let addr ← lift 292 (decodeAddress packet)
  match addr.type with
  | .broadcast | .short => executeOperationsAddressed e addr packet (packet.drop 1) rand
  | .long => executeOperationsAddressed e addr packet (packet.drop 2) rand
  | _ => return false

/-- `executeService` (include/dcc/rx/crtp_base.hpp:313-324). -/
def executeService (e : Env) (packet : Packet) : Prog Bool := do
  let b0 ← lift 318 (byteAt packet 0)
  if b0 = 0#8 then return true
  else if b0 &&& 0xF0#8 ≠ 0x70#8 then setServiceMode false
  else if packet.length = 3 then registerMode e packet
  else if packet.length = 4 then cvLong e 0#16 packet packet
  return true

/-- `_deque.front()` (include/dcc/rx/crtp_base.hpp:291, 315). -/
def front (line : Nat) : Prog Packet :=
  .atom line (fun s =>
    match s.deque with
    | [] => .error .oob
    | packet :: _ => .ok (s, packet)) .ret

/-- `serviceMode() ? executeService() : executeOperations()`
(include/dcc/rx/crtp_base.hpp:280). -/
def executeFront (e : Env) (rand : Nat) : Prog Bool := do
  let service ← get 280 (·.serviceMode)
  if service then executeService e (← front 315) else executeOperations e (← front 291) rand

/-- `execute`/`executeThreadMode` (include/dcc/rx/crtp_base.hpp:181, 274-283). -/
def execute (e : Env) (now : Int) (rand : Nat) : Prog Bool := do
  if (← get 275 (·.packetEnd)) then return false
  if (← get 275 (·.deque.isEmpty)) then return false
  adr
  logonStore e
  updateQos
  updateTimepoints now
  let ret ← executeFront e rand
  set 281 (·.popFront)
  return ret

/-- `dyn(uint8_t, uint8_t)` (include/dcc/rx/crtp_base.hpp:1058-1062). -/
def dyn (e : Env) (d x : Byte) : Prog Unit := do
  if !(← get 1059 (·.cfg.ch2DataEnabled)) then return
  if (← get 1059 fun s => decide (s.q.dyn.length = e.bidiDeque)) then return
  let g ← lift 1061 (encodeId .b18 7 ((d.setWidth 32 <<< 6) ||| x.setWidth 32 : BitVec 32).toNat)
  act 1060 fun s => do
    let q ← pushBack e.bidiDeque s.q.dyn g
    return { s with q := { s.q with dyn := q } }

/-- The fold expression in `datagram` (include/dcc/rx/crtp_base.hpp:221). -/
def dyns (e : Env) : List Dyn → Prog Unit
  | [] => return
  | d :: ds => do
    dyn e d.convert.1 d.convert.2
    dyns e ds

/-- `datagram` (include/dcc/rx/crtp_base.hpp:211-222). -/
def datagram (e : Env) (ds : List Dyn) : Prog Unit := do
  if (← get 214 fun s => decide (s.q.dyn.length = e.bidiDeque)) then
    set 214 fun s => { s with q := { s.q with blockDyn := true } }
  else if (← get 215 (·.q.dyn.isEmpty)) then
    set 216 fun s => { s with q := { s.q with blockDyn := false } }
    dyn e (← get 217 (·.qos)) 7#8
  if !(← get 221 (·.q.blockDyn)) then dyns e ds

/-- `enable` (include/dcc/rx/crtp_base.hpp:105-108). -/
def enable : Prog Unit := do
  if (← get 106 (·.enabled)) then return
  set 107 fun s => { s with enabled := true }

/-- `disable` with `reset` (include/dcc/rx/crtp_base.hpp:111-115, 870-873). -/
def disable : Prog Unit := do
  if !(← get 112 (·.enabled)) then return
  set 113 fun s => { s with enabled := false }
  set 871 fun s => { s with link := { s.link with checksum := 0#8 } }
  set 871 fun s => { s with link := { s.link with byte := 0#8 } }
  set 871 fun s => { s with link := { s.link with bitCount := 0 } }
  set 872 fun s => { s with link := { s.link with state := .preamble } }

/-- A call made by the thread.  `receive` and the two BiDi calls are steps of their own, whoever makes
them, see `Beat`. -/
def calls (e : Env) : RxOp → Prog Unit
  | .init => init e
  | .enable => enable
  | .disable => disable
  | .execute now rand => do
    let _ ← execute e now rand
    return
  | .datagram ds => datagram e ds
  | .callbackByte i v => do
    match ← get 731 (·.callbacks[i]?) with
    | some (.byte b) => callbackByte b v
    | _ => return
  | .callbackBit i v => do
    match ← get 745 (·.callbacks[i]?) with
    | some (.bit b) => callbackBit b v
    | _ => return
  | .receive _ _ | .biDiChannel1 | .biDiChannel2 => return

end Thread

/-- The object and what is left of the call the thread is in. -/
structure Preempted where
  s : Rx := {}
  prog : Prog Unit := .ret ()

/-- What happens next: the thread makes its next access or calls a method, or one of the methods
meant for interrupts is called, which are not preempted. -/
inductive Beat where
  | access
  | start (op : RxOp)
  | receive (time rand : Nat)
  | biDiChannel1
  | biDiChannel2
  deriving DecidableEq, Repr

/-- The next access of the thread. -/
def Preempted.access (x : Preempted) : R Preempted :=
  match x.prog with
  | .ret _ => .ok x
  | .atom _ f k =>
    match f x.s with
    | .ok (s, b) => .ok { s := s, prog := k b }
    | .error f => .error f

/-- A call made in an interrupt, or by the thread between two accesses. -/
def Preempted.interrupt (e : Env) (x : Preempted) (op : RxOp) : R Preempted :=
  match x.s.step e op with
  | .ok s => .ok { x with s := s }
  | .error f => .error f

/-- One step.  The thread calls a method only after it returned from the one before. -/
def Preempted.step (e : Env) (x : Preempted) (m : Beat) : R Preempted :=
  match m with
  | .access => x.access
  | .start op =>
    match x.prog with
    | .ret _ => .ok { x with prog := Thread.calls e op }
    | _ => .ok x
  | .receive time rand => x.interrupt e (.receive time rand)
  | .biDiChannel1 => x.interrupt e .biDiChannel1
  | .biDiChannel2 => x.interrupt e .biDiChannel2

/-- A sequence of steps. -/
def Preempted.run (e : Env) (x : Preempted) : List Beat → R Preempted
  | [] => .ok x
  | m :: ms => do
    let x ← x.step e m
    x.run e ms

/-- The line of include/dcc/rx/crtp_base.hpp of the next access of the thread, none if it is in no
call. -/
def Preempted.line (x : Preempted) : Option Nat :=
  match x.prog with
  | .ret _ => none
  | .atom l _ _ => some l

end Dcc
