import Verif.Model.RxBidi
/-!
Configuration and CV access part of include/dcc/rx/crtp_base.hpp.  CV addresses are zero based as
in the code.
-/
namespace Dcc

/-- `impl().readCv(cv)`. -/
def Rx.readCv (e : Env) (s : Rx) (cv : BitVec 32) : Byte × Rx :=
  let v := e.readCv s.trace cv
  (v, s.emit (.readCv cv v))

/-- `impl().writeCv(cv, byte)` with the synchronous method. -/
def Rx.writeCvByte (e : Env) (s : Rx) (cv : BitVec 32) (byte : Byte) : Byte × Rx :=
  let v := e.writeCvByte s.trace cv byte
  (v, s.emit (.writeCvByte cv byte v))

/-- `impl().writeCv(cv, bit, pos)` with the synchronous method. -/
def Rx.writeCvBit (e : Env) (s : Rx) (cv : BitVec 32) (bit : Bool) (pos : BitVec 32) : Bool × Rx :=
  let v := e.writeCvBit s.trace cv bit pos
  (v, s.emit (.writeCvBit cv bit pos v))

/-- The primary address part of `init` (include/dcc/rx/crtp_base.hpp:55-63).  `decode_address` of
the single byte CV1 may only read that byte. -/
def Rx.initPrimary (e : Env) (s : Rx) (cv29 : Byte) : R Rx := do
  if cv29.getLsbD 5 then
    let (cv17, s) := s.readCv e 16#32
    let (cv18, s) := s.readCv e 17#32
    let a ← decodeAddress [cv17, cv18]
    return { s with addrs := { s.addrs with primary := { a with reversed := cv29.getLsbD 0 } } }
  else
    let (cv1, s) := s.readCv e 0#32
    let a ← decodeAddress [cv1]
    return { s with addrs := { s.addrs with primary := { a with reversed := cv29.getLsbD 0 } } }

/-- The consist address computed by `init` (include/dcc/rx/crtp_base.hpp:68-72). -/
def consistOf (cv19 cv20 : Byte) : Address :=
  { value := 100#16 * (cv20 &&& 0x7F#8).setWidth 16 + (cv19 &&& 0x7F#8).setWidth 16
    type := .long
    reversed := cv19.getLsbD 7 }

/-- The rest of `init` (include/dcc/rx/crtp_base.hpp:65-101). -/
def Rx.initRest (e : Env) (s : Rx) (cv29 : Byte) : Rx :=
  let (cv19, s) := s.readCv e 18#32
  let (cv20, s) := s.readCv e 19#32
  let (cv15, s) := s.readCv e 14#32
  let (cv16, s) := s.readCv e 15#32
  let bidi := cv29.getLsbD 3
  let (cv28, s) := s.readCv e 27#32
  let s := if e.highCurrent then s.emit (.highCurrentBiDi (cv28.getLsbD 6)) else s
  let (cv250, s) := s.readCv e 249#32
  let (cv251, s) := s.readCv e 250#32
  let (cv252, s) := s.readCv e 251#32
  let (cv253, s) := s.readCv e 252#32
  let (cv65297, s) := s.readCv e 65296#32
  let (cv65298, s) := s.readCv e 65297#32
  let (cv65299, s) := s.readCv e 65298#32
  { s with
    addrs := { s.addrs with consist := consistOf cv19 cv20 }
    cfg :=
      { f0Exception := !cv29.getLsbD 1
        cvsLocked := cv15 != cv16 && cv15 != 0#8 && cv16 != 0#8
        ch1AddrEnabled := bidi && cv28.getLsbD 0
        ch2DataEnabled := bidi && cv28.getLsbD 1
        logonEnabled := bidi && cv28.getLsbD 7
        ch2ConsistEnabled := bidi && cv20.getLsbD 7
        did := [cv250, cv251, cv252, cv253] }
    logon :=
      { s.logon with
        cidFront := (cv65297.setWidth 16 <<< 8) ||| cv65298.setWidth 16
        sessionFront := cv65299 } }

/-- `init` (include/dcc/rx/crtp_base.hpp:52-102). -/
def Rx.init (e : Env) (s : Rx) : R Rx := do
  let (cv29, s) := s.readCv e 28#32
  let s ← s.initPrimary e cv29
  return s.initRest e cv29

/-- The byte callbacks (include/dcc/rx/crtp_base.hpp:731-734, 778-781). -/
def Rx.callbackByte (s : Rx) (byte red : Byte) : R Rx :=
  if !s.serviceMode then s.pom red
  else if byte = red then .ok (s.emit .serviceAck)
  else .ok s

/-- The bit callbacks (include/dcc/rx/crtp_base.hpp:745-748, 792-795); a `bool` passed to `pom`
becomes 0 or 1. -/
def Rx.callbackBit (s : Rx) (bit red : Bool) : R Rx :=
  if !s.serviceMode then s.pom (if red then 1#8 else 0#8)
  else if bit = red then .ok (s.emit .serviceAck)
  else .ok s

/-- What a user class with asynchronous access does with a callback: nothing yet. -/
def Rx.defer (s : Rx) (c : Callback) (ev : Event) : Rx :=
  Rx.emit { s with callbacks := s.callbacks ++ [c] } ev

/-- `cvVerify`, byte (include/dcc/rx/crtp_base.hpp:721-737). -/
def Rx.cvVerifyByte (e : Env) (s : Rx) (cv : BitVec 32) (byte : Byte) : R Rx :=
  if s.cfg.cvsLocked then .ok s
  else if e.asyncReadable then .ok (s.defer (.byte byte) (.asyncReadCvByte cv byte))
  else
    let v := e.readCvByte s.trace cv byte
    Rx.callbackByte (s.emit (.readCvByte cv byte v)) byte v

/-- `cvVerify`, bit (include/dcc/rx/crtp_base.hpp:721-724, 744-751). -/
def Rx.cvVerifyBit (e : Env) (s : Rx) (cv : BitVec 32) (bit : Bool) (pos : BitVec 32) : R Rx :=
  if s.cfg.cvsLocked then .ok s
  else if e.asyncReadable then .ok (s.defer (.bit bit) (.asyncReadCvBit cv bit pos))
  else
    let v := e.readCvBit s.trace cv bit pos
    Rx.callbackBit (s.emit (.readCvBit cv bit pos v)) bit v

/-- `cvWriteImpl`, byte (include/dcc/rx/crtp_base.hpp:777-784). -/
def Rx.cvWriteImplByte (e : Env) (s : Rx) (cv : BitVec 32) (byte : Byte) : R Rx :=
  if e.asyncWritable then .ok (s.defer (.byte byte) (.asyncWriteCvByte cv byte))
  else
    let (v, s) := s.writeCvByte e cv byte
    s.callbackByte byte v

/-- `cvWriteImpl`, bit (include/dcc/rx/crtp_base.hpp:791-798). -/
def Rx.cvWriteImplBit (e : Env) (s : Rx) (cv : BitVec 32) (bit : Bool) (pos : BitVec 32) : R Rx :=
  if e.asyncWritable then .ok (s.defer (.bit bit) (.asyncWriteCvBit cv bit pos))
  else
    let (v, s) := s.writeCvBit e cv bit pos
    s.callbackBit bit v

/-- The CVs after whose writing `cvWrite` calls `init` (include/dcc/rx/crtp_base.hpp:760-768). -/
def initCvs : List (BitVec 32) := [0#32, 14#32, 15#32, 16#32, 17#32, 18#32, 19#32, 27#32, 28#32]

/-- The end of `cvWrite` (include/dcc/rx/crtp_base.hpp:769-770). -/
def Rx.initIfNeeded (e : Env) (s : Rx) (cv : BitVec 32) : R Rx :=
  if cv ∈ initCvs then s.init e else .ok s

/-- `cvWrite`, byte (include/dcc/rx/crtp_base.hpp:757-771). -/
def Rx.cvWriteByte (e : Env) (s : Rx) (cv : BitVec 32) (byte : Byte) : R Rx :=
  if s.cfg.cvsLocked && cv != 14#32 then .ok s
  else do
    let s ← s.cvWriteImplByte e cv byte
    s.initIfNeeded e cv

/-- `cvWrite`, bit (include/dcc/rx/crtp_base.hpp:757-771). -/
def Rx.cvWriteBit (e : Env) (s : Rx) (cv : BitVec 32) (bit : Bool) (pos : BitVec 32) : R Rx :=
  if s.cfg.cvsLocked && cv != 14#32 then .ok s
  else do
    let s ← s.cvWriteImplBit e cv bit pos
    s.initIfNeeded e cv

/-- `countOwnEqualCvPackets` (include/dcc/rx/crtp_base.hpp:860-867); `packet` is
`_deque.front()`. -/
def Rx.countOwnEqualCvPackets (s : Rx) (packet : Packet) : Rx :=
  if s.lastOwnCvPacket = packet then { s with ownEqualCvPackets := s.ownEqualCvPackets + 1 }
  else { s with ownEqualCvPackets := 1, lastOwnCvPacket := packet, q := { s.q with pom := [] } }

/-- The CV address in a long form instruction (include/dcc/rx/crtp_base.hpp:648). -/
def cvAddrOf (b0 b1 : Byte) : BitVec 32 :=
  ((b0 &&& 3#8).setWidth 32 <<< 8) ||| b1.setWidth 32

/-- The switch of `cvLong` (include/dcc/rx/crtp_base.hpp:648-672). -/
def Rx.cvLongBody (e : Env) (s : Rx) (bs : List Byte) : R Rx := do
  let b0 ← byteAt bs 0
  let b1 ← byteAt bs 1
  let cv := cvAddrOf b0 b1
  let op := (b0 >>> 2) &&& 3#8
  if op = 0#8 then return s
  else if op = 1#8 then s.cvVerifyByte e cv (← byteAt bs 2)
  else if op = 3#8 then
    if s.ownEqualCvPackets < 2 then return s
    else if s.ownEqualCvPackets = 2 then s.cvWriteByte e cv (← byteAt bs 2)
    else s.cvVerifyByte e cv (← byteAt bs 2)
  else
    let b2 ← byteAt bs 2
    let pos := (b2 &&& 7#8).setWidth 32
    let bit := b2.getLsbD 3
    if !b2.getLsbD 4 then s.cvVerifyBit e cv bit pos
    else if s.ownEqualCvPackets = 2 then s.cvWriteBit e cv bit pos
    else return s

/-- `cvLong` (include/dcc/rx/crtp_base.hpp:640-673). -/
def Rx.cvLong (e : Env) (s : Rx) (addr : BitVec 16) (packet : Packet) (bs : List Byte) : R Rx :=
  if addr ≠ 0#16 ∧ addr = s.addrs.consist.value then .ok s
  else
    let s := s.countOwnEqualCvPackets packet
    if s.serviceMode ∧ s.ownEqualCvPackets ≠ 2 then .ok s
    else s.cvLongBody e bs

/-- The switch of `cvShort` (include/dcc/rx/crtp_base.hpp:684-713). -/
def Rx.cvShortBody (e : Env) (s : Rx) (bs : List Byte) : R Rx := do
  let b0 ← byteAt bs 0
  let k := b0 &&& 0x0F#8
  if k = 2#8 then s.cvWriteByte e 22#32 (← byteAt bs 1)
  else if k = 3#8 then s.cvWriteByte e 23#32 (← byteAt bs 1)
  else if k = 4#8 then
    if s.ownEqualCvPackets ≠ 2 then return s
    else
      let s ← s.cvWriteByte e 16#32 (0xC0#8 ||| (← byteAt bs 1))
      let s ← s.cvWriteByte e 17#32 (← byteAt bs 2)
      s.cvWriteBit e 28#32 true 5#32
  else if k = 5#8 then
    if s.ownEqualCvPackets ≠ 2 then return s
    else
      let s ← s.cvWriteByte e 30#32 (← byteAt bs 1)
      s.cvWriteByte e 31#32 (← byteAt bs 2)
  else return s

/-- `cvShort` (include/dcc/rx/crtp_base.hpp:679-714). -/
def Rx.cvShort (e : Env) (s : Rx) (addr : BitVec 16) (packet : Packet) (bs : List Byte) : R Rx :=
  if addr ≠ 0#16 ∧ addr = s.addrs.consist.value then .ok s
  else (s.countOwnEqualCvPackets packet).cvShortBody e bs

/-- `registerMode` (include/dcc/rx/crtp_base.hpp:803-828). -/
def Rx.registerMode (e : Env) (s : Rx) (bs : List Byte) : R Rx := do
  let b0 ← byteAt bs 0
  let w := b0.getLsbD 3
  let reg := (b0 &&& 7#8).setWidth 32
  let b1 ← byteAt bs 1
  if reg < 4#32 then
    let i : BitVec 32 := s.indexReg.setWidth 32 * 4#32 - (4#32 - reg)
    if w then s.cvWriteByte e i b1 else s.cvVerifyByte e i b1
  else if reg = 4#32 then
    if w then s.cvWriteByte e 28#32 b1 else s.cvVerifyByte e 28#32 b1
  else if reg = 5#32 then
    if w then return { s with indexReg := b1 }
    else if s.indexReg = b1 then return s.emit .serviceAck
    else return s
  else
    if w then s.cvWriteByte e reg b1 else s.cvVerifyByte e reg b1

end Dcc
