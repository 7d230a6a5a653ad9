import Verif.Model.RxCv
/-!
Automatic logon part of include/dcc/rx/crtp_base.hpp.
-/
namespace Dcc

/-- `assert(!full(_logon_deque)); _logon_deque.push_back(...)`
(include/dcc/rx/crtp_base.hpp:956-957, 979-980, 1003-1004). -/
def Rx.pushLogon (s : Rx) (d : List Byte) : R Rx :=
  if s.q.logon.length < 1 then .ok { s with q := { s.q with logon := s.q.logon ++ [d] } }
  else .error .assertion

/-- The number made of bytes, most significant first, as in the shift expressions of
include/dcc/rx/crtp_base.hpp:957-963, 980-985, 1004-1007. -/
def bytesToNat (bs : List Byte) : Nat := bs.foldl (fun n b => n * 256 + b.toNat) 0

/-- Difference of two session IDs, `static_cast<uint32_t>(back - front)`
(include/dcc/rx/crtp_base.hpp:931-932): an `int` difference, negative values become huge. -/
def sessionDiff (back front : Byte) : BitVec 32 := back.setWidth 32 - front.setWidth 32

/-- The end of `logonEnable` (include/dcc/rx/crtp_base.hpp:948-964). -/
def Rx.logonAnswer (e : Env) (s : Rx) (gg : AddressGroup) (rand : Nat) : R Rx :=
  if gg = .acc then .ok s
  else
    let b := if gg = .now then s.logon.backoff.now else s.logon.backoff
    let (b, back) := b.query rand
    let s := { s with logon := { s.logon with backoff := b } }
    if back then .ok s
    else do
      s.pushLogon (← encodeId .b48 15 (bytesToNat (e.manufacturerId :: s.cfg.did)))

/-- `logonEnable` (include/dcc/rx/crtp_base.hpp:921-964). -/
def Rx.logonEnable (e : Env) (s : Rx) (gg : AddressGroup) (cid : BitVec 16) (session : Byte)
    (rand : Nat) : R Rx :=
  if !s.cfg.logonEnabled || s.logon.selected then .ok s
  else
    let s := { s with logon := { s.logon with cidBack := cid, sessionBack := session } }
    if cid = s.logon.cidFront then
      if sessionDiff session s.logon.sessionFront ≤ 4#32 then
        let s := { s with logon := { s.logon with selected := true, assigned := true, store := true } }
        let (cv65300, s) := s.readCv e 65299#32
        let (cv65301, s) := s.readCv e 65300#32
        do
          let a ← decodeAddress [cv65300, cv65301]
          return { s with addrs := { s.addrs with logon := a } }
      else
        Rx.logonAnswer e
          { s with
            logon := { s.logon with selected := false, assigned := false, store := false }
            addrs := { s.addrs with logon := s.addrs.logon.assignValue 0#16 } } gg rand
    else s.logonAnswer e gg rand

/-- The five data bytes of the short info (include/dcc/rx/crtp_base.hpp:973-978). -/
def shortInfo (primary : Address) : List Byte :=
  [0x80#8 ||| (primary.value >>> 8).setWidth 8, primary.value.setWidth 8, 0#8, 0#8, 0#8]

/-- `logonSelect` (include/dcc/rx/crtp_base.hpp:969-986). -/
def Rx.logonSelect (s : Rx) (did : List Byte) : R Rx :=
  if !s.cfg.logonEnabled || s.logon.assigned || did ≠ s.cfg.did then .ok s
  else do
    let s := { s with logon := { s.logon with selected := true } }
    let data := shortInfo s.addrs.primary
    s.pushLogon (← encodeData .b48 (bytesToNat (data ++ [crc8 data])))

/-- The five data bytes of the assign acknowledgement (include/dcc/rx/crtp_base.hpp:1001-1002). -/
def assignInfo : List Byte := [0xD0#8, 0#8, 0#8, 0#8, 0#8]

/-- `logonAssign` (include/dcc/rx/crtp_base.hpp:993-1008). -/
def Rx.logonAssign (s : Rx) (did : List Byte) (a : Address) (overwritePrimary : Bool) : R Rx :=
  if !s.cfg.logonEnabled || did ≠ s.cfg.did then .ok s
  else do
    let s := { s with
      logon := { s.logon with assigned := true, store := true }
      addrs := { s.addrs with
        consist := s.addrs.consist.assignValue 0#16
        logon := a
        primary := if a.value ≠ 0#16 ∧ overwritePrimary then a else s.addrs.primary } }
    s.pushLogon (← encodeData .b48 (bytesToNat (assignInfo ++ [crc8 assignInfo])))

/-- `bytes.subspan<2uz, 4uz>()` (include/dcc/rx/crtp_base.hpp:385, 392): a fault if the span is too
short. -/
def didOf (bs : List Byte) : R (List Byte) :=
  if 6 ≤ bs.length then .ok ((bs.drop 2).take 4) else .error .oob

/-- `executeAutomaticLogon` (include/dcc/rx/crtp_base.hpp:379-424).  The result of the C++ function
is not used by its caller and left out. -/
def Rx.executeAutomaticLogon (e : Env) (s : Rx) (addr : Address) (bs : List Byte) (rand : Nat) :
    R Rx :=
  if addr.value ≠ 254#16 then .ok s
  else do
    let b0 ← byteAt bs 0
    let k := b0 &&& 0xF0#8
    if k = 0xD0#8 then s.logonSelect (← didOf bs)
    else if k = 0xE0#8 then
      let did ← didOf bs
      let b6 ← byteAt bs 6
      let overwrite : Bool := b6 &&& 0xC0#8 != 0xC0#8
      let a13_8 := b6 &&& 0x3F#8
      if a13_8 < 0x28#8 then s.logonAssign did (← decodeAddress (bs.drop 6)) overwrite
      else if a13_8 < 0x38#8 then return s
      else if a13_8 < 0x39#8 then s.logonAssign did (← decodeAddress (bs.drop 7)) overwrite
      else return s
    else if k = 0xF0#8 then
      let cid ← data2uint16 (bs.drop 1)
      let session ← byteAt bs 3
      s.logonEnable e (AddressGroup.ofByte b0) cid session rand
    else return s

/-- The writes `logonStore` makes if the assigned address became the primary address
(include/dcc/rx/crtp_base.hpp:1155-1160). -/
def Rx.storePrimary (e : Env) (s : Rx) : Rx :=
  let (_, s) := s.writeCvByte e 16#32 (0xC0#8 ||| (s.addrs.primary.value >>> 8).setWidth 8)
  let (_, s) := s.writeCvByte e 17#32 (s.addrs.primary.value.setWidth 8)
  let (_, s) := s.writeCvBit e 28#32 true 5#32
  s

/-- Several calls of `impl().writeCv(cv, byte)` one after the other. -/
def Rx.writeCvs (e : Env) (s : Rx) : List (BitVec 32 × Byte) → Rx
  | [] => s
  | w :: ws => (s.writeCvByte e w.1 w.2).2.writeCvs e ws

/-- The writes `logonStore` makes in any case (include/dcc/rx/crtp_base.hpp:1162-1173). -/
def Rx.storeTail (e : Env) (s : Rx) : Rx :=
  let s := s.writeCvs e [(18#32, 0#8), (19#32, 0#8)]
  let s := { s with logon := { s.logon with cidFront := s.logon.cidBack } }
  let s := s.writeCvs e
    [(65296#32, (s.logon.cidBack >>> 8).setWidth 8), (65297#32, s.logon.cidBack.setWidth 8)]
  let s := { s with logon := { s.logon with sessionFront := s.logon.sessionBack } }
  s.writeCvs e
    [(65298#32, s.logon.sessionBack), (65299#32, (s.addrs.logon.value >>> 8).setWidth 8),
     (65300#32, s.addrs.logon.value.setWidth 8)]

/-- `logonStore` (include/dcc/rx/crtp_base.hpp:1150-1174). -/
def Rx.logonStore (e : Env) (s : Rx) : Rx :=
  if !s.logon.store then s
  else
    let s := { s with logon := { s.logon with store := false } }
    (if s.addrs.primary.eq s.addrs.logon then s.storePrimary e else s).storeTail e

end Dcc
