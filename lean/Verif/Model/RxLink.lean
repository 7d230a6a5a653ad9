import Verif.Model.RxExec
/-!
Reception of bits, include/dcc/rx/crtp_base.hpp.
-/
namespace Dcc

/-- `reset` (include/dcc/rx/crtp_base.hpp:870-873). -/
def Link.reset (l : Link) : Link :=
  { l with bitCount := 0, byte := 0#8, checksum := 0#8, state := .preamble }

/-- `reset` on the whole object. -/
def Rx.reset (s : Rx) : Rx := { s with link := s.link.reset }

/-- `enable` (include/dcc/rx/crtp_base.hpp:105-108). -/
def Rx.enable (s : Rx) : Rx := if s.enabled then s else { s with enabled := true }

/-- `disable` (include/dcc/rx/crtp_base.hpp:111-115). -/
def Rx.disable (s : Rx) : Rx := if !s.enabled then s else Rx.reset { s with enabled := false }

/-- `executeHandlerMode` (include/dcc/rx/crtp_base.hpp:262-268). -/
def Rx.executeHandlerMode (e : Env) (s : Rx) (rand : Nat) : R (Rx × Bool) :=
  if s.addrs.received.type ≠ .automaticLogon then .ok (s, false)
  else if s.link.packet.length ≤ 7 ∨ crc8Packet s.link.packet = 0#8 then do
    return (← s.executeAutomaticLogon e s.addrs.received (s.link.packet.drop 1) rand, true)
  else .ok (s, true)

/-- The end of a packet (include/dcc/rx/crtp_base.hpp:160-173).  In `_addrs.received = {}` the braces
initialise a `value_type` without a user-defined conversion, so overload resolution takes
`operator=(value_type const&)` (include/dcc/address.hpp:25-28) and not the assignment of a whole
`Address`: the value becomes 0, the type and the direction remain those of the packet before. -/
def Rx.endOfPacket (e : Env) (s : Rx) (rand : Nat) : R Rx :=
  if s.link.checksum = 0#8 ∧ 3 ≤ s.link.packet.length then do
    let s := { s with
      link := { s.link with packetEnd := true }
      packetCount := s.packetCount + 1 }
    let a ← decodeAddress s.link.packet
    let s := { s with addrs := { s.addrs with received := a } }
    let (s, handled) ← s.executeHandlerMode e rand
    if handled then return s
    else
      let q ← pushBack e.rxDeque s.deque s.link.packet
      return { s with deque := q }
  else
    .ok { s with
      link := { s.link with packet := [] }
      addrs := { s.addrs with received := s.addrs.received.assignValue 0#16 } }

/-- The switch of `receive` (include/dcc/rx/crtp_base.hpp:132-173).  `bit` is false for a zero
and true for a one. -/
def Rx.receiveBit (e : Env) (s : Rx) (bit : Bool) (rand : Nat) : R Rx :=
  let l := s.link
  match l.state with
  | .preamble =>
    if bit then .ok { s with link := { l with bitCount := l.bitCount + 1 } }
    else if l.bitCount < 10 * 2 then .ok s.reset
    else .ok { s with link := { l with state := .startbit } }
  | .startbit =>
    .ok { s with
      link := { l with packet := [], bitCount := 0, isHalfbit := false, state := .data }
      preambleCount := s.preambleCount + 1 }
  | .data =>
    let byte := (l.byte <<< 1) ||| (if bit then 1#8 else 0#8)
    if l.bitCount + 1 < 8 then
      .ok { s with link := { l with byte := byte, bitCount := l.bitCount + 1 } }
    else do
      let packet ← pushBack maxPacketSize l.packet byte
      return { s with
        link :=
          { l with
            packet := packet
            checksum := l.checksum ^^^ byte
            bitCount := 0
            byte := 0#8
            state := .endbit } }
  | .endbit =>
    if !bit then .ok { s with link := { l with state := .data } }
    else do
      let s ← s.endOfPacket e rand
      return s.reset

/-- `_state > Startbit` (include/dcc/rx/crtp_base.hpp:127). -/
def LinkState.halves : LinkState → Bool
  | .preamble | .startbit => false
  | .data | .endbit => true

/-- `receive` (include/dcc/rx/crtp_base.hpp:120-175); `rand` is what `rand()` returns if a logon
backoff asks for it. -/
def Rx.receive (e : Env) (s : Rx) (time rand : Nat) : R Rx :=
  let s := { s with link := { s.link with packetEnd := false } }
  match time2bit time with
  | .invalid => .ok s
  | b =>
    if s.link.state.halves && !s.link.isHalfbit then
      .ok { s with link := { s.link with isHalfbit := true } }
    else
      let s := if s.link.state.halves then { s with link := { s.link with isHalfbit := false } }
        else s
      if s.deque.length = e.rxDeque then .ok s.reset
      else s.receiveBit e (b = .b1) rand

end Dcc
