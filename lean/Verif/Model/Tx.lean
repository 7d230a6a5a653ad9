import Verif.Model.Utility
import Verif.Model.Datagram
/-!
Model of include/dcc/tx/{config,timing,timings,crtp_base}.hpp.
-/
namespace Dcc

/-- `Config` (include/dcc/tx/config.hpp:17-40). -/
structure TxConfig where
  numPreamble : Byte := 17#8
  bit1 : Byte := 58#8
  bit0 : Byte := 100#8
  invert : Bool := false
  bidi : Bool := true
  deriving DecidableEq, Repr

/-- The ranges asserted by `init` (include/dcc/tx/crtp_base.hpp:34-40) with the default values of
the CMake options (CMakeLists.txt: DCC_TX_MIN/MAX_PREAMBLE_BITS, DCC_TX_MIN/MAX_BIT_1/0_TIMING). -/
def TxConfig.accepted (c : TxConfig) : Bool :=
  17#8 ≤ c.numPreamble && c.numPreamble ≤ 30#8 && 56#8 ≤ c.bit1 && c.bit1 ≤ 60#8 &&
    97#8 ≤ c.bit0 && c.bit0 ≤ 114#8

/-- Capacity of `Timings` (include/dcc/tx/timings.hpp:23-28). -/
def timingsCapacity : Nat := (255 + 1 + maxPacketSize * (8 + 1)) * 2

/-- The bit loop of `bytes2timings` (include/dcc/tx/timings.hpp:52-55): `i` counts down from
`CHAR_BIT`. -/
def bitLoop (cfg : TxConfig) (byte : Byte) : Nat → List Nat
  | 0 => []
  | i + 1 =>
    let bit := if byte &&& (1#8 <<< i) ≠ 0#8 then cfg.bit1.toNat else cfg.bit0.toNat
    List.replicate 2 bit ++ bitLoop cfg byte i

/-- The byte loop of `bytes2timings` (include/dcc/tx/timings.hpp:49-56). -/
def byteLoop (cfg : TxConfig) : List Byte → List Nat
  | [] => []
  | byte :: rest => List.replicate 2 cfg.bit0.toNat ++ bitLoop cfg byte 8 ++ byteLoop cfg rest

/-- The elements `bytes2timings` writes (include/dcc/tx/timings.hpp:35-65). -/
def timingsOf (cfg : TxConfig) (bytes : List Byte) : List Nat :=
  List.replicate (cfg.numPreamble.toNat * 2) cfg.bit1.toNat ++ byteLoop cfg bytes ++
    List.replicate 2 cfg.bit1.toNat

/-- `bytes2timings` (include/dcc/tx/timings.hpp:35-65): exceeding the capacity is a fault.
Simplification: the elements are written through iterators before `resize`, which is assumed to
keep them. -/
def bytes2timings (bytes : List Byte) (cfg : TxConfig := {}) : R (List Nat) :=
  if (timingsOf cfg bytes).length ≤ timingsCapacity then .ok (timingsOf cfg bytes)
  else .error .overflow

/-- `packet2timings` (include/dcc/tx/timings.hpp:72-74). -/
def packet2timings (packet : Packet) (cfg : TxConfig := {}) : R (List Nat) :=
  bytes2timings packet cfg

/-- `_idle_packet` (include/dcc/tx/crtp_base.hpp:146): a compile time constant with the default
configuration. -/
def idleTimings : List Nat := timingsOf {} makeIdlePacket

/-- Calls into the user class (include/dcc/tx/command_station.hpp). -/
inductive TxEvent where
  | trackOutputs (n p : Bool)
  | biDiStart
  | biDiChannel1
  | biDiChannel2
  | biDiEnd
  deriving DecidableEq, Repr

/-- What one call of `transmit` does: the returned duration and the calls into the user class. -/
structure TxOut where
  duration : Nat
  events : List TxEvent
  deriving DecidableEq, Repr

/-- Members of `CrtpBase` (include/dcc/tx/crtp_base.hpp:146-152).  `_deque` is a ring of `n + 1`
slots with indices `first` and `last` (`ztl::inplace_deque`, external), `_packet` either points to
the idle packet (`none`) or to a slot of the ring. -/
structure Tx where
  slots : Nat → List Nat := fun _ => []
  first : Nat := 0
  last : Nat := 0
  packet : Option Nat := none
  packetCount : Nat := 0
  bidiCount : Nat := 0
  cfg : TxConfig := {}

namespace Tx

/-- `size(_deque)` of the ring with capacity `n`. -/
def size (n : Nat) (s : Tx) : Nat := (s.last + (n + 1) - s.first) % (n + 1)

/-- `full(_deque)`. -/
def full (n : Nat) (s : Tx) : Bool := s.size n == n

/-- `empty(_deque)`. -/
def empty (s : Tx) : Bool := s.first == s.last

/-- `_deque.push_back`: writes the slot behind the last one. -/
def pushBack (n : Nat) (s : Tx) (t : List Nat) : Tx :=
  { s with slots := fun i => if i = s.last then t else s.slots i, last := (s.last + 1) % (n + 1) }

/-- `_deque.pop_front`: does not touch the slot. -/
def popFront (n : Nat) (s : Tx) : Tx := { s with first := (s.first + 1) % (n + 1) }

/-- `*_packet`. -/
def current (s : Tx) : List Nat :=
  match s.packet with
  | none => idleTimings
  | some i => s.slots i

/-- `init` (include/dcc/tx/crtp_base.hpp:34-40). -/
def init (s : Tx) (cfg : TxConfig) : R Tx :=
  if cfg.accepted then .ok { s with cfg := cfg } else .error .assertion

/-- `bytes` and `packet` (include/dcc/tx/crtp_base.hpp:45-56). -/
def bytes (n : Nat) (s : Tx) (bs : List Byte) : R Tx :=
  if s.full n then .ok s
  else if bs.length ≤ maxPacketSize then do
    let t ← bytes2timings bs s.cfg
    return s.pushBack n t
  else .error .assertion

/-- `packetTiming` (include/dcc/tx/crtp_base.hpp:96-106). -/
def packetTiming (s : Tx) : R (Tx × TxOut) :=
  match s.current[s.packetCount]? with
  | none => .error .oob
  | some retval =>
    let ev := if s.packetCount % 2 = 0 then TxEvent.trackOutputs (false ^^ s.cfg.invert) (true ^^ s.cfg.invert)
      else TxEvent.trackOutputs (true ^^ s.cfg.invert) (false ^^ s.cfg.invert)
    .ok ({ s with packetCount := s.packetCount + 1 }, ⟨retval, [ev]⟩)

/-- `bidiTiming` (include/dcc/tx/crtp_base.hpp:111-144). -/
def bidiTiming (s : Tx) : Tx × TxOut :=
  let s' := { s with bidiCount := s.bidiCount + 1 }
  match s.bidiCount with
  | 0 => (s', ⟨bidiTCS, [.trackOutputs (false ^^ s.cfg.invert) (true ^^ s.cfg.invert)]⟩)
  | 1 => (s', ⟨bidiTTS1 - bidiTCS, [.trackOutputs false false, .biDiStart]⟩)
  | 2 => (s', ⟨bidiTTS2 - bidiTTS1, [.biDiChannel1]⟩)
  | 3 => (s', ⟨bidiTTC2 - bidiTTS2, [.biDiChannel2]⟩)
  | _ => (s', ⟨bidiTCE - bidiTTC2, [.biDiEnd]⟩)

/-- `transmit` (include/dcc/tx/crtp_base.hpp:61-84). -/
def transmit (n : Nat) (s : Tx) : R (Tx × TxOut) :=
  if s.packetCount < s.current.length then s.packetTiming
  else if s.cfg.bidi ∧ s.bidiCount ≤ 4 then .ok s.bidiTiming
  else
    let s1 := if s.empty then { s with packet := none }
      else ({ s with packet := some s.first } : Tx).popFront n
    let s2 := { s1 with packetCount := 0, bidiCount := 0 }
    s2.packetTiming

end Tx

/-- Calls of the public interface of a command station. -/
inductive TxOp where
  | init (cfg : TxConfig)
  | bytes (bs : List Byte)
  | transmit
  deriving DecidableEq, Repr

/-- A history of a command station: final state, what each `transmit` did and which packets were
accepted (with the configuration they were accepted under). -/
structure TxHist where
  s : Tx
  out : List TxOut := []
  acc : List (TxConfig × List Byte) := []

/-- One call; `n` is `DCC_TX_DEQUE_SIZE`.  A packet is recorded as accepted if the queue is not
full (include/dcc/tx/crtp_base.hpp:53). -/
def TxHist.step (n : Nat) (h : TxHist) : TxOp → R TxHist
  | .init cfg => do return { h with s := ← h.s.init cfg }
  | .bytes bs => do
    let s ← h.s.bytes n bs
    return { h with s := s, acc := if h.s.full n then h.acc else h.acc ++ [(h.s.cfg, bs)] }
  | .transmit => do
    let (s, o) ← h.s.transmit n
    return { h with s := s, out := h.out ++ [o] }

/-- A history of calls. -/
def TxHist.run (n : Nat) (h : TxHist) : List TxOp → R TxHist
  | [] => .ok h
  | op :: ops => do (← h.step n op).run n ops

end Dcc
