import Verif.Model.RxMachine
import Verif.Model.Tx
/-!
Model of the example program examples/repl: a prompt, a command station and a decoder in three
threads.  Steps are the calls the threads make; the data races of `FiFo::empty`, `FiFo::front` and
of `receive` with `execute` are not modelled (see `RxPreempt` for the latter).
-/
namespace Dcc

/-- What can be entered (examples/repl/src/main.cpp:67-146). -/
inductive ReplInput where
  | address (a : BitVec 16)
  | directionSpeed (dir : Bool) (speed : Byte)
  | f4f0 (state : Byte)
  | f8f5 (state : Byte)
  | readCvByte (cv : BitVec 32)
  | writeCvByte (cv : BitVec 32) (byte : Byte)
  | readCvBit (cv : BitVec 32) (bit : Bool) (pos : Byte)
  | writeCvBit (cv : BitVec 32) (bit : Bool) (pos : Byte)
  deriving DecidableEq, Repr

/-- `addr`, `fifo` and the command station (examples/repl/src/main.cpp:36, 63, 161). -/
structure ReplLine where
  addr : Address := { value := 3#16, type := .short }
  fifo : List Packet := []
  tx : TxHist := { s := {} }

/-- `DCC_TX_DEQUE_SIZE` (CMakeLists.txt:79-81). -/
def replDeque : Nat := 3

/-- The configuration of the command station (examples/repl/src/main.cpp:39-44). -/
def replConfig : TxConfig :=
  { numPreamble := 17#8, bit1 := 58#8, bit0 := 100#8, invert := false, bidi := true }

namespace ReplLine

/-- `fifo->push_back(packet)`, `k` times. -/
def push (s : ReplLine) (k : Nat) (p : R Packet) : R ReplLine := do
  let p ← p
  return { s with fifo := s.fifo ++ List.replicate k p }

/-- The commands of the prompt (examples/repl/src/main.cpp:67-146).  `addr = a` only assigns the value
(include/dcc/address.hpp:25-28). -/
def input (s : ReplLine) : ReplInput → R ReplLine
  | .address a => .ok { s with addr := { s.addr with value := a } }
  | .directionSpeed dir speed =>
    s.push 1 (makeAdvancedSpeedPacket s.addr ((BitVec.ofBool dir).setWidth 8 <<< 7 ||| speed))
  | .f4f0 state => s.push 1 (makeF4F0Packet s.addr state)
  | .f8f5 state => s.push 1 (makeF8F5Packet s.addr state)
  | .readCvByte cv => s.push 1 (makeCvVerifyPacket s.addr cv 0#8)
  | .writeCvByte cv byte => s.push 2 (makeCvWritePacket s.addr cv byte)
  | .readCvBit cv bit pos => s.push 1 (makeCvVerifyBitPacket s.addr cv bit (pos.setWidth 32))
  | .writeCvBit cv bit pos => s.push 2 (makeCvWriteBitPacket s.addr cv bit (pos.setWidth 32))

/-- `command_station.transmit()` (examples/repl/src/main.cpp:50). -/
def transmit (s : ReplLine) : R (ReplLine × Nat) := do
  let (tx, o) ← s.tx.s.transmit replDeque
  return ({ s with tx := { s.tx with s := tx, out := s.tx.out ++ [o] } }, o.duration)

/-- `command_station.packet(fifo->front()); fifo->pop_front();`
(examples/repl/src/main.cpp:53-56). -/
def feed (s : ReplLine) : R ReplLine :=
  match s.fifo with
  | [] => .ok s
  | p :: ps => do
    let tx ← s.tx.step replDeque (.bytes p)
    return { s with tx := tx, fifo := ps }

end ReplLine

/-- The program: the line, the decoder and whether `timer_irq_handler` was assigned
(examples/repl/src/main.cpp:15, 19). -/
structure Repl where
  line : ReplLine := {}
  rx : Rx := {}
  handler : Bool := false

/-- The steps of the threads. -/
inductive ReplStep where
  | input (i : ReplInput)
  | station (rand : Nat)
  | decoder
  | execute (now : Int) (rand : Nat)
  deriving DecidableEq, Repr

/-- One step.  Calling `timer_irq_handler` before it was assigned throws
(examples/repl/src/main.cpp:51). -/
def Repl.step (e : Env) (s : Repl) : ReplStep → R Repl
  | .input i => do return { s with line := ← s.line.input i }
  | .station rand => do
    let (line, ccr) ← s.line.transmit
    if s.handler then
      let rx ← s.rx.step e (.receive ccr rand)
      let line ← line.feed
      return { s with line := line, rx := rx }
    else .error .assertion
  | .decoder => do return { s with rx := ← ({} : Rx).step e .init, handler := true }
  | .execute now rand => do return { s with rx := ← s.rx.step e (.execute now rand) }

/-- All threads, in the order of the list. -/
def Repl.run (e : Env) (s : Repl) : List ReplStep → R Repl
  | [] => .ok s
  | x :: xs => do (← s.step e x).run e xs

/-- The program after the command station was initialised (examples/repl/src/main.cpp:39-44). -/
def Repl.start : R Repl := do
  let tx ← ({ s := {} } : TxHist).step replDeque (.init replConfig)
  return { line := { tx := tx } }

end Dcc
