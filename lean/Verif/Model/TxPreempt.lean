import Verif.Model.Tx
/-!
`init` and `packet` of the transmitter in the thread, preempted by calls of `transmit` in a timer
interrupt, as in examples/stm32/src/command_station.cpp:17-66.

Both methods are taken apart into their accesses to the object.  `full(_deque)` reads the two indices
of the ring one after the other, `push_back` first writes the slot behind the last element, in any
number of steps, and then moves the index.  `transmit` is not preempted.
-/
namespace Dcc

/-- Where the thread is. -/
inductive TxPhase where
  | idle
  /-- `full(_deque)`, before the index of the first element is read
  (include/dcc/tx/crtp_base.hpp:53). -/
  | full (bs : List Byte)
  /-- `full(_deque)`, before the index behind the last element is read. -/
  | full2 (bs : List Byte) (first : Nat)
  /-- The assertion and `bytes2timings` (include/dcc/tx/crtp_base.hpp:54-55). -/
  | timings (bs : List Byte)
  /-- `push_back`, before the slot is written (include/dcc/tx/crtp_base.hpp:55). -/
  | write (bs : List Byte) (cfg : TxConfig) (ts : List Nat)
  /-- `push_back`, before the index is moved. -/
  | advance (bs : List Byte) (cfg : TxConfig) (ts : List Nat)
  /-- `_cfg = cfg`, before one of its members is written (include/dcc/tx/crtp_base.hpp:39). -/
  | preamble (cfg : TxConfig)
  | bit1 (cfg : TxConfig)
  | bit0 (cfg : TxConfig)
  | invert (cfg : TxConfig)
  | bidi (cfg : TxConfig)
  deriving DecidableEq, Repr

/-- The object with its history, and where the thread is. -/
structure TxTask where
  h : TxHist := { s := {} }
  phase : TxPhase := .idle

/-- What happens next: an interrupt, a call by the thread, its next access, or part of writing a
slot, after which something else is in the slot. -/
inductive TxBeat where
  | transmit
  | start (op : TxOp)
  | access
  | scribble (junk : List Nat)
  deriving DecidableEq, Repr

/-- Write a slot of the ring. -/
def Tx.setSlot (s : Tx) (i : Nat) (t : List Nat) : Tx :=
  { s with slots := fun j => if j = i then t else s.slots j }

/-- The next access of the thread. -/
def TxTask.access (n : Nat) (x : TxTask) : R TxTask :=
  match x.phase with
  | .idle => .ok x
  | .full bs => .ok { x with phase := .full2 bs x.h.s.first }
  | .full2 bs first =>
    if (x.h.s.last + (n + 1) - first) % (n + 1) = n then .ok { x with phase := .idle }
    else .ok { x with phase := .timings bs }
  | .timings bs =>
    if bs.length ≤ maxPacketSize then do
      let t ← bytes2timings bs x.h.s.cfg
      return { x with phase := .write bs x.h.s.cfg t }
    else .error .assertion
  | .write bs cfg t =>
    .ok { h := { x.h with s := x.h.s.setSlot x.h.s.last t }, phase := .advance bs cfg t }
  | .advance bs cfg _ =>
    .ok { h := { x.h with s := { x.h.s with last := (x.h.s.last + 1) % (n + 1) }, acc := x.h.acc ++ [(cfg, bs)] },
          phase := .idle }
  | .preamble c =>
    .ok { h := { x.h with s := { x.h.s with cfg := { x.h.s.cfg with numPreamble := c.numPreamble } } },
          phase := .bit1 c }
  | .bit1 c =>
    .ok { h := { x.h with s := { x.h.s with cfg := { x.h.s.cfg with bit1 := c.bit1 } } }, phase := .bit0 c }
  | .bit0 c =>
    .ok { h := { x.h with s := { x.h.s with cfg := { x.h.s.cfg with bit0 := c.bit0 } } }, phase := .invert c }
  | .invert c =>
    .ok { h := { x.h with s := { x.h.s with cfg := { x.h.s.cfg with invert := c.invert } } }, phase := .bidi c }
  | .bidi c =>
    .ok { h := { x.h with s := { x.h.s with cfg := { x.h.s.cfg with bidi := c.bidi } } }, phase := .idle }

/-- The thread calls a method (include/dcc/tx/crtp_base.hpp:34-56); the assertion of `init` only looks
at the argument. -/
def TxTask.start (x : TxTask) : TxOp → R TxTask
  | .init c => if c.accepted then .ok { x with phase := .preamble c } else .error .assertion
  | .bytes bs => .ok { x with phase := .full bs }
  | .transmit => .ok x

/-- One step.  The thread calls a method only after it returned from the one before. -/
def TxTask.step (n : Nat) (x : TxTask) : TxBeat → R TxTask
  | .transmit => do return { x with h := ← x.h.step n .transmit }
  | .start op => if x.phase = .idle then x.start op else .ok x
  | .access => x.access n
  | .scribble junk =>
    match x.phase with
    | .write .. => .ok { x with h := { x.h with s := x.h.s.setSlot x.h.s.last junk } }
    | _ => .ok x

/-- A sequence of steps. -/
def TxTask.run (n : Nat) (x : TxTask) : List TxBeat → R TxTask
  | [] => .ok x
  | b :: bs => do (← x.step n b).run n bs

end Dcc
