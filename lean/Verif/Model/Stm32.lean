import Verif.Model.RxMachine
import Verif.Model.TxPreempt
/-!
Model of the example program examples/stm32: two boards, a command station and a decoder.  The HAL is
not modelled; what is assumed of the timers is said at each definition.
-/
namespace Dcc

/-! ### Command station -/

/-- The configuration (examples/stm32/src/command_station.cpp:24-29). -/
def stmConfig : TxConfig :=
  { numPreamble := 17#8, bit1 := 58#8, bit0 := 100#8, invert := false, bidi := true }

/-- The packet of the `i`-th turn of the main loop, four turns make one round
(examples/stm32/src/command_station.cpp:37-65).  The builders get the plain number 3, which makes a
short address of it (include/dcc/utility.hpp:162-166). -/
def stmPacket (i : Nat) : R Packet :=
  let addr : Address := { value := 3#16, type := .short }
  match i % 4 with
  | 0 => makeAdvancedSpeedPacket addr (1#8 <<< 7 ||| 42#8)
  | 1 => makeF4F0Packet addr 0b01000#8
  | 2 => makeAdvancedSpeedPacket addr (1#8 <<< 7 ||| 0#8)
  | _ => makeF4F0Packet addr 0b00000#8

/-- The calls `main` makes until its `k`-th packet (examples/stm32/src/command_station.cpp:22-66). -/
def stmMain (k : Nat) : List (R TxOp) :=
  .ok (.init stmConfig) :: (List.range k).map fun i => (stmPacket i).map TxOp.bytes

/-- The green and the yellow LED after `k` turns (examples/stm32/src/command_station.cpp:42, 49, 56, 63). -/
def stmLeds : Nat → Bool × Bool
  | 0 => (false, false)
  | i + 1 =>
    match i % 4 with
    | 0 => (true, (stmLeds i).2)
    | 1 => ((stmLeds i).1, true)
    | 2 => (false, (stmLeds i).2)
    | _ => ((stmLeds i).1, false)

/-- The ticks a call of `transmit` lasts: its result is written into ARR, which is not preloaded, so the
timer overflows after one tick more (examples/stm32/src/bsp.c:277-280, 323-329,
examples/stm32/src/command_station.cpp:17-20).  A tick has 65 cycles, as the prescaler is set to 64
(examples/stm32/src/bsp.c:275). -/
def stmTicks (ds : List Nat) : Nat := (ds.map (· + 1)).sum

/-- The pins N and P, written by `trackOutputs` (examples/stm32/src/bsp.c:331-334). -/
def stmPins (pins : Bool × Bool) (o : TxOut) : Bool × Bool :=
  o.events.foldl (fun pins ev => match ev with
    | .trackOutputs n p => (n, p)
    | _ => pins) pins

/-! ### Decoder -/

/-- The intervals between the edges TIM15 captures.  It waits for a rising edge of one of the pins, of N
if `p` is false and of P if it is true, and for one of the other pin after each edge
(examples/stm32/src/bsp.c:241-251, 290-318).  `acc` is what happened since the last edge.  The counter is
not reset but the captured value is subtracted from it, so the captured value is the time since the last
edge. -/
def captures (p : Bool) (pins : Bool × Bool) (acc : List Nat) : List TxOut → List (List Nat)
  | [] => []
  | o :: os =>
    let pins' := stmPins pins o
    if (if p then !pins.2 && pins'.2 else !pins.1 && pins'.1) then acc :: captures (!p) pins' [o.duration] os
    else captures p pins' (acc ++ [o.duration]) os

/-- `_cvs` (examples/stm32/src/decoder.hpp:40-45). -/
def stmCvs : List Byte :=
  [3#8, 1#8, 2#8, 1#8, 1#8, 1#8, 4#8, 145#8, 55#8, 0#8, 0#8, 117#8, 128#8, 195#8, 0#8, 0#8, 192#8, 128#8,
   0#8, 0#8, 0#8, 0#8, 0#8, 0#8, 0#8, 0#8, 0#8, 131#8, 14#8]

/-- The array after a call (examples/stm32/src/decoder.cpp:40-43). -/
def stmWrite (cvs : List Byte) : Event → List Byte
  | .writeCvByte cv byte _ => cvs.set cv.toNat byte
  | _ => cvs

/-- The decoder class (examples/stm32/src/decoder.cpp:35-49). -/
def stmEnv : Env where
  readCv tr cv := (tr.foldl stmWrite stmCvs).getD cv.toNat 0#8
  readCvByte tr cv _ := (tr.foldl stmWrite stmCvs).getD cv.toNat 0#8
  readCvBit _ _ _ _ := false
  writeCvByte _ cv byte := if cv.toNat < stmCvs.length then byte else 0#8
  writeCvBit _ _ _ _ := false

/-- The green and the yellow LED after a call (examples/stm32/src/decoder.cpp:8-27). -/
def stmLed (leds : Bool × Bool) : Event → Bool × Bool
  | .speed _ speed => (speed ≠ 0, leds.2)
  | .function _ mask state =>
    if mask &&& 0b01000#32 = 0#32 then leds else (leds.1, state &&& 0b01000#32 ≠ 0#32)
  | _ => leds

end Dcc
