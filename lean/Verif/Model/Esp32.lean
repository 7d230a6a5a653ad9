import Verif.Model.Rmt
import Verif.Model.Utility
/-!
Model of the example program examples/esp32: an RMT channel sends idle packets.  The driver of ESP-IDF
(external) is modelled by what its documentation says of it.
-/
namespace Dcc.Rmt

/-- The configuration of the encoder (examples/esp32/main/app_main.cpp:25-30). -/
def espConfig : Config :=
  { numPreamble := 17#8, bidibitDuration := 60#8, bit1Duration := 58#8, bit0Duration := 100#8,
    endbitDuration := 58#8 - 24#8, level0 := false, zimo0 := true }

/-- The first `k` packets sent, with `mem` symbols of memory: all of it is free when the driver begins to send a
packet (examples/esp32/main/app_main.cpp:14-21, 34-42). -/
def espPackets (k mem : Nat) : List (List Byte × List Nat) := List.replicate k (makeIdlePacket, [mem])

/-- What symbols do to the output: levels and how long they last. -/
def pulses (symbols : List Symbol) : List (Bool × Nat) :=
  symbols.flatMap fun s => [(s.level0, s.duration0.toNat), (s.level1, s.duration1.toNat)]

/-- The output while packets are sent.  Behind each packet it has the level `eot` for some time; this is the
flag `eot_level` of `rmt_transmit_config_t`, which is false in the example
(examples/esp32/main/app_main.cpp:35). -/
def output (eot : Bool) : List (List Symbol × Nat) → List (Bool × Nat)
  | [] => []
  | (symbols, pause) :: ps => pulses symbols ++ (eot, pause) :: output eot ps

end Dcc.Rmt
