import Verif.Model.Datagram

/-!
Baud rate and the remaining times of BiDi cutouts in us: baudrate.hpp:16, timing.hpp:17-28,
channel1.hpp:17 and channel2.hpp:17 in include/dcc/bidi.  The times the command station uses are in
`Verif.Model.Datagram`.
-/

namespace Dcc

/-- `bidi::baudrate`. -/
def bidiBaudrate : Nat := 250000

def bidiTCSMin : Nat := 26
def bidiTCSMax : Nat := 32
def bidiTCEMin : Nat := 454
def bidiTCEMax : Nat := 488
def bidiTTC1 : Nat := 177

/-- `channel1_size` and `channel2_size`. -/
def channel1Size : Nat := datagramSize .b12
def channel2Size : Nat := datagramSize .b36

end Dcc
