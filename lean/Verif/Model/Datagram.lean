import Verif.Model.Basic
/-!
Model of include/dcc/bidi/datagram.hpp and include/dcc/bidi/timing.hpp.
-/
namespace Dcc

/-- `detail::encode_lut` (include/dcc/bidi/datagram.hpp:22-28). -/
def encodeLut : List Byte :=
  [0xAC, 0xAA, 0xA9, 0xA5, 0xA3, 0xA6, 0x9C, 0x9A, 0x99, 0x95, 0x93, 0x96, 0x8E, 0x8D, 0x8B, 0xB1,
   0xB2, 0xB4, 0xB8, 0x74, 0x72, 0x6C, 0x6A, 0x69, 0x65, 0x63, 0x66, 0x5C, 0x5A, 0x59, 0x55, 0x53,
   0x56, 0x4E, 0x4D, 0x4B, 0x47, 0x71, 0xE8, 0xE4, 0xE2, 0xD1, 0xC9, 0xC5, 0xD8, 0xD4, 0xD2, 0xCA,
   0xC6, 0xCC, 0x78, 0x17, 0x1B, 0x1D, 0x1E, 0x2E, 0x36, 0x3A, 0x27, 0x2B, 0x2D, 0x35, 0x39, 0x33]

/-- `detail::decode_lut` (include/dcc/bidi/datagram.hpp:30-54). -/
def decodeLut : List Byte :=
  [0x00, 0x00, 0x00, 0x00, 0x00, 0x00, 0x00, 0x00, 0x00, 0x00, 0x00, 0x00, 0x00, 0x00, 0x00, 0x00,
   0x00, 0x00, 0x00, 0x00, 0x00, 0x00, 0x00, 0x33, 0x00, 0x00, 0x00, 0x34, 0x00, 0x35, 0x36, 0x00,
   0x00, 0x00, 0x00, 0x00, 0x00, 0x00, 0x00, 0x3A, 0x00, 0x00, 0x00, 0x3B, 0x00, 0x3C, 0x37, 0x00,
   0x00, 0x00, 0x00, 0x3F, 0x00, 0x3D, 0x38, 0x00, 0x00, 0x3E, 0x39, 0x00, 0x00, 0x00, 0x00, 0x00,
   0x00, 0x00, 0x00, 0x00, 0x00, 0x00, 0x00, 0x24, 0x00, 0x00, 0x00, 0x23, 0x00, 0x22, 0x21, 0x00,
   0x00, 0x00, 0x00, 0x1F, 0x00, 0x1E, 0x20, 0x00, 0x00, 0x1D, 0x1C, 0x00, 0x1B, 0x00, 0x00, 0x00,
   0x00, 0x00, 0x00, 0x19, 0x00, 0x18, 0x1A, 0x00, 0x00, 0x17, 0x16, 0x00, 0x15, 0x00, 0x00, 0x00,
   0x00, 0x25, 0x14, 0x00, 0x13, 0x00, 0x00, 0x00, 0x32, 0x00, 0x00, 0x00, 0x00, 0x00, 0x00, 0x00,
   0x00, 0x00, 0x00, 0x00, 0x00, 0x00, 0x00, 0x00, 0x00, 0x00, 0x00, 0x0E, 0x00, 0x0D, 0x0C, 0x00,
   0x00, 0x00, 0x00, 0x0A, 0x00, 0x09, 0x0B, 0x00, 0x00, 0x08, 0x07, 0x00, 0x06, 0x00, 0x00, 0x00,
   0x00, 0x00, 0x00, 0x04, 0x00, 0x03, 0x05, 0x00, 0x00, 0x02, 0x01, 0x00, 0x00, 0x00, 0x00, 0x00,
   0x00, 0x0F, 0x10, 0x00, 0x11, 0x00, 0x00, 0x00, 0x12, 0x00, 0x00, 0x00, 0x00, 0x00, 0x00, 0x00,
   0x00, 0x00, 0x00, 0x00, 0x00, 0x2B, 0x30, 0x00, 0x00, 0x2A, 0x2F, 0x00, 0x31, 0x00, 0x00, 0x00,
   0x00, 0x29, 0x2E, 0x00, 0x2D, 0x00, 0x00, 0x00, 0x2C, 0x00, 0x00, 0x00, 0x00, 0x00, 0x00, 0x00,
   0x00, 0x00, 0x28, 0x00, 0x27, 0x00, 0x00, 0x00, 0x26, 0x00, 0x00, 0x00, 0x00, 0x00, 0x00, 0x00,
   0x00, 0x00, 0x00, 0x00, 0x00, 0x00, 0x00, 0x00, 0x00, 0x00, 0x00, 0x00, 0x00, 0x00, 0x00, 0x00]

theorem encodeLut_length : encodeLut.length = 64 := by decide +kernel
theorem decodeLut_length : decodeLut.length = 256 := by decide +kernel

/-- `acks` (include/dcc/bidi/datagram.hpp:61). -/
def acks : List Byte := [0x0F#8, 0xF0#8]

/-- `nack` (include/dcc/bidi/datagram.hpp:64). -/
def nack : Byte := 0x3C#8

/-- `enum class Bits` (include/dcc/bidi/datagram.hpp:67). -/
inductive Bits where
  | b12 | b18 | b24 | b36 | b48
  deriving DecidableEq, Repr

/-- The underlying value of `Bits` (include/dcc/bidi/datagram.hpp:67). -/
def Bits.toNat : Bits → Nat
  | .b12 => 12
  | .b18 => 18
  | .b24 => 24
  | .b36 => 36
  | .b48 => 48

/-- `datagram_size<I>` (include/dcc/bidi/datagram.hpp:73). -/
def datagramSize (i : Bits) : Nat := (i.toNat + 4) / 6

/-- The loop shared by both `make_datagram` overloads (include/dcc/bidi/datagram.hpp:98-101,
117-120): the `n` last elements hold the low 6-bit groups of `data`, most significant first.
Returns the elements and the remaining high part of `data`.
Simplification: `data` is an unbounded natural number; all arguments are unsigned. -/
def sixBitGroups : Nat → Nat → List Byte × Nat
  | 0, data => ([], data)
  | n + 1, data =>
    let (hi, rem) := sixBitGroups n (data / 64)
    (hi ++ [BitVec.ofNat 8 (data % 64)], rem)

/-- `make_datagram<I>(id, data)` (include/dcc/bidi/datagram.hpp:93-104). -/
def makeDatagramId (i : Bits) (id data : Nat) : R (List Byte) :=
  if data < 2 ^ (datagramSize i * 6 - 4) then
    let (rest, hi) := sixBitGroups (datagramSize i - 1) data
    .ok (BitVec.ofNat 8 (id <<< 2 ||| (hi % 4)) :: rest)
  else .error .assertion

/-- `make_datagram<I>(data)` (include/dcc/bidi/datagram.hpp:112-122). -/
def makeDatagram (i : Bits) (data : Nat) : R (List Byte) :=
  if data < 2 ^ (datagramSize i * 6) then .ok (sixBitGroups (datagramSize i) data).1
  else .error .assertion

/-- One element of `encode_datagram`: the table has 64 entries, a larger index is a fault
(include/dcc/bidi/datagram.hpp:131-133). -/
def encodeSymbol (b : Byte) : R Byte :=
  match encodeLut[b.toNat]? with
  | some c => .ok c
  | none => .error .oob

/-- `encode_datagram` (include/dcc/bidi/datagram.hpp:129-136). -/
def encodeDatagram (d : List Byte) : R (List Byte) := d.mapM encodeSymbol

/-- One element of `decode_datagram` (include/dcc/bidi/datagram.hpp:145-147). -/
def decodeSymbol (b : Byte) : Byte :=
  decodeLut[b.toNat]'(by rw [decodeLut_length]; exact b.isLt)

/-- `decode_datagram` (include/dcc/bidi/datagram.hpp:143-150). -/
def decodeDatagram (d : List Byte) : List Byte := d.map decodeSymbol

/-- `make_data` (include/dcc/bidi/datagram.hpp:157-166) for datagrams of at most ten elements:
`data` is a `uint64_t`.  Simplification: the assertion, which always holds for at most ten
elements, is left out. -/
def makeData (d : List Byte) : BitVec 64 :=
  d.foldl (fun acc b => (acc <<< 6) ||| (b &&& 0x3F#8).setWidth 64) 0#64

/-- `enum Timing` (include/dcc/bidi/timing.hpp:17-28). -/
def bidiTCS : Nat := 29
def bidiTTS1 : Nat := 80
def bidiTTS2 : Nat := 193
def bidiTTC2 : Nat := 454
def bidiTCE : Nat := 471

end Dcc
