import Verif.Spec.Builders
/-!
Bit layouts of the packets as printed in RCN-211/212/214/216/218: a string of `0`, `1` and letters per
packet, most significant bit first.  Every letter stands for the next bit of the field of that name,
most significant bit first; blanks are ignored.
-/
namespace Dcc.Spec

/-- The lowest `n` bits of a number, most significant first. -/
def bitsOf (n v : Nat) : List Bool := ((List.range n).map fun i => v.testBit i).reverse

/-- Fill a layout with the bits of its fields. -/
def fill : List Char → (Char → List Bool) → List Bool
  | [], _ => []
  | c :: t, f =>
    if c = ' ' then fill t f
    else if c = '0' then false :: fill t f
    else if c = '1' then true :: fill t f
    else (f c).headD false :: fill t fun x => if x = c then (f x).tail else f x

/-- Number with the given bits, most significant first. -/
def numberOf (l : List Bool) : Nat := l.foldl (fun n b => 2 * n + b.toNat) 0

/-- Cut a string of bits into bytes. -/
def bytesOf : List Bool → List Byte
  | a :: b :: c :: d :: e :: f :: g :: h :: t =>
    BitVec.ofNat 8 (numberOf [a, b, c, d, e, f, g, h]) :: bytesOf t
  | _ => []

/-- The fields of a layout by name; a letter not listed has no bits. -/
def fieldsOf (l : List (Char × List Bool)) (c : Char) : List Bool :=
  ((l.find? fun x => x.1 == c).map (·.2)).getD []

/-- The bytes of a layout with fields. -/
def layout (t : String) (fs : List (Char × List Bool)) : List Byte :=
  bytesOf (fill t.toList (fieldsOf fs))

/-- Address bytes of the packets for decoders (RCN-211 2): seven bits for a short address, fourteen
behind `11` for a long one, zero for the broadcast. -/
def addressLayout (a : Address) : List Byte :=
  match a.type with
  | .broadcast => layout "00000000" []
  | .short => layout "0aaaaaaa" [('a', bitsOf 7 a.value.toNat)]
  | _ => layout "11aaaaaa aaaaaaaa" [('a', bitsOf 14 a.value.toNat)]

/-- A number which stands for an address without saying of which type: up to 127 short, else long. -/
def addressNamed (v : BitVec 16) : Address :=
  { value := v, type := if v.toNat ≤ 127 then .short else .long }

/-- The address types and values the layouts have room for. -/
def FitsLayout (a : Address) : Prop :=
  a.type = .broadcast ∨ (a.type = .short ∧ a.value.toNat < 128) ∨
    (a.type = .long ∧ a.value.toNat < 16384)

/-- Instruction bytes of an addressed call (RCN-212 2.2, 2.3 and RCN-214 2). -/
def AddressedCall.layout : AddressedCall → List Byte
  | speedDirFunctions r f fs =>
    Spec.layout "00111100 rrrrrrrr ffffffff" [('r', bitsOf 8 r.toNat), ('f', bitsOf 8 f.toNat)] ++ fs
  | advancedSpeed r => Spec.layout "00111111 rrrrrrrr" [('r', bitsOf 8 r.toNat)]
  | speedAndDirection r => Spec.layout "01rrrrrr" [('r', bitsOf 6 r.toNat)]
  | f4f0 s =>
    Spec.layout "100zffff" [('z', [s.toNat.testBit 0]), ('f', bitsOf 4 (s.toNat / 2))]
  | f8f5 s => Spec.layout "1011ffff" [('f', bitsOf 4 s.toNat)]
  | f12f9 s => Spec.layout "1010ffff" [('f', bitsOf 4 s.toNat)]
  | f20f13 s => Spec.layout "11011110 ffffffff" [('f', bitsOf 8 s.toNat)]
  | f28f21 s => Spec.layout "11011111 ffffffff" [('f', bitsOf 8 s.toNat)]
  | binaryStateShort d => Spec.layout "11011101 dddddddd" [('d', bitsOf 8 d.toNat)]
  | binaryStateLong d h =>
    Spec.layout "11000000 dddddddd hhhhhhhh" [('d', bitsOf 8 d.toNat), ('h', bitsOf 8 h.toNat)]
  | cvVerify cv b =>
    Spec.layout "111001vv vvvvvvvv dddddddd" [('v', bitsOf 10 cv.toNat), ('d', bitsOf 8 b.toNat)]
  | cvWrite cv b =>
    Spec.layout "111011vv vvvvvvvv dddddddd" [('v', bitsOf 10 cv.toNat), ('d', bitsOf 8 b.toNat)]
  | cvVerifyBit cv b p =>
    Spec.layout "111010vv vvvvvvvv 1110dppp"
      [('v', bitsOf 10 cv.toNat), ('d', [b]), ('p', bitsOf 3 p.toNat)]
  | cvWriteBit cv b p =>
    Spec.layout "111010vv vvvvvvvv 1111dppp"
      [('v', bitsOf 10 cv.toNat), ('d', [b]), ('p', bitsOf 3 p.toNat)]

/-- The two bits of a LOGON_ENABLE address group (RCN-218 4.1). -/
def groupNumber : AddressGroup → Nat
  | .all => 0
  | .loco => 1
  | .acc => 2
  | .now => 3

/-- Bytes of a call without address up to the exclusive-or (RCN-211 4, RCN-216 3, RCN-218 4); the
selecting and assigning packets carry a CRC in front of it. -/
def PlainCall.layout : PlainCall → List Byte
  | idle => Spec.layout "11111111 00000000" []
  | reset => Spec.layout "00000000 00000000" []
  | cvVerifyService cv b =>
    Spec.layout "011101vv vvvvvvvv dddddddd" [('v', bitsOf 10 cv.toNat), ('d', bitsOf 8 b.toNat)]
  | cvWriteService cv b =>
    Spec.layout "011111vv vvvvvvvv dddddddd" [('v', bitsOf 10 cv.toNat), ('d', bitsOf 8 b.toNat)]
  | cvVerifyBitService cv b p =>
    Spec.layout "011110vv vvvvvvvv 1110dppp"
      [('v', bitsOf 10 cv.toNat), ('d', [b]), ('p', bitsOf 3 p.toNat)]
  | cvWriteBitService cv b p =>
    Spec.layout "011110vv vvvvvvvv 1111dppp"
      [('v', bitsOf 10 cv.toNat), ('d', [b]), ('p', bitsOf 3 p.toNat)]
  | logonEnable g cid s =>
    Spec.layout "11111110 111111gg cccccccc cccccccc ssssssss"
      [('g', bitsOf 2 (groupNumber g)), ('c', bitsOf 16 cid.toNat), ('s', bitsOf 8 s.toNat)]
  | logonSelect m d s =>
    let bs := Spec.layout "11111110 1101mmmm mmmmmmmm dddddddd dddddddd dddddddd dddddddd ssssssss"
      [('m', bitsOf 12 m.toNat), ('d', bitsOf 32 d.toNat), ('s', bitsOf 8 s.toNat)]
    bs ++ [crc8 bs]
  | logonAssign m d a =>
    let bs := Spec.layout
      "11111110 1110mmmm mmmmmmmm dddddddd dddddddd dddddddd dddddddd aaaaaaaa aaaaaaaa"
      [('m', bitsOf 12 m.toNat), ('d', bitsOf 32 d.toNat), ('a', bitsOf 16 a.toNat)]
    bs ++ [crc8 bs]

/-- The manufacturer number of the logon packets has twelve bits. -/
def PlainCall.InRange : PlainCall → Prop
  | logonSelect m _ _ | logonAssign m _ _ => m.toNat < 4096
  | _ => True

end Dcc.Spec
