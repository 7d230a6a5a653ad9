import Verif.Model.Address
import Verif.Model.Instruction
/-!
Independent specifications for the codec layer: written from RCN-211/RCN-217/RCN-218 and the
property list, without reference to the model's functions.
-/
namespace Dcc.Spec

/-- Addresses a DCC packet can carry. -/
def Encodable (a : Address) : Prop :=
  (a.type = .broadcast ∧ a.value.toNat = 0) ∨
  (a.type = .short ∧ 1 ≤ a.value.toNat ∧ a.value.toNat ≤ 127) ∨
  (a.type = .long ∧ a.value.toNat < 10240) ∨
  (a.type = .dataTransfer ∧ a.value.toNat = 253) ∨
  (a.type = .automaticLogon ∧ a.value.toNat = 254) ∨
  (a.type = .idleSystem ∧ a.value.toNat = 255)

/-- RCN-211: the partition of the first byte of a packet, as closed intervals. -/
def firstByteClass : List (Nat × Nat × AddrType) :=
  [(0, 0, .broadcast), (1, 127, .short), (128, 191, .accessory), (192, 231, .long),
   (232, 252, .reserved), (253, 253, .dataTransfer), (254, 254, .automaticLogon),
   (255, 255, .idleSystem)]

/-- The RCN-211 address class of a first byte. -/
def HasClass (b : Nat) (t : AddrType) : Prop :=
  ∃ c ∈ firstByteClass, c.1 ≤ b ∧ b ≤ c.2.1 ∧ c.2.2 = t

/-- Number of one bits. -/
def popcount {w : Nat} (b : BitVec w) : Nat := (List.range w).countP (fun i => b.getLsbD i)

/-- One step of the bit-serial Dallas/Maxim CRC: shift right, and if the bit shifted out is one
add the reflected polynomial x^8 + x^5 + x^4 + 1, i.e. `0x8C`. -/
def crcBit (c : BitVec 8) : BitVec 8 := if c.getLsbD 0 then (c >>> 1) ^^^ 0x8C#8 else c >>> 1

/-- One byte: add the byte to the register and do eight shift steps. -/
def crcStep (c b : BitVec 8) : BitVec 8 :=
  crcBit (crcBit (crcBit (crcBit (crcBit (crcBit (crcBit (crcBit (c ^^^ b))))))))

/-- Bit-serial CRC of a message, register initially zero. -/
def crcMsg (m : List (BitVec 8)) : BitVec 8 := m.foldl crcStep 0#8

/-- Bytewise exclusive-or of two messages. -/
def xorMsg (m n : List (BitVec 8)) : List (BitVec 8) := List.zipWith (· ^^^ ·) m n

/-- The bits of a message in the order they are transmitted through the CRC register: least
significant bit of each byte first. -/
def msgBits (m : List (BitVec 8)) : List Bool :=
  m.flatMap fun b => (List.range 8).map fun i => b.getLsbD i

/-- A non-zero error pattern whose set bits all lie within a window of eight consecutive bits. -/
def Burst8 (e : List (BitVec 8)) : Prop :=
  ∃ pre mid post, msgBits e = pre ++ mid ++ post ∧ mid.length ≤ 8 ∧ true ∈ mid ∧
    (∀ x ∈ pre, x = false) ∧ (∀ x ∈ post, x = false)

end Dcc.Spec
