import Verif.Spec.Layout
import Verif.Lemmas.Utility
/-!
Property C74: the builders put every argument into the bits the standard names.
-/
namespace Dcc

open Spec

theorem numberOf_eq (a b c d e f g h : Bool) (x : Byte) :
    BitVec.ofNat 8 (numberOf [a, b, c, d, e, f, g, h]) = x ↔
      x.getLsbD 7 = a ∧ x.getLsbD 6 = b ∧ x.getLsbD 5 = c ∧ x.getLsbD 4 = d ∧
      x.getLsbD 3 = e ∧ x.getLsbD 2 = f ∧ x.getLsbD 1 = g ∧ x.getLsbD 0 = h := by
  have hk : ∀ a b c d e f g h : Bool,
      let y := BitVec.ofNat 8 (numberOf [a, b, c, d, e, f, g, h])
      y.getLsbD 7 = a ∧ y.getLsbD 6 = b ∧ y.getLsbD 5 = c ∧ y.getLsbD 4 = d ∧
      y.getLsbD 3 = e ∧ y.getLsbD 2 = f ∧ y.getLsbD 1 = g ∧ y.getLsbD 0 = h := by decide
  constructor
  · rintro rfl; exact hk a b c d e f g h
  · rintro ⟨h7, h6, h5, h4, h3, h2, h1, h0⟩
    obtain ⟨k7, k6, k5, k4, k3, k2, k1, k0⟩ := hk a b c d e f g h
    apply BitVec.eq_of_getLsbD_eq; intro i hi
    have hcases : i = 0 ∨ i = 1 ∨ i = 2 ∨ i = 3 ∨ i = 4 ∨ i = 5 ∨ i = 6 ∨ i = 7 := by omega
    rcases hcases with h | h | h | h | h | h | h | h <;> subst h
    · exact k0.trans h0.symm
    · exact k1.trans h1.symm
    · exact k2.trans h2.symm
    · exact k3.trans h3.symm
    · exact k4.trans h4.symm
    · exact k5.trans h5.symm
    · exact k6.trans h6.symm
    · exact k7.trans h7.symm

/-- Write out a layout and compare it with a list of bytes bit by bit. -/
macro "layout_bits" : tactic => `(tactic|
  simp [-Nat.testBit_zero, layout, fill, fieldsOf, bitsOf, List.range, List.range.loop, bytesOf,
    numberOf_eq, BitVec.testBit_toNat])

theorem payload_layout (c : AddressedCall) (h : c.InRange) : c.layout = payload c := by
  cases c with
  | speedAndDirection r =>
    have h7 : ∀ r : Byte, r.toNat < 64 → r[7] = false ∧ r[6] = false := by decide +kernel
    have h := h7 r h
    simp only [AddressedCall.layout, payload]; layout_bits
    exact h.1
  | f4f0 s =>
    simp only [AddressedCall.layout, payload]; layout_bits
    simp [-Nat.testBit_zero, Nat.testBit_div_two, BitVec.testBit_toNat]
  | _ =>
    simp only [AddressedCall.layout, payload, cvHigh, cvBitByte]; layout_bits

theorem high_bit {w : Nat} (v : BitVec w) (n i : Nat) (h : v.toNat < 2 ^ n) (hi : n ≤ i) :
    v.getLsbD i = false := by
  rw [BitVec.getLsbD, Nat.testBit_eq_decide_div_mod_eq]
  have : v.toNat / 2 ^ i = 0 :=
    Nat.div_eq_of_lt (Nat.lt_of_lt_of_le h (Nat.pow_le_pow_right (n := 2) (by omega) hi))
  simp [this]

theorem address_layout (a : Address) (h : FitsLayout a) :
    encodeAddress a = .ok (addressLayout a) := by
  obtain ⟨v, t, r⟩ := a
  rcases h with h | ⟨h, hv⟩ | ⟨h, hv⟩ <;> simp only at h <;> subst h <;>
    simp only [encodeAddress, addressLayout] <;> congr 1 <;> symm
  · have h7 := high_bit v 7 7 hv (by omega)
    layout_bits
    simpa using h7
  · layout_bits

/-- **C74** Every addressed builder makes the packet whose bits are those RCN-211, RCN-212 and RCN-214
print for it: the address, the instruction with every argument in its place, and the exclusive-or. -/
theorem C74_addressed (a : Address) (ha : FitsLayout a) (c : AddressedCall) (hc : c.InRange) :
    c.run a = .ok (addressLayout a ++ c.layout ++ [exor (addressLayout a ++ c.layout)]) := by
  have hl : (addressLayout a).length ≤ 2 := by
    have hb := address_layout a ha
    obtain ⟨v, t, r⟩ := a
    rcases ha with h | ⟨h, hv⟩ | ⟨h, hv⟩ <;> simp only at h <;> subst h <;>
      simp only [encodeAddress, Except.ok.injEq] at hb <;> rw [← hb] <;> simp
  have hp := payload_length c
  rw [run_eq, addressed, address_layout a ha, ok_bind, payload_layout c hc]
  apply finish_ok
  have : c.payloadLength ≤ 6 := by
    cases c <;> simp [AddressedCall.payloadLength]
    simp only [AddressedCall.InRange] at hc; omega
  simp only [List.length_append, maxPacketSize]
  omega

/-- **C74** The overloads which take a plain number address the decoder of that number: short up to
127, long above. -/
theorem C74_number (v : BitVec 16) : addressOfValue v = addressNamed v := by
  simp only [addressOfValue, addressNamed, BitVec.le_def]
  rfl

theorem finish_layout (bs cs : List Byte) (h : cs = bs) (hl : bs.length + 1 ≤ maxPacketSize) :
    finish bs = .ok (cs ++ [exor cs]) := by
  subst h; exact finish_ok _ hl

/-- **C74** Same for the builders without an address: idle, reset, service mode and logon packets. -/
theorem C74_plain (c : PlainCall) (hc : c.InRange) :
    c.run = .ok (c.layout ++ [exor c.layout]) := by
  cases c with
  | idle =>
    have : (PlainCall.idle).layout = [0xFF#8, 0#8] := by simp only [PlainCall.layout]; layout_bits
    rw [this]; rfl
  | reset =>
    have : (PlainCall.reset).layout = [0#8, 0#8] := by simp only [PlainCall.layout]; layout_bits
    rw [this]; rfl
  | logonEnable g cid s =>
    simp only [PlainCall.run, makeLogonEnablePacket]
    refine finish_layout _ _ ?_ ?_
    rotate_left
    · simp [uint16ToData, maxPacketSize]
    simp only [PlainCall.layout, uint16ToData]
    cases g <;> simp only [groupNumber, AddressGroup.toByte] <;> layout_bits <;> decide
  | logonSelect m d s =>
    have h13 := high_bit m 12 13 hc (by omega)
    simp only [PlainCall.run, makeLogonSelectPacket]
    refine finish_layout _ _ ?_ ?_
    rotate_left
    · simp [uint32ToData, maxPacketSize]
    have hb : layout "11111110 1101mmmm mmmmmmmm dddddddd dddddddd dddddddd dddddddd ssssssss"
      [('m', bitsOf 12 m.toNat), ('d', bitsOf 32 d.toNat), ('s', bitsOf 8 s.toNat)] =
      [254#8, 0xD0#8 ||| (m >>> 8).setWidth 8, m.setWidth 8] ++ uint32ToData d ++ [s] := by
      simp only [uint32ToData]; layout_bits
      simpa using h13
    simp only [PlainCall.layout, hb]
  | logonAssign m d a =>
    have h12 := high_bit m 12 12 hc (by omega)
    simp only [PlainCall.run, makeLogonAssignPacket]
    refine finish_layout _ _ ?_ ?_
    rotate_left
    · simp [uint32ToData, uint16ToData, maxPacketSize]
    have hb : layout
        "11111110 1110mmmm mmmmmmmm dddddddd dddddddd dddddddd dddddddd aaaaaaaa aaaaaaaa"
      [('m', bitsOf 12 m.toNat), ('d', bitsOf 32 d.toNat), ('a', bitsOf 16 a.toNat)] =
      [254#8, 0xE0#8 ||| (m >>> 8).setWidth 8, m.setWidth 8] ++ uint32ToData d ++
        uint16ToData a := by
      simp only [uint32ToData, uint16ToData]; layout_bits
      simpa using h12
    simp only [PlainCall.layout, hb]
  | _ =>
    simp only [PlainCall.run, makeCvVerifyServicePacket, makeCvWriteServicePacket,
      makeCvVerifyBitServicePacket, makeCvWriteBitServicePacket]
    refine finish_layout _ _ ?_ ?_
    rotate_left
    · simp [maxPacketSize]
    simp only [PlainCall.layout, cvHigh, cvBitByte]
    layout_bits

/-- The assign packet for manufacturer 13, chip 0x12345678, long address 1000 with its CRC. -/
example : FitsLayout { value := 1000, type := .long } ∧
    (AddressedCall.cvWriteBit 0x2FF true 5).InRange ∧
    (PlainCall.logonAssign 13 0x12345678 0xC3E8).InRange ∧
    addressLayout { value := 1000, type := .long } = [0xC3, 0xE8] ∧
    (AddressedCall.cvWriteBit 0x2FF true 5).layout = [0xEA, 0xFF, 0xFD] ∧
    (PlainCall.logonEnable .acc 0x1234 7).layout = [0xFE, 0xFE, 0x12, 0x34, 0x07] := by
  refine ⟨by simp [FitsLayout], trivial, by simp [PlainCall.InRange], ?_, ?_, ?_⟩ <;> decide +kernel

end Dcc
