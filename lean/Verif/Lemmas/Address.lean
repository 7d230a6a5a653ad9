import Verif.Model.Address
import Verif.Lemmas.Bits
/-! Helper lemmas about addresses. -/
namespace Dcc

theorem split16 (v : BitVec 16) :
    ((v >>> 8).setWidth 8).setWidth 16 <<< 8 ||| (v.setWidth 8).setWidth 16 = v := by grind

/-- A first byte of a long address is classified as long. -/
theorem longHigh : ∀ hi : BitVec 8, hi.toNat < 40 →
    ¬ (0xC0#8 ||| hi = 0#8) ∧ ¬ (0xC0#8 ||| hi ≤ 127#8) ∧ ¬ (0xC0#8 ||| hi ≤ 191#8) ∧ 0xC0#8 ||| hi ≤ 231#8 := by
  decide +kernel

theorem shortVal : ∀ b : BitVec 8, 1 ≤ b.toNat → b.toNat ≤ 127 → ¬ (b = 0#8) ∧ b ≤ 127#8 := by
  decide +kernel

theorem high8_toNat (v : BitVec 16) : ((v >>> 8).setWidth 8).toNat = v.toNat / 256 := by
  simp [BitVec.toNat_setWidth, Nat.shiftRight_eq_div_pow]; omega

theorem and3FFF_of_lt (v : BitVec 16) (h : v.toNat < 16384) : v &&& 0x3FFF#16 = v := by
  apply BitVec.eq_of_toNat_eq
  rw [BitVec.toNat_and]
  exact (Nat.and_two_pow_sub_one_eq_mod _ 14).trans (by omega)

theorem longValue (v : BitVec 16) : (((0xC0#8 ||| (v >>> 8).setWidth 8).setWidth 16 <<< 8) |||
    (v.setWidth 8).setWidth 16) &&& 0x3FFF#16 = v &&& 0x3FFF#16 := by
  bits16

theorem decode_short (v : BitVec 16) (rest : List Byte) (h1 : 1 ≤ v.toNat) (h2 : v.toNat ≤ 127) :
    decodeAddress (v.setWidth 8 :: rest) = .ok { value := v, type := .short } := by
  have hv : (v.setWidth 8).toNat = v.toNat := by simp [BitVec.toNat_setWidth]; omega
  have hs := shortVal (v.setWidth 8) (by omega) (by omega)
  have : (v.setWidth 8).setWidth 16 = v := by
    apply BitVec.eq_of_toNat_eq; simp [BitVec.toNat_setWidth]; omega
  simp only [decodeAddress, hs, if_false, if_true, this]

theorem decode_long_raw (v : BitVec 16) (rest : List Byte)
    (h : ((v >>> 8).setWidth 8).toNat < 40) :
    decodeAddress ((0xC0#8 ||| (v >>> 8).setWidth 8) :: v.setWidth 8 :: rest) =
      .ok { value := v &&& 0x3FFF#16, type := .long } := by
  have hl := longHigh _ h
  rw [← longValue v]
  simp only [decodeAddress, hl, if_false, if_true]

theorem decode_long (v : BitVec 16) (rest : List Byte) (h : v.toNat < 10240) :
    decodeAddress ((0xC0#8 ||| (v >>> 8).setWidth 8) :: v.setWidth 8 :: rest) =
      .ok { value := v, type := .long } := by
  rw [decode_long_raw, and3FFF_of_lt]
  · omega
  · rw [high8_toNat]; omega

theorem concat16_toNat (b c : Byte) :
    ((b.setWidth 16 <<< 8) ||| c.setWidth 16).toNat = b.toNat * 256 + c.toNat := by
  have hb := b.isLt
  have hc := c.isLt
  have h1 : (b.setWidth 16 <<< 8).toNat = b.toNat <<< 8 := by
    simp [BitVec.toNat_shiftLeft, Nat.shiftLeft_eq]; omega
  have h2 : (c.setWidth 16).toNat = c.toNat := by simp; omega
  rw [BitVec.toNat_or, h1, h2, ← Nat.shiftLeft_add_eq_or_of_lt c.isLt, Nat.shiftLeft_eq]

theorem and3FFF_toNat (v : BitVec 16) : (v &&& 0x3FFF#16).toNat = v.toNat % 16384 := by
  rw [BitVec.toNat_and]
  exact Nat.and_two_pow_sub_one_eq_mod _ 14

end Dcc
