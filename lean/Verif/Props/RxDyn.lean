import Verif.Lemmas.Datagram
import Verif.Model.RxBidi
/-!
C61: conversion of dynamic values.
-/
namespace Dcc

private theorem ofInt8 {v : Int} {n : Nat} (h : v = n) : BitVec.ofInt 8 v = BitVec.ofNat 8 n := by
  rw [h]; rfl

private theorem toNat_ofInt8 (v : Int) (h0 : 0 ≤ v) (h1 : v < 256) :
    ((BitVec.ofInt 8 v).toNat : Int) = v := by
  rw [BitVec.toNat_ofInt]
  omega

private theorem toInt_ofInt16 (v : Int) (h0 : -32768 ≤ v) (h1 : v < 32768) :
    (BitVec.ofInt 16 v).toInt = v := by
  rw [BitVec.toInt_ofInt, Int.bmod_def]
  omega

private theorem int16_bounds (d : BitVec 16) : -32768 ≤ d.toInt ∧ d.toInt < 32768 := by
  have h1 := BitVec.le_toInt d
  have h2 := BitVec.toInt_lt (x := d)
  constructor <;> omega

/-- **C61** Speeds.  A datagram carries an unsigned byte and a subindex that is 0 for the low and 1
for the high half of the speed range; together they give 0 to 511 km/h exactly.  Faster ones are
sent as 511 km/h. -/
theorem C61_kmh (d : BitVec 16) (h : 0 ≤ d.toInt) :
    (256 * (Dyn.kmh d).convert.2.toNat + (Dyn.kmh d).convert.1.toNat : Int) = min d.toInt 511 ∧
      (Dyn.kmh d).convert.2.toNat ≤ 1 := by
  have hb := int16_bounds d
  simp only [Dyn.convert]
  generalize d.toInt = v at *
  by_cases h1 : v < 256
  · rw [if_pos (show v < 512 by omega), if_pos h1, if_pos h1, toNat_ofInt8 v h h1]
    simp; omega
  · by_cases h2 : v < 512
    · rw [if_pos h2, if_neg h1, if_neg h1, toNat_ofInt8 (v - 256) (by omega) (by omega)]
      simp; omega
    · rw [if_neg h2, if_neg h1, toNat_ofInt8 255 (by omega) (by omega)]
      simp; omega

/-- **C61** Temperatures of -50 to 205 degrees are sent as the value plus 50 with subindex 26. -/
theorem C61_temperature (d : BitVec 16) (h0 : -50 ≤ d.toInt) (h1 : d.toInt ≤ 205) :
    ((Dyn.temperature d).convert.1.toNat : Int) = d.toInt + 50 ∧
      (Dyn.temperature d).convert.2 = 26#8 := by
  refine ⟨?_, rfl⟩
  simp only [Dyn.convert, lerp]
  generalize d.toInt = v at *
  have e : 0 + ((v - -50) * (255 - 0)).tdiv (205 - -50) = v + 50 := by
    rw [show (205 - -50 : Int) = 255 from rfl, show (255 - 0 : Int) = 255 from rfl,
      Int.mul_tdiv_cancel _ (by omega)]
    omega
  rw [e, toNat_ofInt8 _ (by omega) (by omega)]

/-- **C61** Outside that range the temperature sent is wrong by a multiple of 256 degrees: the
conversion wraps around instead of saturating. -/
theorem C61_temperature_wraps (d : BitVec 16) :
    ∃ k : Int, ((Dyn.temperature d).convert.1.toNat : Int) = d.toInt + 50 + 256 * k := by
  simp only [Dyn.convert, lerp]
  generalize d.toInt = v at *
  have e : 0 + ((v - -50) * (255 - 0)).tdiv (205 - -50) = v + 50 := by
    rw [show (205 - -50 : Int) = 255 from rfl, show (255 - 0 : Int) = 255 from rfl,
      Int.mul_tdiv_cancel _ (by omega)]
    omega
  rw [e, BitVec.toNat_ofInt]
  exact ⟨-((v + 50) / 256), by omega⟩

/-- **C61** Track voltages of 5000 to 30599 mV are sent in steps of 100 mV above 5 V, lower
voltages as 0, with subindex 46. -/
theorem C61_voltage (d : BitVec 16) (h0 : 0 ≤ d.toInt) (h1 : d.toInt ≤ 30599) :
    ((Dyn.trackVoltage d).convert.1.toNat : Int) = max 0 (d.toInt - 5000) / 100 ∧
      (Dyn.trackVoltage d).convert.2 = 46#8 := by
  refine ⟨?_, rfl⟩
  simp only [Dyn.convert]
  rw [toInt_ofInt16 _ (by omega) (by omega)]
  generalize d.toInt = v at *
  rw [Int.tdiv_eq_ediv_of_nonneg (by omega), toNat_ofInt8 _ (by omega) (by omega)]

/-- **C61** Voltages above that are sent 25.6 V too low. -/
theorem C61_voltage_wraps (d : BitVec 16) (h : 30600 ≤ d.toInt) :
    ((Dyn.trackVoltage d).convert.1.toNat : Int) = (d.toInt - 5000) / 100 - 256 := by
  have hb := int16_bounds d
  simp only [Dyn.convert]
  rw [toInt_ofInt16 _ (by omega) (by omega)]
  generalize d.toInt = v at *
  rw [Int.tdiv_eq_ediv_of_nonneg (by omega), BitVec.toNat_ofInt]
  omega

/-- **C61** The other two kinds carry the low byte of their value and a fixed or given subindex. -/
theorem C61_plain (d : BitVec 16) (x : Byte) :
    (Dyn.raw d x).convert = (d.setWidth 8, x) ∧
      (Dyn.directionStatusByte d).convert = (d.setWidth 8, 27#8) := ⟨rfl, rfl⟩

/-- **C61 does not hold** as saturation: 206 degrees are sent as -50 degrees, 30600 mV as 5 V, a
negative speed as a positive one and a very negative voltage as a positive one. -/
theorem C61_saturates_false :
    (Dyn.temperature 206#16).convert.1 = 0#8 ∧ (Dyn.trackVoltage 30600#16).convert.1 = 0#8 ∧
      (Dyn.kmh (BitVec.ofInt 16 (-1))).convert = (255#8, 0#8) ∧
      (Dyn.trackVoltage (BitVec.ofInt 16 (-32768))).convert.1 = 21#8 := by
  decide +kernel

/-! 300 km/h, -20 degrees and 16 V meet the hypotheses. -/

example : (0 : Int) ≤ (300#16).toInt ∧ (Dyn.kmh 300#16).convert = (44#8, 1#8) := by decide +kernel

example : (-50 : Int) ≤ (BitVec.ofInt 16 (-20)).toInt ∧ (BitVec.ofInt 16 (-20)).toInt ≤ 205 ∧
    (Dyn.temperature (BitVec.ofInt 16 (-20))).convert = (30#8, 26#8) := by decide +kernel

example : (0 : Int) ≤ (16000#16).toInt ∧ (16000#16).toInt ≤ 30599 ∧
    (Dyn.trackVoltage 16000#16).convert = (110#8, 46#8) := by decide +kernel

example : (30600 : Int) ≤ (32000#16).toInt ∧ (Dyn.trackVoltage 32000#16).convert = (14#8, 46#8) := by
  decide +kernel

end Dcc
