import Verif.Model.Datagram
import Verif.Spec.Codec
/-! Helper lemmas about BiDi datagrams. -/
namespace Dcc

/-- Code word of a 6-bit value. -/
def codeOf (b : Byte) (h : b.toNat < 64) : Byte := encodeLut[b.toNat]'(by rw [encodeLut_length]; exact h)

theorem encodeSymbol_ok (b : Byte) (h : b.toNat < 64) : encodeSymbol b = .ok (codeOf b h) := by
  have : b.toNat < encodeLut.length := by rw [encodeLut_length]; exact h
  simp [encodeSymbol, codeOf, this]

theorem encodeSymbol_fault (b : Byte) (h : 64 ≤ b.toNat) : encodeSymbol b = .error .oob := by
  have : encodeLut.length ≤ b.toNat := by rw [encodeLut_length]; exact h
  simp [encodeSymbol, List.getElem?_eq_none this]

theorem symbol_facts : ∀ b : Byte, ∀ c, encodeSymbol b = .ok c →
    b.toNat < 64 ∧ Spec.popcount c = 4 ∧ decodeSymbol c = b ∧ c ∉ acks ∧ c ≠ nack := by
  have key : ∀ b : Byte, ∀ h : b.toNat < 64, Spec.popcount (codeOf b h) = 4 ∧
      decodeSymbol (codeOf b h) = b ∧ codeOf b h ∉ acks ∧ codeOf b h ≠ nack := by decide +kernel
  intro b c hc
  by_cases h : b.toNat < 64
  · rw [encodeSymbol_ok b h] at hc
    cases hc
    exact ⟨h, key b h⟩
  · rw [encodeSymbol_fault b (by omega)] at hc
    cases hc

theorem encodeDatagram_cons (b : Byte) (d : List Byte) :
    encodeDatagram (b :: d) = (do
      let c ← encodeSymbol b
      let cs ← encodeDatagram d
      return c :: cs) := by
  simp [encodeDatagram, List.mapM_cons]

theorem encodeDatagram_nil : encodeDatagram [] = .ok [] := rfl

theorem encodeDatagram_ok (d : List Byte) (h : ∀ b ∈ d, b.toNat < 64) :
    ∃ e, encodeDatagram d = .ok e ∧ decodeDatagram e = d ∧ e.length = d.length := by
  induction d with
  | nil => exact ⟨[], rfl, rfl, rfl⟩
  | cons b d ih =>
    obtain ⟨e, h1, h2, h3⟩ := ih (fun x hx => h x (by simp [hx]))
    have hb := encodeSymbol_ok b (h b (by simp))
    refine ⟨codeOf b (h b (by simp)) :: e, ?_, ?_, by simp [h3]⟩
    · rw [encodeDatagram_cons, hb, h1]; rfl
    · simp only [decodeDatagram, List.map_cons] at h2 ⊢
      rw [h2, (symbol_facts b _ hb).2.2.1]

theorem encodeDatagram_mem (d e : List Byte) (h : encodeDatagram d = .ok e) :
    ∀ c ∈ e, ∃ b ∈ d, encodeSymbol b = .ok c := by
  induction d generalizing e with
  | nil => cases h; simp
  | cons b d ih =>
    rw [encodeDatagram_cons] at h
    rw [bind_eq_ok] at h
    obtain ⟨c, h1, h⟩ := h
    rw [bind_eq_ok] at h
    obtain ⟨cs, h2, h⟩ := h
    simp only [pure_eq_ok, Except.ok.injEq] at h
    subst h
    intro x hx
    rcases List.mem_cons.mp hx with rfl | hx
    · exact ⟨b, by simp, h1⟩
    · obtain ⟨y, hy, hy2⟩ := ih cs h2 x hx
      exact ⟨y, by simp [hy], hy2⟩

theorem encodeDatagram_inj (d d' e : List Byte) (h : encodeDatagram d = .ok e)
    (h' : encodeDatagram d' = .ok e) : d = d' := by
  have key : ∀ (d e : List Byte), encodeDatagram d = .ok e → decodeDatagram e = d := by
    intro d
    induction d with
    | nil => intro e h; cases h; rfl
    | cons b d ih =>
      intro e h
      rw [encodeDatagram_cons, bind_eq_ok] at h
      obtain ⟨c, h1, h⟩ := h
      rw [bind_eq_ok] at h
      obtain ⟨cs, h2, h⟩ := h
      simp only [pure_eq_ok, Except.ok.injEq] at h
      subst h
      have := ih cs h2
      simp only [decodeDatagram, List.map_cons] at this ⊢
      rw [this, (symbol_facts b c h1).2.2.1]
  rw [← key d e h, ← key d' e h']

/-! ### Six-bit groups -/

theorem sixBitGroups_length (n d : Nat) : (sixBitGroups n d).1.length = n := by
  induction n generalizing d with
  | zero => rfl
  | succ n ih => simp [sixBitGroups, ih]

theorem sixBitGroups_lt (n d : Nat) : ∀ b ∈ (sixBitGroups n d).1, b.toNat < 64 := by
  induction n generalizing d with
  | zero => simp [sixBitGroups]
  | succ n ih =>
    intro b hb
    simp only [sixBitGroups, List.mem_append, List.mem_singleton] at hb
    rcases hb with hb | rfl
    · exact ih _ b hb
    · simp; omega

theorem sixBitGroups_rem (n d : Nat) : (sixBitGroups n d).2 = d / 2 ^ (6 * n) := by
  induction n generalizing d with
  | zero => simp [sixBitGroups]
  | succ n ih =>
    simp only [sixBitGroups, ih, Nat.div_div_eq_div_mul]
    congr 1
    rw [show 6 * (n + 1) = 6 + 6 * n by omega, Nat.pow_add]

theorem sixBitGroups_mod (n d : Nat) : (sixBitGroups n d).1 = (sixBitGroups n (d % 2 ^ (6 * n))).1 := by
  induction n generalizing d with
  | zero => rfl
  | succ n ih =>
    simp only [sixBitGroups]
    have e : 2 ^ (6 * (n + 1)) = 64 * 2 ^ (6 * n) := by
      rw [show 6 * (n + 1) = 6 + 6 * n by omega, Nat.pow_add]
    rw [e, Nat.mod_mul_right_div_self, ← ih, Nat.mod_mul_right_mod]

/-- The unbounded value of a datagram. -/
def groupsVal (d : List Byte) : Nat := d.foldl (fun acc b => acc * 64 + b.toNat) 0

theorem groupsVal_append (d : List Byte) (b : Byte) : groupsVal (d ++ [b]) = groupsVal d * 64 + b.toNat := by
  simp [groupsVal]

theorem groupsVal_sixBitGroups (n d : Nat) : groupsVal (sixBitGroups n d).1 = d % 2 ^ (6 * n) := by
  induction n generalizing d with
  | zero => simp [sixBitGroups, groupsVal, Nat.mod_one]
  | succ n ih =>
    simp only [sixBitGroups, groupsVal_append, ih]
    have e : 2 ^ (6 * (n + 1)) = 64 * 2 ^ (6 * n) := by
      rw [show 6 * (n + 1) = 6 + 6 * n by omega, Nat.pow_add]
    rw [e, Nat.mod_mul]
    simp
    omega

theorem groupsVal_lt (d : List Byte) (h : ∀ b ∈ d, b.toNat < 64) : groupsVal d < 2 ^ (6 * d.length) := by
  suffices ∀ acc, d.foldl (fun acc b => acc * 64 + b.toNat) acc < (acc + 1) * 2 ^ (6 * d.length) by
    simpa [groupsVal] using this 0
  induction d with
  | nil => intro acc; simp
  | cons b d ih =>
    intro acc
    simp only [List.foldl_cons, List.length_cons]
    have h1 := ih (fun x hx => h x (by simp [hx])) (acc * 64 + b.toNat)
    have hb := h b (by simp)
    refine Nat.lt_of_lt_of_le h1 ?_
    rw [show 6 * (d.length + 1) = 6 + 6 * d.length by omega, Nat.pow_add, ← Nat.mul_assoc]
    exact Nat.mul_le_mul_right _ (by omega)

theorem and3F_toNat (b : Byte) (h : b.toNat < 64) : (b &&& 0x3F#8).toNat = b.toNat := by
  rw [BitVec.toNat_and]
  have : b.toNat &&& (0x3F#8).toNat = b.toNat % 2 ^ 6 := Nat.and_two_pow_sub_one_eq_mod _ 6
  rw [this]; omega

theorem shiftOr_toNat (acc : BitVec 64) (b : Byte) (hb : b.toNat < 64)
    (h : acc.toNat < 2 ^ 58) :
    ((acc <<< 6) ||| (b &&& 0x3F#8).setWidth 64).toNat = acc.toNat * 64 + b.toNat := by
  rw [BitVec.toNat_or, BitVec.toNat_shiftLeft, BitVec.toNat_setWidth, and3F_toNat b hb,
    Nat.shiftLeft_eq]
  rw [Nat.mod_eq_of_lt (by omega), Nat.mod_eq_of_lt (by omega)]
  rw [show acc.toNat * 2 ^ 6 = 2 ^ 6 * acc.toNat by omega, ← Nat.two_pow_add_eq_or_of_lt (by omega)]

theorem makeData_toNat (d : List Byte) (h : ∀ b ∈ d, b.toNat < 64) (hl : d.length ≤ 10) :
    (makeData d).toNat = groupsVal d := by
  suffices ∀ (d : List Byte) (k : Nat) (acc : BitVec 64), (∀ b ∈ d, b.toNat < 64) →
      acc.toNat < 2 ^ (6 * k) → k + d.length ≤ 10 →
      (d.foldl (fun (acc : BitVec 64) b => (acc <<< 6) ||| (b &&& 0x3F#8).setWidth 64) acc).toNat =
        d.foldl (fun acc b => acc * 64 + b.toNat) acc.toNat by
    simpa [groupsVal, makeData] using this d 0 0#64 h (by simp) (by omega)
  intro d
  induction d with
  | nil => intros; rfl
  | cons b d ih =>
    intro k acc h ha hk
    simp only [List.length_cons] at hk
    simp only [List.foldl_cons]
    have hb := h b (by simp)
    have h58 : acc.toNat < 2 ^ 58 :=
      Nat.lt_of_lt_of_le ha (Nat.pow_le_pow_right (by omega) (by omega))
    have e := shiftOr_toNat acc b hb h58
    rw [ih (k + 1) _ (fun x hx => h x (by simp [hx])) ?_ (by omega), e]
    rw [e, show 6 * (k + 1) = 6 * k + 6 by omega, Nat.pow_add]
    omega

end Dcc
