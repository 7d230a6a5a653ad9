import Verif.Spec.Codec
import Verif.Lemmas.Address
/-!
Properties C01-C03: addresses.
-/
namespace Dcc

/-- **C01** Address round trip: for every address a packet can carry, `decode_address` applied to
the bytes written by `encode_address` followed by anything returns the same value and type;
one byte is written, two for a long address. -/
theorem C01_address_roundtrip (a : Address) (h : Spec.Encodable a) (rest : List Byte) :
    ∃ bs, encodeAddress a = .ok bs ∧ bs.length = (if a.type = .long then 2 else 1) ∧
      decodeAddress (bs ++ rest) = .ok { value := a.value, type := a.type } := by
  obtain ⟨v, t, r⟩ := a
  simp only [Spec.Encodable] at h
  rcases h with ⟨rfl, h⟩ | ⟨rfl, h1, h2⟩ | ⟨rfl, h⟩ | ⟨rfl, h⟩ | ⟨rfl, h⟩ | ⟨rfl, h⟩
  · obtain rfl : v = 0 := BitVec.eq_of_toNat_eq (by simpa using h)
    exact ⟨_, rfl, rfl, rfl⟩
  · exact ⟨_, rfl, rfl, decode_short v rest h1 h2⟩
  · exact ⟨_, rfl, rfl, decode_long v rest h⟩
  · obtain rfl : v = 253 := BitVec.eq_of_toNat_eq (by simpa using h)
    exact ⟨_, rfl, rfl, rfl⟩
  · obtain rfl : v = 254 := BitVec.eq_of_toNat_eq (by simpa using h)
    exact ⟨_, rfl, rfl, rfl⟩
  · obtain rfl : v = 255 := BitVec.eq_of_toNat_eq (by simpa using h)
    exact ⟨_, rfl, rfl, rfl⟩

example : Spec.Encodable { value := 10239, type := .long } := by simp [Spec.Encodable]
example : Spec.Encodable { value := 3, type := .short } := by simp [Spec.Encodable]

/-- **C01** Addresses of other types: a reserved one is an assertion failure, accessory and unknown
ones are written as nothing. -/
theorem C01_other_types (a : Address) :
    (encodeAddress a = .error .assertion ↔ a.type = .reserved) ∧
    (encodeAddress a = .ok [] ↔ a.type = .accessory ∨ a.type = .unknownService) ∧
    (∀ f, encodeAddress a = .error f → f = .assertion) := by
  obtain ⟨v, t, r⟩ := a
  cases t <;> simp [encodeAddress]

/-- **C01**, last sentence: no long address of 10240 or more survives the round trip. -/
theorem C01_long_above_10239_lost (v : BitVec 16) (h : 10240 ≤ v.toNat) (rest : List Byte) :
    ∃ bs, encodeAddress { value := v, type := .long } = .ok bs ∧
      ∀ d, decodeAddress (bs ++ rest) = .ok d → ¬ (d.value = v ∧ d.type = .long) := by
  refine ⟨_, rfl, ?_⟩
  rintro d hd ⟨hv, ht⟩
  by_cases hlt : ((v >>> 8).setWidth 8).toNat < 40
  · rw [high8_toNat] at hlt; omega
  · -- the first byte is at least 232, hence not a long address, or the value lost its top bits
    by_cases h40 : (0xC0#8 ||| (v >>> 8).setWidth 8) ≤ 231#8
    · -- then the low six bits of the high byte are below 40
      have key : ∀ hi : BitVec 8, (0xC0#8 ||| hi) ≤ 231#8 →
          (0xC0#8 ||| hi) = 0xC0#8 ||| (hi &&& 0x3F#8) ∧ (hi &&& 0x3F#8).toNat < 40 := by decide +kernel
      obtain ⟨_, k2⟩ := key _ h40
      have k3 : ∀ hi : BitVec 8, (hi &&& 0x3F#8).toNat < 40 → (0xC0#8 ||| hi) ≠ 0#8 ∧
          ¬ (0xC0#8 ||| hi) ≤ 127#8 ∧ ¬ (0xC0#8 ||| hi) ≤ 191#8 ∧ (0xC0#8 ||| hi) ≤ 231#8 := by decide +kernel
      have k4 := k3 _ k2
      simp only [List.cons_append, decodeAddress, k4, if_false, if_true, Except.ok.injEq] at hd
      rw [longValue] at hd
      have hv2 : v &&& 0x3FFF#16 = v := by rw [← hd] at hv; exact hv
      have hlt : v.toNat < 16384 := by rw [← hv2, and3FFF_toNat]; omega
      have : ((v >>> 8).setWidth 8 &&& 0x3F#8).toNat = v.toNat / 256 % 64 := by
        rw [BitVec.toNat_and, high8_toNat]
        exact Nat.and_two_pow_sub_one_eq_mod _ 6
      omega
    · have k3 : ∀ hi : BitVec 8, ¬ (0xC0#8 ||| hi) ≤ 231#8 → (0xC0#8 ||| hi) ≠ 0#8 ∧
          ¬ (0xC0#8 ||| hi) ≤ 127#8 ∧ ¬ (0xC0#8 ||| hi) ≤ 191#8 := by decide +kernel
      have k4 := k3 _ h40
      simp only [List.cons_append, decodeAddress, k4, h40, if_false] at hd
      split at hd
      · simp only [Except.ok.injEq] at hd; rw [← hd] at ht; exact absurd ht (by simp)
      · split at hd
        · simp only [Except.ok.injEq] at hd; rw [← hd] at ht; exact absurd ht (by simp)
        · split at hd <;>
          · simp only [Except.ok.injEq] at hd; rw [← hd] at ht; exact absurd ht (by simp)

example : (10240 : Nat) ≤ (16383#16).toNat := by decide

/-- **C02** Address equality: short and long addresses are equal exactly if their values are,
other addresses exactly if value and type are; `reversed` never matters. -/
theorem C02_address_eq_iff (a b : Address) :
    a.eq b = true ↔ a.value = b.value ∧
      (a.type = b.type ∨ (a.type ∈ [AddrType.short, .long] ∧ b.type ∈ [AddrType.short, .long])) := by
  obtain ⟨v, t, r⟩ := a
  obtain ⟨v', t', r'⟩ := b
  cases t <;> cases t' <;> simp [Address.eq, AddrType.isLoco]

/-- **C02** Address equality is an equivalence relation. -/
theorem C02_address_eq_equivalence : Equivalence (fun a b : Address => a.eq b = true) := by
  constructor
  · intro a; rw [C02_address_eq_iff]; exact ⟨rfl, .inl rfl⟩
  · intro a b h; rw [C02_address_eq_iff] at *
    exact ⟨h.1.symm, h.2.imp Eq.symm And.symm⟩
  · intro a b c h1 h2; rw [C02_address_eq_iff] at *
    refine ⟨h1.1.trans h2.1, ?_⟩
    rcases h1.2 with e | ⟨p, q⟩ <;> rcases h2.2 with e' | ⟨p', q'⟩
    · exact .inl (e.trans e')
    · exact .inr ⟨e ▸ p', q'⟩
    · exact .inr ⟨p, e' ▸ q⟩
    · exact .inr ⟨p, q'⟩

example : ({ value := 100, type := .short } : Address).eq
    { value := 100, type := .long, reversed := true } = true := by decide
example : ({ value := 254, type := .long } : Address).eq
    { value := 254, type := .automaticLogon } = false := by decide

/-- The RCN-211 classes cover every first byte and do not overlap. -/
theorem C03_classes_partition (b : Byte) : ∃ t, Spec.HasClass b.toNat t ∧
    ∀ t', Spec.HasClass b.toNat t' → t' = t := by
  have hb := b.isLt
  generalize b.toNat = n at hb
  simp only [Spec.HasClass, Spec.firstByteClass, List.mem_cons, List.not_mem_nil, or_false]
  have : n = 0 ∨ (1 ≤ n ∧ n ≤ 127) ∨ (128 ≤ n ∧ n ≤ 191) ∨ (192 ≤ n ∧ n ≤ 231) ∨
      (232 ≤ n ∧ n ≤ 252) ∨ n = 253 ∨ n = 254 ∨ n = 255 := by omega
  rcases this with h | h | h | h | h | h | h | h
  · exact ⟨.broadcast, ⟨(0, 0, .broadcast), by simp; omega⟩, by
      rintro t' ⟨c, hc, h1, h2, rfl⟩
      rcases hc with rfl | rfl | rfl | rfl | rfl | rfl | rfl | rfl <;>
        first | rfl | (simp only at h1 h2; omega)⟩
  · exact ⟨.short, ⟨(1, 127, .short), by simp; omega⟩, by
      rintro t' ⟨c, hc, h1, h2, rfl⟩
      rcases hc with rfl | rfl | rfl | rfl | rfl | rfl | rfl | rfl <;>
        first | rfl | (simp only at h1 h2; omega)⟩
  · exact ⟨.accessory, ⟨(128, 191, .accessory), by simp; omega⟩, by
      rintro t' ⟨c, hc, h1, h2, rfl⟩
      rcases hc with rfl | rfl | rfl | rfl | rfl | rfl | rfl | rfl <;>
        first | rfl | (simp only at h1 h2; omega)⟩
  · exact ⟨.long, ⟨(192, 231, .long), by simp; omega⟩, by
      rintro t' ⟨c, hc, h1, h2, rfl⟩
      rcases hc with rfl | rfl | rfl | rfl | rfl | rfl | rfl | rfl <;>
        first | rfl | (simp only at h1 h2; omega)⟩
  · exact ⟨.reserved, ⟨(232, 252, .reserved), by simp; omega⟩, by
      rintro t' ⟨c, hc, h1, h2, rfl⟩
      rcases hc with rfl | rfl | rfl | rfl | rfl | rfl | rfl | rfl <;>
        first | rfl | (simp only at h1 h2; omega)⟩
  · exact ⟨.dataTransfer, ⟨(253, 253, .dataTransfer), by simp; omega⟩, by
      rintro t' ⟨c, hc, h1, h2, rfl⟩
      rcases hc with rfl | rfl | rfl | rfl | rfl | rfl | rfl | rfl <;>
        first | rfl | (simp only at h1 h2; omega)⟩
  · exact ⟨.automaticLogon, ⟨(254, 254, .automaticLogon), by simp; omega⟩, by
      rintro t' ⟨c, hc, h1, h2, rfl⟩
      rcases hc with rfl | rfl | rfl | rfl | rfl | rfl | rfl | rfl <;>
        first | rfl | (simp only at h1 h2; omega)⟩
  · exact ⟨.idleSystem, ⟨(255, 255, .idleSystem), by simp; omega⟩, by
      rintro t' ⟨c, hc, h1, h2, rfl⟩
      rcases hc with rfl | rfl | rfl | rfl | rfl | rfl | rfl | rfl <;>
        first | rfl | (simp only at h1 h2; omega)⟩

/-- **C03** `decode_address` classifies every first byte as RCN-211 does.  The value is the byte
itself, except for long addresses, where it is the 14-bit number `(b - 192) * 256 + c`, always
below 10240. -/
theorem C03_decode_class (b c : Byte) (rest : List Byte) :
    ∃ d, decodeAddress (b :: c :: rest) = .ok d ∧ Spec.HasClass b.toNat d.type ∧
      d.reversed = false ∧
      (d.type = .long → d.value.toNat = (b.toNat - 192) * 256 + c.toNat ∧ d.value.toNat < 10240) ∧
      (d.type ≠ .long → d.value.toNat = b.toNat) := by
  have hb := b.isLt
  have hw : (b.setWidth 16).toNat = b.toNat := by simp; omega
  have hl : ¬ b ≤ 191#8 → b ≤ 231#8 →
      (((b.setWidth 16 <<< 8) ||| c.setWidth 16) &&& 0x3FFF#16).toNat =
        (b.toNat - 192) * 256 + c.toNat := by
    intro h1 h2
    have h1' : ¬ b.toNat ≤ 191 := h1
    have h2' : b.toNat ≤ 231 := h2
    rw [and3FFF_toNat, concat16_toNat]
    omega
  have hc := c.isLt
  have e : ∀ n : Nat, n < 256 → (b ≤ BitVec.ofNat 8 n ↔ b.toNat ≤ n) := by
    intro n hn; rw [BitVec.le_def, BitVec.toNat_ofNat]; omega
  have e' : ∀ n : Nat, n < 256 → (b = BitVec.ofNat 8 n ↔ b.toNat = n) := by
    intro n hn; rw [BitVec.toNat_eq, BitVec.toNat_ofNat]; omega
  simp only [e 191 (by omega), e 231 (by omega)] at hl
  simp only [decodeAddress, e 127 (by omega), e 191 (by omega), e 231 (by omega),
    e 252 (by omega), e' 0 (by omega), e' 253 (by omega), e' 254 (by omega)]
  have mk : ∀ lo hi t, (lo, hi, t) ∈ Spec.firstByteClass → lo ≤ b.toNat → b.toNat ≤ hi →
      Spec.HasClass b.toNat t := fun lo hi t h h1 h2 => ⟨_, h, h1, h2, rfl⟩
  split
  · exact ⟨_, rfl, mk 0 0 _ (by simp [Spec.firstByteClass]) (by omega) (by omega), rfl,
      by simp, fun _ => hw⟩
  split
  · exact ⟨_, rfl, mk 1 127 _ (by simp [Spec.firstByteClass]) (by omega) (by omega), rfl,
      by simp, fun _ => hw⟩
  split
  · exact ⟨_, rfl, mk 128 191 _ (by simp [Spec.firstByteClass]) (by omega) (by omega), rfl,
      by simp, fun _ => hw⟩
  split
  · rename_i h1 h2
    refine ⟨_, rfl, mk 192 231 _ (by simp [Spec.firstByteClass]) (by omega) (by omega), rfl,
      fun _ => ⟨hl h1 h2, ?_⟩, by simp⟩
    rw [hl h1 h2]; omega
  split
  · exact ⟨_, rfl, mk 232 252 _ (by simp [Spec.firstByteClass]) (by omega) (by omega), rfl,
      by simp, fun _ => hw⟩
  split
  · exact ⟨_, rfl, mk 253 253 _ (by simp [Spec.firstByteClass]) (by omega) (by omega), rfl,
      by simp, fun _ => hw⟩
  split
  · exact ⟨_, rfl, mk 254 254 _ (by simp [Spec.firstByteClass]) (by omega) (by omega), rfl,
      by simp, fun _ => hw⟩
  · exact ⟨_, rfl, mk 255 255 _ (by simp [Spec.firstByteClass]) (by omega) (by omega), rfl,
      by simp, fun _ => hw⟩

/-- **C03** The second byte is read only for 192-231: with a single readable byte, decoding is
undefined exactly for these first bytes and otherwise gives the same result as with more bytes. -/
theorem C03_second_byte_only_for_long (b : Byte) :
    (decodeAddress [b] = .error .oob ↔ 192 ≤ b.toNat ∧ b.toNat ≤ 231) ∧
    (¬ (192 ≤ b.toNat ∧ b.toNat ≤ 231) → ∀ rest, decodeAddress (b :: rest) = decodeAddress [b]) := by
  have key : ∀ b : Byte, (decodeAddress [b] = .error .oob ↔ 192 ≤ b.toNat ∧ b.toNat ≤ 231) := by
    decide +kernel
  refine ⟨key b, fun h rest => ?_⟩
  have e : ∀ n : Nat, n < 256 → (b ≤ BitVec.ofNat 8 n ↔ b.toNat ≤ n) := by
    intro n hn; rw [BitVec.le_def, BitVec.toNat_ofNat]; omega
  by_cases h1 : b.toNat ≤ 191
  · simp [decodeAddress, (e 191 (by omega)).2 h1]
  · have h2 : ¬ b.toNat ≤ 231 := by omega
    have : ¬ b ≤ 231#8 := fun h => h2 ((e 231 (by omega)).1 h)
    simp only [decodeAddress, this, if_false]

example : Spec.HasClass 231 .long := ⟨(192, 231, .long), by simp [Spec.firstByteClass]⟩
example : decodeAddress [0xC3, 0xE8] = .ok { value := 1000, type := .long } := by decide

end Dcc
