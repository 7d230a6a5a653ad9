import Verif.Lemmas.Datagram
/-!
Properties C09-C11: BiDi datagrams.
-/
namespace Dcc

/-- **C09** The 4-of-8 code: `encode_datagram` is defined exactly on datagrams of 6-bit values,
every byte it produces has four ones and is neither an ACK nor the NACK, it is injective and
`decode_datagram` inverts it, for datagrams of any length. -/
theorem C09_four_of_eight_code (d : List Byte) :
    ((∃ e, encodeDatagram d = .ok e) ↔ ∀ b ∈ d, b.toNat < 64) ∧
    (∀ e, encodeDatagram d = .ok e →
      e.length = d.length ∧ decodeDatagram e = d ∧
      (∀ c ∈ e, Spec.popcount c = 4 ∧ c ∉ acks ∧ c ≠ nack) ∧
      (∀ d', encodeDatagram d' = .ok e → d' = d)) := by
  have only : ∀ e, encodeDatagram d = .ok e → ∀ b ∈ d, b.toNat < 64 := by
    induction d with
    | nil => simp
    | cons b d ih =>
      intro e h
      rw [encodeDatagram_cons, bind_eq_ok] at h
      obtain ⟨c, h1, h⟩ := h
      rw [bind_eq_ok] at h
      obtain ⟨cs, h2, _⟩ := h
      intro x hx
      rcases List.mem_cons.mp hx with rfl | hx
      · exact (symbol_facts _ c h1).1
      · exact ih cs h2 x hx
  refine ⟨⟨fun ⟨e, he⟩ => only e he, fun h => ?_⟩, fun e he => ?_⟩
  · obtain ⟨e, he, _⟩ := encodeDatagram_ok d h
    exact ⟨e, he⟩
  · obtain ⟨e', h1, h2, h3⟩ := encodeDatagram_ok d (only e he)
    rw [he] at h1
    cases h1
    refine ⟨h3, h2, fun c hc => ?_, fun d' hd' => encodeDatagram_inj d' d e hd' he⟩
    obtain ⟨b, _, hb⟩ := encodeDatagram_mem d e he c hc
    have := symbol_facts b c hb
    exact ⟨this.2.1, this.2.2.2⟩

/-- **C09** Two different 6-bit values have different code words. -/
theorem C09_code_injective (a b c : Byte) (ha : encodeSymbol a = .ok c)
    (hb : encodeSymbol b = .ok c) : a = b := by
  rw [← (symbol_facts a c ha).2.2.1, ← (symbol_facts b c hb).2.2.1]

/-- **C09** The 70 bytes with four ones are the 64 code words, the two ACKs 15 and 240, the NACK 60 and
the three bytes RCN-217 reserves; `decode_datagram` answers zero for every byte which is no code
word. -/
theorem C09_whole_code :
    (∀ c : Byte, Spec.popcount c = 4 ↔
      (∃ b, encodeSymbol b = .ok c) ∨ c ∈ acks ∨ c = nack ∨ c.toNat ∈ [0x87, 0xC3, 0xE1]) ∧
    acks.map BitVec.toNat = [15, 240] ∧ nack.toNat = 60 ∧
    ∀ c : Byte, (∀ b, encodeSymbol b ≠ .ok c) → decodeSymbol c = 0#8 := by
  have h1 : ∀ c : Byte, Spec.popcount c = 4 ↔
      (∃ b ∈ encodeLut, b = c) ∨ c ∈ acks ∨ c = nack ∨ c.toNat ∈ [0x87, 0xC3, 0xE1] := by
    decide +kernel
  have h2 : ∀ c : Byte, (¬ ∃ b ∈ encodeLut, b = c) → decodeSymbol c = 0#8 := by decide +kernel
  have he : ∀ c : Byte, (∃ b ∈ encodeLut, b = c) ↔ ∃ b, encodeSymbol b = .ok c := by
    intro c
    constructor
    · rintro ⟨b, hb, rfl⟩
      obtain ⟨n, hn, rfl⟩ := List.getElem_of_mem hb
      have hl := encodeLut_length
      refine ⟨BitVec.ofNat 8 n, ?_⟩
      have : (BitVec.ofNat 8 n).toNat = n := by
        rw [BitVec.toNat_ofNat]; exact Nat.mod_eq_of_lt (by omega)
      simp [encodeSymbol, this, hn]
    · rintro ⟨b, hb⟩
      rw [encodeSymbol] at hb
      split at hb
      · cases hb; exact ⟨_, List.mem_of_getElem? ‹_›, rfl⟩
      · cases hb
  refine ⟨fun c => by rw [h1, he], by decide, by decide, fun c hc => h2 c ?_⟩
  rw [he]
  rintro ⟨b, hb⟩
  exact hc b hb

example : encodeDatagram [0x00, 0x3F, 0x15] = .ok [0xAC, 0x33, 0x6C] := by decide +kernel

/-- Number of payload bits of a datagram with ID. -/
def payloadBits (i : Bits) : Nat := 6 * datagramSize i - 4

/-- The elements of a datagram with id are the groups of `id * 2^payloadBits + data`. -/
theorem makeDatagramId_eq (i : Bits) (id data : Nat) (hid : id < 16)
    (hd : data < 2 ^ payloadBits i) :
    makeDatagramId i id data = .ok (sixBitGroups (datagramSize i) (id * 2 ^ payloadBits i + data)).1 := by
  have hd' : data < 2 ^ (datagramSize i * 6 - 4) := by
    rw [Nat.mul_comm]; exact hd
  rw [makeDatagramId, if_pos hd']
  show Except.ok (BitVec.ofNat 8 (id <<< 2 ||| ((sixBitGroups (datagramSize i - 1) data).2 % 4)) ::
    (sixBitGroups (datagramSize i - 1) data).1) = _
  congr 1
  -- peel off the first group
  have first : ∀ n d, (sixBitGroups (n + 1) d).1 =
      BitVec.ofNat 8 (d / 2 ^ (6 * n) % 64) :: (sixBitGroups n d).1 := by
    intro n
    induction n with
    | zero => intro d; simp [sixBitGroups]
    | succ n ih =>
      intro d
      rw [sixBitGroups]
      simp only []
      rw [ih (d / 64), Nat.div_div_eq_div_mul]
      rw [show 6 * (n + 1) = 6 + 6 * n by omega, Nat.pow_add]
      rfl
  have hn : ∃ n, datagramSize i = n + 1 := ⟨datagramSize i - 1, by cases i <;> decide⟩
  obtain ⟨n, hn⟩ := hn
  have hp : payloadBits i = 6 * n + 2 := by rw [payloadBits, hn]; omega
  rw [hn, Nat.add_sub_cancel, first, sixBitGroups_rem]
  rw [hp, Nat.pow_add] at hd
  rw [hp, Nat.pow_add]
  have hpos : 0 < 2 ^ (6 * n) := Nat.two_pow_pos _
  congr 1
  · apply congrArg (BitVec.ofNat 8)
    have e1 : id * (2 ^ (6 * n) * 2 ^ 2) + data = data + 2 ^ (6 * n) * (id * 4) := by
      rw [show (2:Nat) ^ 2 = 4 by rfl, Nat.mul_comm (2 ^ (6 * n)) (id * 4), Nat.add_comm,
        Nat.mul_assoc, Nat.mul_comm 4]
    rw [e1, Nat.add_mul_div_left _ _ hpos]
    have e2 : data / 2 ^ (6 * n) < 4 := by
      rw [Nat.div_lt_iff_lt_mul hpos, Nat.mul_comm]; exact hd
    rw [Nat.mod_eq_of_lt e2, Nat.mod_eq_of_lt (by omega), Nat.shiftLeft_eq,
      show id * 2 ^ 2 = 2 ^ 2 * id by omega, ← Nat.two_pow_add_eq_or_of_lt (by simpa using e2)]
    omega
  · rw [sixBitGroups_mod n data, sixBitGroups_mod n (id * _ + data)]
    have e1 : id * (2 ^ (6 * n) * 2 ^ 2) + data = data + 2 ^ (6 * n) * (id * 4) := by
      rw [show (2:Nat) ^ 2 = 4 by rfl, Nat.mul_comm (2 ^ (6 * n)) (id * 4), Nat.add_comm,
        Nat.mul_assoc, Nat.mul_comm 4]
    rw [e1, Nat.add_mul_mod_self_left]

/-- **C10** Round trip of a datagram with ID: all elements have six bits, encoding succeeds, and
decoding and reassembling gives the ID followed by the payload. -/
theorem C10_datagram_roundtrip (i : Bits) (id data : Nat) (hid : id < 16)
    (hd : data < 2 ^ payloadBits i) :
    ∃ d e, makeDatagramId i id data = .ok d ∧ d.length = datagramSize i ∧
      (∀ b ∈ d, b.toNat < 64) ∧ encodeDatagram d = .ok e ∧
      (makeData (decodeDatagram e)).toNat = id * 2 ^ payloadBits i + data := by
  have h6 := sixBitGroups_lt (datagramSize i) (id * 2 ^ payloadBits i + data)
  have hl := sixBitGroups_length (datagramSize i) (id * 2 ^ payloadBits i + data)
  obtain ⟨e, he, hde, _⟩ := encodeDatagram_ok _ h6
  refine ⟨_, e, makeDatagramId_eq i id data hid hd, hl, h6, he, ?_⟩
  rw [hde, makeData_toNat _ h6 (by rw [hl]; cases i <;> decide), groupsVal_sixBitGroups]
  apply Nat.mod_eq_of_lt
  have : 2 ^ (6 * datagramSize i) = 16 * 2 ^ payloadBits i := by cases i <;> decide
  rw [this]
  have : id * 2 ^ payloadBits i + 2 ^ payloadBits i ≤ 16 * 2 ^ payloadBits i := by
    rw [← Nat.succ_mul]
    exact Nat.mul_le_mul_right _ hid
  omega

/-- **C10** Same without ID. -/
theorem C10_datagram_roundtrip_raw (i : Bits) (data : Nat) (hd : data < 2 ^ (6 * datagramSize i)) :
    ∃ d e, makeDatagram i data = .ok d ∧ d.length = datagramSize i ∧
      (∀ b ∈ d, b.toNat < 64) ∧ encodeDatagram d = .ok e ∧
      (makeData (decodeDatagram e)).toNat = data := by
  have h6 := sixBitGroups_lt (datagramSize i) data
  have hl := sixBitGroups_length (datagramSize i) data
  obtain ⟨e, he, hde, _⟩ := encodeDatagram_ok _ h6
  refine ⟨_, e, by rw [makeDatagram, Nat.mul_comm, if_pos hd], hl, h6, he, ?_⟩
  rw [hde, makeData_toNat _ h6 (by rw [hl]; cases i <;> decide), groupsVal_sixBitGroups]
  exact Nat.mod_eq_of_lt hd

/-- **C11** Both overloads agree. -/
theorem C11_make_datagram_agree (i : Bits) (id data : Nat) (hid : id < 16)
    (hd : data < 2 ^ payloadBits i) :
    makeDatagramId i id data = makeDatagram i (id <<< payloadBits i ||| data) := by
  rw [makeDatagramId_eq i id data hid hd, Nat.shiftLeft_eq, Nat.mul_comm id,
    ← Nat.two_pow_add_eq_or_of_lt hd, makeDatagram, if_pos]
  · have : 2 ^ (datagramSize i * 6) = 16 * 2 ^ payloadBits i := by cases i <;> decide
    rw [this]
    have : id * 2 ^ payloadBits i + 2 ^ payloadBits i ≤ 16 * 2 ^ payloadBits i := by
      rw [← Nat.succ_mul]
      exact Nat.mul_le_mul_right _ hid
    rw [Nat.mul_comm]
    omega

/-- The payload sizes RCN-217 documents. -/
example : payloadBits .b12 = 8 ∧ payloadBits .b18 = 14 ∧ payloadBits .b24 = 20 ∧
    payloadBits .b36 = 32 ∧ payloadBits .b48 = 44 := by decide

example : makeDatagramId .b36 13 0xCAFEBABE = .ok [0x37, 0x0A, 0x3F, 0x2B, 0x2A, 0x3E] := by
  decide

end Dcc
