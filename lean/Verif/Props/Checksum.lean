import Verif.Lemmas.Checksum
/-!
Properties C05-C07: the packet checksum and the CRC.
-/
namespace Dcc

/-- **C05** The packet checksum detects every corruption confined to one byte: if the bytes of a
packet exclusive-or to zero, they no longer do after any one byte is replaced by another value. -/
theorem C05_checksum_detects_one_byte (p : Packet) (hp : exor p = 0#8) (i : Nat)
    (hi : i < p.length) (b : Byte) (hb : b ≠ p[i]) : exor (p.set i b) ≠ 0#8 := by
  rw [exor_set p i b hi, hp, BitVec.zero_xor, Ne, xor_eq_zero_iff]
  exact fun h => hb h.symm

example : exor [0x03, 0x3F, 0x85, 0xB9] = 0#8 ∧ (0x84 : Byte) ≠ [0x03, 0x3F, 0x85, (0xB9 : Byte)][2] := by
  decide

/-- **C05** The checksum calculated for a packet is its last byte exactly if its bytes exclusive-or to
zero. -/
theorem C05_exor_packet (m : List Byte) (c : Byte) :
    exorPacket (m ++ [c]) = .ok c ↔ exor (m ++ [c]) = 0#8 := by
  have h : m ++ [c] ≠ [] := by simp
  rw [exorPacket, if_neg h, List.dropLast_concat, exor_append]
  have h1 : exor [c] = c := by simp [exor]
  rw [h1, xor_eq_zero_iff]
  exact ⟨fun h => by cases h; rfl, fun h => by rw [h]⟩

example : exorPacket [0x03, 0x3F, 0x85, 0xB9] = .ok 0xB9#8 := by decide

/-- **C06** The table-driven `crc8` equals the bit-serial Dallas/Maxim CRC for every message. -/
theorem C06_crc8_is_dallas_maxim (m : List Byte) : crc8 m = Spec.crcMsg m := crc8_eq_spec m

example : Spec.crcMsg [0x0B, 0x0A, 0x00, 0x00, 0x8E, 0x40, 0x00, 0x0D, 0x67, 0x00, 0x01, 0x00] =
    0x4C#8 := by decide +kernel

/-- **C07** Appending the CRC of a message gives a message with CRC zero. -/
theorem C07_crc8_append (m : List Byte) : crc8 (m ++ [crc8 m]) = 0#8 := crc8_append_self m

/-- **C07** The CRC of a packet leaves its checksum out, so it is zero if the byte before the checksum
is the CRC of those before it. -/
theorem C07_crc8_packet (m : List Byte) (c x : Byte) :
    crc8Packet (m ++ [c] ++ [x]) = 0#8 ↔ c = crc8 m := by
  rw [crc8Packet, List.dropLast_concat]
  constructor
  · intro h
    exact crc8_zero_last m c h
  · rintro rfl
    exact C07_crc8_append m

/-- **C07** `crc8` is linear over exclusive-or of messages of equal length. -/
theorem C07_crc8_linear (m n : List Byte) (h : m.length = n.length) :
    crc8 (Spec.xorMsg m n) = crc8 m ^^^ crc8 n := by
  simp only [crc8_eq_spec, Spec.crcMsg]
  simpa using crc_foldl_linear m n h 0#8 0#8

/-- **C07** Every error burst of at most eight bits (at any bit offset, in particular any error
confined to one byte) changes the CRC. -/
theorem C07_crc8_detects_burst (m e : List Byte) (h : m.length = e.length) (he : Spec.Burst8 e) :
    crc8 (Spec.xorMsg m e) ≠ crc8 m := by
  rw [C07_crc8_linear m e h]
  intro h0
  have h1 : crc8 e = 0#8 := by
    have : crc8 m ^^^ (crc8 m ^^^ crc8 e) = crc8 m ^^^ crc8 m := by rw [h0]
    rw [← BitVec.xor_assoc] at this
    simpa using this
  obtain ⟨pre, mid, post, hb, hlen, ht, hpre, hpost⟩ := he
  rw [crc8_eq_spec, Spec.crcMsg, ← crcMsg_bits, hb, List.foldl_append, List.foldl_append,
    crcBits_zeros pre hpre] at h1
  exact crcBits_zeros_ne post hpost _ (crcBits_window mid hlen ht) h1

/-- A non-zero error confined to one byte is a burst, so it is detected. -/
theorem C07_crc8_detects_one_byte (m : List Byte) (pre post : List Byte) (b : Byte) (hb : b ≠ 0#8)
    (hpre : ∀ x ∈ pre, x = 0#8) (hpost : ∀ x ∈ post, x = 0#8)
    (h : m.length = (pre ++ [b] ++ post).length) :
    crc8 (Spec.xorMsg m (pre ++ [b] ++ post)) ≠ crc8 m := by
  apply C07_crc8_detects_burst m _ h
  refine ⟨Spec.msgBits pre, Spec.msgBits [b], Spec.msgBits post, by simp [Spec.msgBits], ?_, ?_, ?_, ?_⟩
  · simp [Spec.msgBits]
  · have key : ∀ b : Byte, b ≠ 0#8 → true ∈ Spec.msgBits [b] := by decide +kernel
    exact key b hb
  · intro x hx
    simp only [Spec.msgBits, List.mem_flatMap, List.mem_map] at hx
    obtain ⟨y, hy, i, _, rfl⟩ := hx
    rw [hpre y hy]; simp
  · intro x hx
    simp only [Spec.msgBits, List.mem_flatMap, List.mem_map] at hx
    obtain ⟨y, hy, i, _, rfl⟩ := hx
    rw [hpost y hy]; simp

/-- **C07** Every error with an odd number of flipped bits changes the CRC. -/
theorem C07_crc8_detects_odd (m e : List Byte) (h : m.length = e.length)
    (he : (e.map Spec.popcount).sum % 2 = 1) : crc8 (Spec.xorMsg m e) ≠ crc8 m := by
  rw [C07_crc8_linear m e h]
  intro h0
  have h1 : crc8 e = 0#8 := by
    have : crc8 m ^^^ (crc8 m ^^^ crc8 e) = crc8 m ^^^ crc8 m := by rw [h0]
    rw [← BitVec.xor_assoc] at this
    simpa using this
  have hp := popcount_crcMsg e 0#8
  rw [crc8_eq_spec, Spec.crcMsg] at h1
  rw [h1] at hp
  have : Spec.popcount 0#8 = 0 := by decide
  omega

example : Spec.Burst8 [0x00, 0xC0, 0x03, 0x00] :=
  ⟨List.replicate 14 false, List.replicate 4 true, List.replicate 14 false, by decide, by decide,
    by decide, by decide, by decide⟩
example : (([0x00, 0x81, 0x01] : List Byte).map Spec.popcount).sum % 2 = 1 := by decide

end Dcc
