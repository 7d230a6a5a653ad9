import Verif.Lemmas.Utility
/-!
Properties C04, C08, C12-C14: packet builders and conversions.
-/
namespace Dcc

/-- **C04** Every addressed packet builder, for all argument values (up to eleven further function
bytes), makes a packet of the documented length, between 3 and `DCC_MAX_PACKET_SIZE`, whose bytes
exclusive-or to zero. -/
theorem C04_addressed_builders (a : Address) (ha : Spec.WritableType a.type)
    (c : Spec.AddressedCall) (hc : c.payloadLength ≤ 15) :
    ∃ p, c.run a = .ok p ∧
      p.length = (if a.type = .long then 2 else 1) + c.payloadLength + 1 ∧
      3 ≤ p.length ∧ p.length ≤ maxPacketSize ∧ exor p = 0#8 := by
  have hlen := payload_length c
  have hpos : 1 ≤ c.payloadLength := by cases c <;> simp [Spec.AddressedCall.payloadLength]; omega
  have henc : ∃ bs, encodeAddress a = .ok bs ∧ bs.length = (if a.type = .long then 2 else 1) := by
    obtain ⟨v, t, r⟩ := a
    rcases ha with h | h | h | h | h | h <;> simp only at h <;> subst h <;> exact ⟨_, rfl, rfl⟩
  obtain ⟨bs, hbs, hbl⟩ := henc
  refine ⟨bs ++ payload c ++ [exor (bs ++ payload c)], ?_, ?_, ?_, ?_, exor_finish _⟩
  · rw [run_eq, addressed, hbs]
    simp only [ok_bind]
    apply finish_ok
    simp only [List.length_append, hlen, hbl, maxPacketSize]
    split <;> omega
  all_goals
    simp only [List.length_append, hlen, hbl, maxPacketSize, List.length_cons, List.length_nil]
    try (split <;> omega)

/-- **C04** Same for the builders without address. -/
theorem C04_plain_builders (c : Spec.PlainCall) :
    ∃ p, c.run = .ok p ∧ p.length = c.length ∧ 3 ≤ p.length ∧ p.length ≤ maxPacketSize ∧
      exor p = 0#8 := by
  have key : ∀ (x : R Packet) (bs : List Byte) (n : Nat), x = finish bs → n = bs.length + 1 →
      3 ≤ n → n ≤ maxPacketSize → ∃ p, x = .ok p ∧ p.length = n ∧ 3 ≤ p.length ∧
        p.length ≤ maxPacketSize ∧ exor p = 0#8 := by
    intro x bs n hx hn h1 h2
    subst hx hn
    exact ⟨_, finish_ok bs h2, by simp, by simpa using h1, by simpa using h2, exor_finish bs⟩
  cases c with
  | idle => exact ⟨_, rfl, by decide, by decide, by decide, by decide⟩
  | reset => exact ⟨_, rfl, by decide, by decide, by decide, by decide⟩
  | _ =>
    simp only [Spec.PlainCall.run, makeCvVerifyServicePacket, makeCvWriteServicePacket,
      makeCvVerifyBitServicePacket, makeCvWriteBitServicePacket, makeLogonEnablePacket,
      makeLogonSelectPacket, makeLogonAssignPacket]
    refine key _ _ _ rfl ?_ ?_ ?_ <;>
      simp [Spec.PlainCall.length, uint16ToData, uint32ToData, maxPacketSize]

/-- **C04**, limits: more function bytes than fit are undefined behaviour (no check in the code),
and the two builders marked as todo return an empty packet, which is not a valid one. -/
theorem C04_limits (a : Address) (ha : Spec.WritableType a.type) (r f : Byte) (fs : List Byte) :
    ((Spec.AddressedCall.speedDirFunctions r f fs).run a = .error .overflow ↔
      (if a.type = .long then 12 else 13) < fs.length) ∧
    makeRestrictedSpeedPacket a = [] ∧ makeAnalogFunctionGroupPacket a = [] := by
  refine ⟨?_, rfl, rfl⟩
  have henc : ∃ bs, encodeAddress a = .ok bs ∧ bs.length = (if a.type = .long then 2 else 1) := by
    obtain ⟨v, t, r⟩ := a
    rcases ha with h | h | h | h | h | h <;> simp only at h <;> subst h <;> exact ⟨_, rfl, rfl⟩
  obtain ⟨bs, hbs, hbl⟩ := henc
  rw [run_eq, addressed, hbs]
  simp only [ok_bind, finish]
  have hl : (bs ++ payload (.speedDirFunctions r f fs)).length =
      (if a.type = .long then 2 else 1) + (3 + fs.length) := by
    simp [payload, hbl]; omega
  rw [hl]
  simp only [maxPacketSize]
  split <;> split <;> simp <;> omega

example : Spec.WritableType .long ∧
    (Spec.AddressedCall.speedDirFunctions 0x85 0x01 [0x02, 0x03, 0x04]).payloadLength ≤ 15 := by
  simp [Spec.WritableType, Spec.AddressedCall.payloadLength]

/-- **C08** LOGON_SELECT and LOGON_ASSIGN packets pass the receiver's CRC check (the CRC over all
bytes but the checksum is zero) for all arguments. -/
theorem C08_logon_packets_pass_crc (mid : BitVec 16) (did : BitVec 32) (sub : Byte)
    (addr : BitVec 16) :
    (∃ p, makeLogonSelectPacket mid did sub = .ok p ∧ crc8Packet p = 0#8) ∧
    (∃ p, makeLogonAssignPacket mid did addr = .ok p ∧ crc8Packet p = 0#8) := by
  constructor
  · refine ⟨_, finish_ok _ (by simp [uint32ToData, maxPacketSize]), ?_⟩
    rw [crc8Packet, List.dropLast_concat]
    exact crc8_append_self _
  · refine ⟨_, finish_ok _ (by simp [uint32ToData, uint16ToData, maxPacketSize]), ?_⟩
    rw [crc8Packet, List.dropLast_concat]
    exact crc8_append_self _

/-- **C12** 16-bit words survive the conversion to bytes and back, two bytes, most significant
first. -/
theorem C12_uint16_roundtrip (w : BitVec 16) (rest : List Byte) :
    (uint16ToData w).length = 2 ∧ data2uint16 (uint16ToData w ++ rest) = .ok w ∧
    ∃ hi lo, uint16ToData w = [hi, lo] ∧ w.toNat = hi.toNat * 256 + lo.toNat := by
  refine ⟨rfl, ?_, _, _, rfl, ?_⟩
  · simp only [uint16ToData, List.cons_append, List.nil_append, data2uint16, byteAt_zero,
      byteAt_succ, ok_bind, pure_eq_ok]
    congr 1
    bits16
  · have h := concat16_toNat (((w &&& 0xFF00#16) >>> 8).setWidth 8) ((w &&& 0x00FF#16).setWidth 8)
    rw [← h]
    congr 1
    bits16

/-- **C12** Two bytes survive the conversion to a word and back. -/
theorem C12_data16_roundtrip (b0 b1 : Byte) (rest : List Byte) :
    ∃ w, data2uint16 (b0 :: b1 :: rest) = .ok w ∧ uint16ToData w = [b0, b1] := by
  refine ⟨_, rfl, ?_⟩
  simp only [uint16ToData]
  congr 1
  · bits8
  · congr 1; bits8

/-- **C12** 32-bit words survive the conversion to bytes and back. -/
theorem C12_uint32_roundtrip (w : BitVec 32) (rest : List Byte) :
    (uint32ToData w).length = 4 ∧ data2uint32 (uint32ToData w ++ rest) = .ok w := by
  refine ⟨rfl, ?_⟩
  simp only [uint32ToData, List.cons_append, List.nil_append, data2uint32, byteAt_zero,
    byteAt_succ, ok_bind, pure_eq_ok]
  congr 1
  bits32

/-- **C12** Four bytes survive the conversion to a word and back. -/
theorem C12_data32_roundtrip (b0 b1 b2 b3 : Byte) (rest : List Byte) :
    ∃ w, data2uint32 (b0 :: b1 :: b2 :: b3 :: rest) = .ok w ∧ uint32ToData w = [b0, b1, b2, b3] := by
  refine ⟨_, rfl, ?_⟩
  simp only [uint32ToData]
  congr 1
  · bits8
  congr 1
  · bits8
  congr 1
  · bits8
  congr 1
  · bits8

example : uint32ToData 0x12345678 = [0x12, 0x34, 0x56, 0x78] := by decide

/-- **C13** Speed scaling: 0 stays 0, the maximum step becomes 255, step 1 is the same on all scales,
the result of a legal step is in 0..255 and the map is strictly increasing on all legal steps. -/
theorem C13_scale_speed (sc : Scale) :
    scaleSpeed sc 0 = 0 ∧ scaleSpeed sc sc.steps = 255 ∧ scaleSpeed sc 1 = scaleSpeed .s126 1 ∧
    (∀ n : Nat, n ≤ sc.steps → 0 ≤ scaleSpeed sc n ∧ scaleSpeed sc n ≤ 255) ∧
    (∀ m n : Nat, m < n → n ≤ sc.steps → scaleSpeed sc m < scaleSpeed sc n) := by
  have hr : ∀ sc : Scale, ∀ n : Fin (sc.steps + 1),
      0 ≤ scaleSpeed sc n.val ∧ scaleSpeed sc n.val ≤ 255 := by
    intro sc; cases sc <;> decide +kernel
  have hs : ∀ sc : Scale, ∀ n : Fin sc.steps,
      scaleSpeed sc n.val < scaleSpeed sc (n.val + 1 : Nat) := by
    intro sc; cases sc <;> decide +kernel
  refine ⟨by cases sc <;> decide, by cases sc <;> decide, by cases sc <;> decide,
    fun n hn => hr sc ⟨n, by omega⟩, ?_⟩
  intro m n hmn hn
  induction n with
  | zero => omega
  | succ n ih =>
    have h1 := hs sc ⟨n, by omega⟩
    by_cases h : m = n
    · subst h; exact h1
    · exact Int.lt_trans (ih (by omega) (by omega)) h1

example : scaleSpeed .s28 2 = 11 ∧ scaleSpeed .s14 3 = 40 ∧ scaleSpeed .s126 3 = 6 := by decide

/-- **C14** `decode_instruction` of a built packet is the class of its builder, for every short, long
or broadcast address a packet can carry and all arguments in their documented range. -/
theorem C14_instruction_of_built_packet (a : Address) (ha : Spec.Encodable a)
    (ht : a.type = .broadcast ∨ a.type = .short ∨ a.type = .long) (c : Spec.AddressedCall)
    (hc : c.InRange) :
    ∃ p, c.run a = .ok p ∧ decodeInstructionPacket p = .ok c.class := by
  obtain ⟨b, rest, hp, hcl⟩ := payload_class c hc
  have hlen := payload_length c
  have hsmall : c.payloadLength ≤ 6 := by
    cases c <;> simp [Spec.AddressedCall.payloadLength]
    simp only [Spec.AddressedCall.InRange] at hc; omega
  rw [run_eq, addressed]
  obtain ⟨v, t, r⟩ := a
  rcases ht with rfl | rfl | rfl
  · refine ⟨_, finish_ok _ ?_, ?_⟩
    · simp only [List.length_append, hlen, maxPacketSize, List.length_cons, List.length_nil]; omega
    · rw [hp]
      simp only [decodeInstructionPacket, List.cons_append, List.nil_append, byteAt_zero, ok_bind,
        pure_eq_ok]
      exact congrArg Except.ok hcl
  · simp only [Spec.Encodable] at ha
    have h1 : v.toNat ≤ 127 := by
      rcases ha with ⟨h, _⟩ | ⟨_, _, h⟩ | ⟨h, _⟩ | ⟨h, _⟩ | ⟨h, _⟩ | ⟨h, _⟩ <;>
        first | exact h | exact absurd h (by decide)
    refine ⟨_, finish_ok _ ?_, ?_⟩
    · simp only [List.length_append, hlen, maxPacketSize, List.length_cons, List.length_nil]; omega
    · rw [hp]
      have : ¬ (128#8 ≤ v.setWidth 8) := by
        rw [BitVec.le_def]; simp [BitVec.toNat_setWidth]; omega
      simp only [decodeInstructionPacket, List.cons_append, List.nil_append, byteAt_zero, ok_bind,
        pure_eq_ok, this, false_and, if_false, byteAt_succ]
      exact congrArg Except.ok hcl
  · simp only [Spec.Encodable] at ha
    have h1 : v.toNat < 10240 := by
      rcases ha with ⟨h, _⟩ | ⟨h, _, _⟩ | ⟨_, h⟩ | ⟨h, _⟩ | ⟨h, _⟩ | ⟨h, _⟩ <;>
        first | exact h | exact absurd h (by decide)
    refine ⟨_, finish_ok _ ?_, ?_⟩
    · simp only [List.length_append, hlen, maxPacketSize, List.length_cons, List.length_nil]; omega
    · rw [hp]
      have key : ∀ h : Byte, h.toNat < 40 → 128#8 ≤ 0xC0#8 ||| h ∧ 0xC0#8 ||| h ≤ 252#8 := by
        decide +kernel
      have := key ((v >>> 8).setWidth 8) (by rw [high8_toNat]; omega)
      simp only [decodeInstructionPacket, List.cons_append, List.nil_append, byteAt_zero, ok_bind,
        pure_eq_ok, this, and_self, if_true, byteAt_succ]
      exact congrArg Except.ok hcl

/-- **C14** The class `Logon` (and `UnknownService`) is never returned: the sixteen high nibbles are
all taken before. -/
theorem C14_never_logon : ∀ b : Byte, decodeInstructionByte b ≠ .logon ∧
    decodeInstructionByte b ≠ .unknownService := by decide +kernel

example : Spec.Encodable { value := 1000, type := .long } ∧
    (Spec.AddressedCall.speedAndDirection 0x3F).InRange := by
  simp [Spec.Encodable, Spec.AddressedCall.InRange]

end Dcc
