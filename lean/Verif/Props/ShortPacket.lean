import Verif.Props.RxFaults
/-! Exactly the packets that are too short make `execute` read out of bounds: C29. -/
namespace Dcc
open Spec

variable {e : Env} {s : Rx} {p : Packet} {now : Int} {rand : Nat}

/-- The packet is none for CV access. -/
def Spec.NoCvAccess (p : Packet) : Prop :=
  ∀ b ∈ (afterAddress p).head?, b.toNat / 16 ≠ 14 ∧ b.toNat / 16 ≠ 15

private theorem kinds : ∀ b : Byte, b.toNat / 16 ≠ 14 → b.toNat / 16 ≠ 15 → 1 < instrLength b →
    (decodeInstructionByte b = .consistControl ∧ instrLength b = 2) ∨
    (decodeInstructionByte b = .advancedOperations ∧ instrLength b = 2 ∧ (b = 0x3C#8 ∨ b = 0x3E#8 ∨ b = 0x3F#8)) ∨
    (decodeInstructionByte b = .featureExpansion ∧
      (b = 0xC0#8 ∨ (instrLength b = 2 ∧ (b = 0xDD#8 ∨ b = 0xDE#8 ∨ b = 0xDF#8)))) := by decide +kernel

theorem instruction_too_short {a : BitVec 16} {b : Byte} {rest : List Byte} (h14 : b.toNat / 16 ≠ 14)
    (h15 : b.toNat / 16 ≠ 15) (h : (b :: rest).length < instrLength b) :
    s.executeInstruction e a p (b :: rest) rand = .error .oob := by
  simp only [List.length_cons] at h
  unfold Rx.executeInstruction decodeInstruction
  rw [byteAt_zero, ok_bind, pure_eq_ok, ok_bind]
  rcases kinds b h14 h15 (by omega) with ⟨h1, h2⟩ | ⟨h1, h2, h3⟩ | ⟨h1, h2⟩ <;> rw [h1] <;> dsimp only
  · have : rest = [] := List.eq_nil_of_length_eq_zero (by omega)
    subst this
    rfl
  · have : rest = [] := List.eq_nil_of_length_eq_zero (by omega)
    subst this
    rcases h3 with rfl | rfl | rfl <;> rfl
  · rcases h2 with rfl | ⟨h2, h3⟩
    · have h3 : instrLength 0xC0#8 = 3 := by decide
      obtain _ | ⟨x, _ | ⟨y, r⟩⟩ := rest
      · rfl
      · rfl
      · simp only [List.length_cons] at h
        omega
    · have : rest = [] := List.eq_nil_of_length_eq_zero (by omega)
      subst this
      rcases h3 with rfl | rfl | rfl <;> rfl

/-- **C29** Every packet for the decoder that is too short for its instruction, unless this is a CV access, makes
`execute` read out of bounds in operations mode. -/
theorem C29_short (hr : Reachable e s) (hp : front s = some p) (hm : s.serviceMode = false) (hd : ForDecoder s p)
    (hcv : NoCvAccess p) (hl : ¬ LongEnough p) : s.step e (.execute now rand) = .error .oob := by
  have hpe : s.packetEnd = false := by
    unfold front at hp
    split at hp
    · cases hp
    next h => simpa using h
  obtain ⟨rest, hq⟩ : ∃ rest, s.deque = p :: rest := by
    unfold front at hp
    split at hp
    · cases hp
    · cases hq : s.deque with
      | nil => rw [hq] at hp; cases hp
      | cons q r => rw [hq] at hp; cases hp; exact ⟨r, rfl⟩
  obtain ⟨n, hn, hn2⟩ := hd
  have h3 : 3 ≤ p.length := (hr.recvInv.valid p (by simp [hq])).1.1
  obtain ⟨b, r, hb⟩ : ∃ b r, afterAddress p = b :: r := by
    match p, h3 with
    | x :: y :: z :: r, _ =>
      by_cases hx : x.toNat ≤ 127
      · exact ⟨y, z :: r, if_pos hx⟩
      · exact ⟨z, r, if_neg hx⟩
  have hc := hcv b (by rw [hb]; rfl)
  rw [Rx.step, execute_for e s now rand n p rest hpe hq hm hn hn2, hb,
    instruction_too_short hc.1 hc.2 (by
      refine Nat.lt_of_not_le fun h => hl ⟨b, r, hb, h⟩)]
  rfl

/-- **C29** So `execute` returns normally exactly for the packets that are long enough, if they are for the decoder and
no CV access, CV1 does not hold the first byte of a long address and the clock has not gone back by a second. -/
theorem C29_short_exact (hr : Reachable e s) (hp : front s = some p) (hm : s.serviceMode = false)
    (hd : ForDecoder s p) (hcv : NoCvAccess p) (hodd : ¬ OddCv1 e) (hclock : s.tosTp < now + 1000000000) :
    (∃ s', s.step e (.execute now rand) = .ok s') ↔ LongEnough p := by
  refine ⟨fun ⟨s', h⟩ => ?_, fun h => ?_⟩
  · by_cases hl : LongEnough p
    · exact hl
    · rw [C29_short hr hp hm hd hcv hl] at h
      cases h
  · refine C29_execute_total_partial e s hr now rand (fun h => absurd h hodd) (fun q hq => ?_) hclock
    rw [hp] at hq
    cases hq
    exact h

example : NoCvAccess shortState ∧ ¬ LongEnough shortState ∧ NoCvAccess [3#8, 0x3F#8, 0x80#8, 0xBC#8] := by
  refine ⟨?_, by decide +kernel, ?_⟩ <;> rintro b ⟨⟩ <;> decide

example : holdsAfter (({} : Rx).run shortAddressEnv (.init :: hears shortState)) (fun s =>
    decide (front s = some shortState ∧ s.serviceMode = false ∧ ForDecoder s shortState ∧ s.tosTp < 0 + 1000000000)) =
    true := by decide +kernel

end Dcc
