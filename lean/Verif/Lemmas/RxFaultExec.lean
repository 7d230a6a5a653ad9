import Verif.Spec.Fault
import Verif.Lemmas.RxFault
import Verif.Lemmas.RxTos
/-! The faults of `init` and of executing a packet. -/
namespace Dcc
open Spec

private theorem odd_byte : ∀ b : Byte, decodeAddress [b] = .error .oob →
    192 ≤ b.toNat ∧ b.toNat ≤ 231 := by decide +kernel

theorem init_fault {e : Env} {s : Rx} {f : Fault} (h : s.init e = .error f) : f = .oob ∧ OddCv1 e := by
  obtain ⟨cv29, prim, v, evs, -, h2, -, -, h5⟩ := init_eq e s
  rw [h5, bind_eq_error] at h
  rcases h with h | ⟨a, -, h⟩
  · obtain ⟨hl, rfl⟩ := decodeAddress_error h
    refine ⟨rfl, ?_⟩
    unfold PrimaryBytes at h2
    split at h2
    · obtain ⟨a, b, rfl, -⟩ := h2
      simp at hl
    · obtain ⟨a, rfl, evs, -, rfl⟩ := h2
      exact ⟨_, odd_byte _ h⟩
  · cases h

/-- The fault is the one `init` can have. -/
def InitFault (e : Env) (f : Fault) : Prop := f = .oob ∧ OddCv1 e

theorem verifyByte_fault {e : Env} {s : Rx} {cv : BitVec 32} {b : Byte} {f : Fault}
    (h : s.cvVerifyByte e cv b = .error f) : False := by
  unfold Rx.cvVerifyByte at h
  split at h
  · cases h
  split at h
  · cases h
  · dsimp only at h
    rw [callbackByte_eq] at h
    cases h

theorem verifyBit_fault {e : Env} {s : Rx} {cv : BitVec 32} {b : Bool} {pos : BitVec 32} {f : Fault}
    (h : s.cvVerifyBit e cv b pos = .error f) : False := by
  unfold Rx.cvVerifyBit at h
  split at h
  · cases h
  split at h
  · cases h
  · dsimp only at h
    rw [callbackBit_eq] at h
    cases h

theorem initIfNeeded_fault {e : Env} {s : Rx} {cv : BitVec 32} {f : Fault}
    (h : s.initIfNeeded e cv = .error f) : InitFault e f := by
  unfold Rx.initIfNeeded at h
  split at h
  · exact init_fault h
  · cases h

theorem writeByte_fault {e : Env} {s : Rx} {cv : BitVec 32} {b : Byte} {f : Fault}
    (h : s.cvWriteByte e cv b = .error f) : InitFault e f := by
  unfold Rx.cvWriteByte at h
  split at h
  · cases h
  rw [bind_eq_error] at h
  rcases h with h | ⟨s1, -, h⟩
  · unfold Rx.cvWriteImplByte at h
    split at h
    · cases h
    · dsimp only at h
      rw [callbackByte_eq] at h
      cases h
  · exact initIfNeeded_fault h

theorem writeBit_fault {e : Env} {s : Rx} {cv : BitVec 32} {b : Bool} {pos : BitVec 32} {f : Fault}
    (h : s.cvWriteBit e cv b pos = .error f) : InitFault e f := by
  unfold Rx.cvWriteBit at h
  split at h
  · cases h
  rw [bind_eq_error] at h
  rcases h with h | ⟨s1, -, h⟩
  · unfold Rx.cvWriteImplBit at h
    split at h
    · cases h
    · dsimp only at h
      rw [callbackBit_eq] at h
      cases h
  · exact initIfNeeded_fault h

/-- A fault of `init` or of reading at least `n` bytes. -/
def ShortFault (e : Env) (bs : List Byte) (n : Nat) (f : Fault) : Prop :=
  f = .oob ∧ (OddCv1 e ∨ bs.length < n)

theorem ShortFault.init {e : Env} {bs : List Byte} {n : Nat} {f : Fault} (h : InitFault e f) :
    ShortFault e bs n f := ⟨h.1, .inl h.2⟩

theorem ShortFault.byte {e : Env} {bs : List Byte} {n i : Nat} {f : Fault}
    (h : byteAt bs i = .error f) (hn : i < n) : ShortFault e bs n f :=
  ⟨(byteAt_error h).2, .inr (Nat.lt_of_le_of_lt (byteAt_error h).1 hn)⟩

theorem longBody_fault {e : Env} {s : Rx} {bs : List Byte} {f : Fault}
    (h : s.cvLongBody e bs = .error f) : ShortFault e bs 3 f := by
  unfold Rx.cvLongBody at h
  rw [bind_eq_error] at h
  rcases h with h | ⟨b0, -, h⟩
  · exact .byte h (by omega)
  rw [bind_eq_error] at h
  rcases h with h | ⟨b1, -, h⟩
  · exact .byte h (by omega)
  dsimp only at h
  split at h
  · cases h
  split at h
  · rw [bind_eq_error] at h
    rcases h with h | ⟨b2, -, h⟩
    · exact .byte h (by omega)
    · exact (verifyByte_fault h).elim
  split at h
  · split at h
    · cases h
    split at h
    · rw [bind_eq_error] at h
      rcases h with h | ⟨b2, -, h⟩
      · exact .byte h (by omega)
      · exact .init (writeByte_fault h)
    · rw [bind_eq_error] at h
      rcases h with h | ⟨b2, -, h⟩
      · exact .byte h (by omega)
      · exact (verifyByte_fault h).elim
  · rw [bind_eq_error] at h
    rcases h with h | ⟨b2, -, h⟩
    · exact .byte h (by omega)
    split at h
    · exact (verifyBit_fault h).elim
    split at h
    · exact .init (writeBit_fault h)
    · cases h

theorem cvLong_fault {e : Env} {s : Rx} {a : BitVec 16} {p : Packet} {bs : List Byte} {f : Fault}
    (h : s.cvLong e a p bs = .error f) : ShortFault e bs 3 f := by
  unfold Rx.cvLong at h
  split at h
  · cases h
  dsimp only at h
  split at h
  · cases h
  · exact longBody_fault h

private theorem short_nibble : ∀ b : Byte, b &&& 0xF0#8 = 0xF0#8 →
    (b &&& 0x0F#8 = 2#8 → instrLength b = 2) ∧ (b &&& 0x0F#8 = 3#8 → instrLength b = 2) ∧
    (b &&& 0x0F#8 = 4#8 → instrLength b = 3) ∧ (b &&& 0x0F#8 = 5#8 → instrLength b = 3) := by
  decide +kernel

theorem cvShort_fault {e : Env} {s : Rx} {a : BitVec 16} {p : Packet} {b : Byte} {rest : List Byte}
    {f : Fault} (hb : b &&& 0xF0#8 = 0xF0#8) (h : s.cvShort e a p (b :: rest) = .error f) :
    ShortFault e (b :: rest) (instrLength b) f := by
  obtain ⟨k2, k3, k4, k5⟩ := short_nibble b hb
  unfold Rx.cvShort at h
  split at h
  · cases h
  unfold Rx.cvShortBody at h
  rw [byteAt_zero, ok_bind] at h
  dsimp only at h
  by_cases h2 : b &&& 0x0F#8 = 2#8
  · rw [if_pos h2, bind_eq_error] at h
    rw [k2 h2]
    rcases h with h | ⟨b1, -, h⟩
    · exact .byte h (by omega)
    · exact .init (writeByte_fault h)
  rw [if_neg h2] at h
  by_cases h2 : b &&& 0x0F#8 = 3#8
  · rw [if_pos h2, bind_eq_error] at h
    rw [k3 h2]
    rcases h with h | ⟨b1, -, h⟩
    · exact .byte h (by omega)
    · exact .init (writeByte_fault h)
  rw [if_neg h2] at h
  by_cases h2 : b &&& 0x0F#8 = 4#8
  · rw [if_pos h2] at h
    rw [k4 h2]
    split at h
    · cases h
    rw [bind_eq_error] at h
    rcases h with h | ⟨b1, -, h⟩
    · exact .byte h (by omega)
    rw [bind_eq_error] at h
    rcases h with h | ⟨s1, -, h⟩
    · exact .init (writeByte_fault h)
    rw [bind_eq_error] at h
    rcases h with h | ⟨b2, -, h⟩
    · exact .byte h (by omega)
    rw [bind_eq_error] at h
    rcases h with h | ⟨s1, -, h⟩
    · exact .init (writeByte_fault h)
    · exact .init (writeBit_fault h)
  rw [if_neg h2] at h
  by_cases h2 : b &&& 0x0F#8 = 5#8
  · rw [if_pos h2] at h
    rw [k5 h2]
    split at h
    · cases h
    rw [bind_eq_error] at h
    rcases h with h | ⟨b1, -, h⟩
    · exact .byte h (by omega)
    rw [bind_eq_error] at h
    rcases h with h | ⟨s1, -, h⟩
    · exact .init (writeByte_fault h)
    rw [bind_eq_error] at h
    rcases h with h | ⟨b2, -, h⟩
    · exact .byte h (by omega)
    · exact .init (writeByte_fault h)
  rw [if_neg h2] at h
  cases h

theorem registerMode_fault {e : Env} {s : Rx} {bs : List Byte} {f : Fault} (hl : 2 ≤ bs.length)
    (h : s.registerMode e bs = .error f) : InitFault e f := by
  unfold Rx.registerMode at h
  rw [bind_eq_error] at h
  rcases h with h | ⟨b0, -, h⟩
  · have := (byteAt_error h).1; omega
  dsimp only at h
  rw [bind_eq_error] at h
  rcases h with h | ⟨b1, -, h⟩
  · have := (byteAt_error h).1; omega
  have key : ∀ (w : Bool) (i : BitVec 32),
      (if w = true then s.cvWriteByte e i b1 else s.cvVerifyByte e i b1) = .error f → InitFault e f := by
    intro w i h
    split at h
    · exact writeByte_fault h
    · exact (verifyByte_fault h).elim
  split at h
  · exact key _ _ h
  split at h
  · exact key _ _ h
  split at h
  · repeat' split at h
    all_goals cases h
  · exact key _ _ h

theorem optFunctions_fault {s : Rx} {a : BitVec 16} {bs : List Byte} {i : Nat} {m : BitVec 32} {sh : Nat}
    {f : Fault} (h : s.optFunctions a bs i m sh = .error f) : False := by
  unfold Rx.optFunctions at h
  split at h
  · split at h
    · cases h
    · rename_i hb
      have := (byteAt_error hb).1
      omega
  · cases h

theorem speedDirFunctions_fault {s : Rx} {a : BitVec 16} {bs : List Byte} {f : Fault}
    (h : s.speedDirFunctions a bs = .error f) : False := by
  unfold Rx.speedDirFunctions at h
  rw [bind_eq_error] at h
  rcases h with h | ⟨_, -, h⟩
  · exact optFunctions_fault h
  rw [bind_eq_error] at h
  rcases h with h | ⟨_, -, h⟩
  · exact optFunctions_fault h
  rw [bind_eq_error] at h
  rcases h with h | ⟨_, -, h⟩
  · exact optFunctions_fault h
  · exact optFunctions_fault h

/-- A fault of reading at least `n` bytes. -/
def ReadFault (bs : List Byte) (n : Nat) (f : Fault) : Prop := f = .oob ∧ bs.length < n

theorem ReadFault.byte {bs : List Byte} {n i : Nat} {f : Fault}
    (h : byteAt bs i = .error f) (hn : i < n) : ReadFault bs n f :=
  ⟨(byteAt_error h).2, Nat.lt_of_le_of_lt (byteAt_error h).1 hn⟩

theorem advanced_fault {e : Env} {s : Rx} {a : BitVec 16} {b : Byte} {rest : List Byte} {f : Fault}
    (h : s.advancedOperations e a (b :: rest) = .error f) :
    ReadFault (b :: rest) (instrLength b) f := by
  unfold Rx.advancedOperations at h
  rw [byteAt_zero, ok_bind] at h
  split at h
  · rename_i hb
    subst hb
    rw [bind_eq_error] at h
    rcases h with h | ⟨_, -, h⟩
    · exact (speedDirFunctions_fault h).elim
    rw [bind_eq_error] at h
    rcases h with h | ⟨_, -, h⟩
    · exact .byte h (by decide)
    · cases h
  split at h
  · rename_i hb
    subst hb
    rw [bind_eq_error] at h
    rcases h with h | ⟨_, -, h⟩
    · exact .byte h (by decide)
    · cases h
  split at h
  · rename_i hb
    subst hb
    rw [bind_eq_error] at h
    rcases h with h | ⟨_, -, h⟩
    · exact .byte h (by decide)
    · cases h
  · cases h

theorem speedAndDirection_fault {s : Rx} {a : BitVec 16} {b : Byte} {rest : List Byte} {f : Fault}
    (h : s.speedAndDirection a (b :: rest) = .error f) : False := by
  unfold Rx.speedAndDirection at h
  rw [byteAt_zero, ok_bind] at h
  dsimp only at h
  split at h
  · cases h
  split at h <;> cases h

theorem functionGroup_fault {s : Rx} {a : BitVec 16} {b : Byte} {rest : List Byte} {f : Fault}
    (h : s.functionGroup a (b :: rest) = .error f) : False := by
  unfold Rx.functionGroup at h
  rw [byteAt_zero, ok_bind] at h
  dsimp only at h
  repeat' split at h
  all_goals cases h

private theorem seconds_ok (d : Int) (h1 : -1000000000 < d) (h2 : seconds d < 30) :
    (BitVec.ofInt 32 (seconds d)).toNat < 256 := by
  have h0 : 0 ≤ seconds d := by
    unfold seconds
    by_cases hd : 0 ≤ d
    · exact Int.tdiv_nonneg hd (by decide)
    · have : Int.tdiv d 1000000000 = 0 := by
        rw [← Int.neg_neg d, Int.neg_tdiv, Int.tdiv_eq_zero_of_lt (by omega) (by omega)]
        rfl
      omega
  generalize seconds d = k at *
  rw [BitVec.toNat_ofInt]
  have : (k % (2 ^ 32 : Nat) : Int) = k := Int.emod_eq_of_lt h0 (by simp; omega)
  rw [this]
  omega

theorem tipOffSearch_fault {s : Rx} {rand : Nat} {f : Fault} (h : s.tipOffSearch rand = .error f) :
    f = .assertion ∧ s.lastPacketTp + 1000000000 ≤ s.tosTp := by
  unfold Rx.tipOffSearch at h
  dsimp only at h
  split at h
  · cases h
  rename_i hq
  simp only [Bool.or_eq_true, not_or, Bool.not_eq_true, Bool.not_eq_false', List.isEmpty_iff] at hq
  split at h
  · cases h
  rename_i h30
  by_cases hc : s.lastPacketTp + 1000000000 ≤ s.tosTp
  · refine ⟨?_, hc⟩
    rw [adrHigh_eq, ok_bind, adrLow_eq, ok_bind, bind_eq_error] at h
    rcases h with h | ⟨t, -, h⟩
    · unfold encodeId makeDatagramId at h
      split at h
      · rename_i hd
        have := encodeId_ok .b12 14 _ (by decide) (show _ < 2 ^ 8 from hd)
        unfold encodeId makeDatagramId at this
        rw [if_pos hd] at this
        dsimp only at this h
        rw [this] at h
        cases h
      · cases h; rfl
    · rw [bind_eq_error] at h
      rcases h with h | ⟨q, -, h⟩
      · have := (pushBack_error h).1
        rw [hq.2] at this
        simp at this
      · cases h
  · exfalso
    rw [adrHigh_eq, ok_bind, adrLow_eq, ok_bind,
      b12_ok 14 _ (by decide) (seconds_ok _ (by omega) (by omega)), ok_bind, bind_eq_error] at h
    rcases h with h | ⟨q, -, h⟩
    · have := (pushBack_error h).1
      rw [hq.2] at this
      simp at this
    · cases h

theorem feature_fault {s : Rx} {a : BitVec 16} {b : Byte} {rest : List Byte} {rand : Nat} {f : Fault}
    (h : s.featureExpansion a (b :: rest) rand = .error f) :
    ReadFault (b :: rest) (instrLength b) f ∨
      (f = .assertion ∧ s.lastPacketTp + 1000000000 ≤ s.tosTp ∧ searchInstruction (b :: rest) = true) := by
  have state : ∀ (x : BitVec 32) (st : Bool), s.binaryState x st rand = .error f →
      (x = 2#32 ∧ st = false) ∧ f = .assertion ∧ s.lastPacketTp + 1000000000 ≤ s.tosTp := by
    intro x st h
    unfold Rx.binaryState at h
    split at h
    · rename_i hx
      exact ⟨⟨hx.1, by simpa using hx.2⟩, tipOffSearch_fault h⟩
    · cases h
  unfold Rx.featureExpansion at h
  rw [byteAt_zero, ok_bind] at h
  split at h
  · rename_i hb
    subst hb
    rw [bind_eq_error] at h
    rcases h with h | ⟨b2, h2, h⟩
    · exact .inl (.byte h (by decide))
    rw [bind_eq_error] at h
    rcases h with h | ⟨b1, h1, h⟩
    · exact .inl (.byte h (by decide))
    obtain ⟨⟨x1, x2⟩, x3, x4⟩ := state _ _ h
    refine .inr ⟨x3, x4, ?_⟩
    obtain ⟨y1, y2⟩ := xf_long b1 b2 x1 x2
    obtain _ | ⟨c1, _ | ⟨c2, rest⟩⟩ := rest
    · cases h1
    · cases h2
    · cases h1; cases h2
      simp [searchInstruction, y1, y2]
  split at h
  · rename_i hb
    subst hb
    rw [bind_eq_error] at h
    rcases h with h | ⟨b1, h1, h⟩
    · exact .inl (.byte h (by decide))
    obtain ⟨⟨x1, x2⟩, x3, x4⟩ := state _ _ h
    refine .inr ⟨x3, x4, ?_⟩
    have y1 := xf_short b1 x1 x2
    obtain _ | ⟨c1, rest⟩ := rest
    · cases h1
    · cases h1
      simp [searchInstruction, y1]
  split at h
  · rename_i hb
    subst hb
    rw [bind_eq_error] at h
    rcases h with h | ⟨b1, h1, h⟩
    · exact .inl (.byte h (by decide))
    · cases h
  split at h
  · rename_i hb
    subst hb
    rw [bind_eq_error] at h
    rcases h with h | ⟨b1, h1, h⟩
    · exact .inl (.byte h (by decide))
    · cases h
  · cases h

private theorem nibbles : ∀ b : Byte,
    (decodeInstructionByte b = .consistControl → instrLength b = 2) ∧
    (decodeInstructionByte b = .cvLong → instrLength b = 3) ∧
    (decodeInstructionByte b = .cvShort → b &&& 0xF0#8 = 0xF0#8) ∧
    (decodeInstructionByte b = .consistControl → b.toNat / 16 = 1) ∧
    (decodeInstructionByte b = .cvLong → b.toNat / 16 = 14) ∧
    (decodeInstructionByte b = .cvShort → b.toNat / 16 = 15) := by decide +kernel

private theorem split_fault {e : Env} {bs : List Byte} {n : Nat} {f : Fault} {P : Prop} (hP : P)
    (h : ShortFault e bs n f) : ReadFault bs n f ∨ (InitFault e f ∧ P) :=
  h.2.elim (fun h1 => .inr ⟨⟨h.1, h1⟩, hP⟩) fun h1 => .inl ⟨h.1, h1⟩

/-- The faults of executing an instruction. -/
theorem instruction_fault {e : Env} {s : Rx} {a : BitVec 16} {p : Packet} {b : Byte} {rest : List Byte}
    {rand : Nat} {f : Fault} (h : s.executeInstruction e a p (b :: rest) rand = .error f) :
    (ReadFault (b :: rest) (instrLength b) f ∨
      (InitFault e f ∧ (b.toNat / 16 = 1 ∨ b.toNat / 16 = 14 ∨ b.toNat / 16 = 15))) ∨
      (f = .assertion ∧ s.lastPacketTp + 1000000000 ≤ s.tosTp ∧ searchInstruction (b :: rest) = true) := by
  obtain ⟨n1, n2, n3, n4, n5, n6⟩ := nibbles b
  unfold Rx.executeInstruction decodeInstruction at h
  rw [byteAt_zero, ok_bind, pure_eq_ok, ok_bind] at h
  cases hi : decodeInstructionByte b <;> rw [hi] at h <;> dsimp only at h
  · cases h
  · split at h
    · rw [ok_bind] at h
      split at h <;> cases h
    · cases h
  · left
    unfold Rx.consistControl at h
    rw [byteAt_zero, ok_bind, bind_eq_error] at h
    rcases h with h | ⟨b1, h1, h⟩
    · rw [n1 hi]
      exact .inl (.byte h (by decide))
    · exact .inr ⟨writeByte_fault h, .inl (n4 hi)⟩
  · exact .inl (.inl (advanced_fault h))
  · exact (speedAndDirection_fault h).elim
  · exact (functionGroup_fault h).elim
  · exact (feature_fault h).imp .inl id
  · rw [n2 hi]; exact .inl (split_fault (.inr (.inl (n5 hi))) (cvLong_fault h))
  · exact .inl (split_fault (.inr (.inr (n6 hi))) (cvShort_fault (n3 hi) h))
  · cases h

theorem service_fault {e : Env} {s : Rx} {p : Packet} {f : Fault} (hl : 3 ≤ p.length)
    (h : s.executeService e p = .error f) : InitFault e f := by
  unfold Rx.executeService at h
  rw [bind_eq_error] at h
  rcases h with h | ⟨b0, -, h⟩
  · have := (byteAt_error h).1; omega
  split at h
  · cases h
  split at h
  · cases h
  split at h
  · rw [bind_eq_error] at h
    rcases h with h | ⟨_, -, h⟩
    · exact registerMode_fault (by omega) h
    · cases h
  split at h
  · rename_i h4
    rw [bind_eq_error] at h
    rcases h with h | ⟨_, -, h⟩
    · obtain ⟨h1, h2 | h2⟩ := cvLong_fault h
      · exact ⟨h1, h2⟩
      · omega
    · cases h
  · cases h

private theorem after_cons (p : Packet) (h : 3 ≤ p.length) : ∃ b rest, afterAddress p = b :: rest := by
  match p, h with
  | x :: y :: z :: r, _ =>
    by_cases hx : x.toNat ≤ 127
    · exact ⟨y, z :: r, if_pos hx⟩
    · exact ⟨z, r, if_neg hx⟩

/-- The faults of `execute`. -/
theorem execute_faults (e : Env) (s : Rx) (hi : RecvInv e s) (now : Int) (rand : Nat) (f : Fault)
    (h : s.step e (.execute now rand) = .error f) : FaultCause e s (.execute now rand) f := by
  simp only [Rx.step, bind_eq_error] at h
  rcases h with h | ⟨_, -, h⟩
  rotate_left
  · cases h
  by_cases hp : s.packetEnd = true
  · rw [execute_eq, if_pos (by simp [hp])] at h; cases h
  rw [Bool.not_eq_true] at hp
  cases hd : s.deque with
  | nil => rw [execute_eq, if_pos (by simp [hd])] at h; cases h
  | cons p rest =>
    have hl : 3 ≤ p.length := (hi.valid p (by simp [hd])).1.1
    have hfront : front s = some p := by simp [front, hp, hd]
    cases hm : s.serviceMode with
    | true =>
      rw [execute_front e s now rand p rest hp hd, hm, if_pos rfl, bind_eq_error] at h
      rcases h with h | ⟨_, -, h⟩
      · obtain ⟨rfl, h1⟩ := service_fault hl h
        exact .initAfterWrite now rand p hfront (by simp [writesCvs, hm]) h1
      · cases h
    | false =>
      by_cases hf : ForDecoder s p
      · obtain ⟨n, hn, hn2⟩ := hf
        rw [execute_for e s now rand n p rest hp hd hm hn hn2, bind_eq_error] at h
        rcases h with h | ⟨_, -, h⟩
        · obtain ⟨b, r, hb⟩ := after_cons p hl
          rw [hb] at h
          rcases instruction_fault h with (⟨rfl, h1⟩ | ⟨⟨rfl, h1⟩, h2⟩) | ⟨rfl, h1, h2⟩
          rotate_left
          · refine .initAfterWrite now rand p hfront ?_ h1
            simpa [writesCvs, hm, hb, or_assoc] using h2
          rotate_left
          · refine .shortPacket now rand p hfront hm ⟨n, hn, hn2⟩ ?_
            rintro ⟨b', r', h3, h4⟩
            rw [hb] at h3
            cases h3
            omega
          · obtain ⟨t1, t2⟩ := prepared_times e s now
            rw [t1, t2] at h1
            refine .clock now rand p hfront ?_ ?_
            · simp [searchPacket, hm, hb, h2, show ForDecoder s p from ⟨n, hn, hn2⟩]
            · split at h1 <;> omega
        · cases h
      · rw [execute_foreign e s now rand p rest hp hd hm (by omega) hf] at h
        cases h

end Dcc
