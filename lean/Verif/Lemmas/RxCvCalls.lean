import Verif.Lemmas.RxMode
import Verif.Spec.Cv
/-! The calls made by CV access. -/
namespace Dcc
open Spec

theorem ofNat_toNat32 (x : BitVec 32) : BitVec.ofNat 32 x.toNat = x := by simp

/-- The trace grew by these calls and then by calls that read the configuration. -/
def Calls (s s' : Rx) (calls : List Event) : Prop :=
  ∃ quiet, s'.trace = s.trace ++ calls ++ quiet ∧ (∀ ev ∈ quiet, ev.isQuiet = true) ∧
    (calls = [] → quiet = [])

theorem Calls.of_eq {s s' : Rx} {calls : List Event} (h : s'.trace = s.trace ++ calls) :
    Calls s s' calls := ⟨[], by simp [h], by simp, fun _ => rfl⟩

theorem answerByte_trace (s : Rx) (b v : Byte) :
    (s.answerByte b v).trace = s.trace ++ ack s.serviceMode (v = b) := by
  unfold Rx.answerByte ack
  cases hs : s.serviceMode
  · simp
  · by_cases h : b = v
    · subst h; simp [Rx.emit]
    · have h' : ¬ v = b := fun hh => h hh.symm
      simp [h, h']

theorem answerBit_trace (s : Rx) (b v : Bool) :
    (s.answerBit b v).trace = s.trace ++ ack s.serviceMode (v = b) := by
  unfold Rx.answerBit ack
  cases hs : s.serviceMode
  · simp
  · by_cases h : b = v
    · subst h; simp [Rx.emit]
    · have h' : ¬ v = b := fun hh => h hh.symm
      simp [h, h']

theorem verifiedByte_trace (e : Env) (s : Rx) (cv : Nat) (b : Byte) :
    (s.verifiedByte e (BitVec.ofNat 32 cv) b).trace =
      s.trace ++ accessCalls e s.trace s.serviceMode .verify (.byte cv b) := by
  unfold Rx.verifiedByte accessCalls
  cases e.asyncReadable
  · simp only [Bool.false_eq_true, if_false]
    rw [answerByte_trace]
    simp only [Rx.emit, Rx.serviceMode, List.append_assoc, List.cons_append, List.nil_append]
    congr
  · simp [Rx.defer, Rx.emit]

theorem verifiedBit_trace (e : Env) (s : Rx) (cv : Nat) (b : Bool) (pos : Nat) :
    (s.verifiedBit e (BitVec.ofNat 32 cv) b (BitVec.ofNat 32 pos)).trace =
      s.trace ++ accessCalls e s.trace s.serviceMode .verify (.bit cv b pos) := by
  unfold Rx.verifiedBit accessCalls
  cases e.asyncReadable
  · simp only [Bool.false_eq_true, if_false]
    rw [answerBit_trace]
    simp only [Rx.emit, Rx.serviceMode, List.append_assoc, List.cons_append, List.nil_append]
    congr
  · simp [Rx.defer, Rx.emit]

theorem wroteByte_trace (e : Env) (s : Rx) (cv : Nat) (b : Byte) :
    (s.wroteByte e (BitVec.ofNat 32 cv) b).trace =
      s.trace ++ accessCalls e s.trace s.serviceMode .write (.byte cv b) := by
  unfold Rx.wroteByte accessCalls
  cases e.asyncWritable
  · simp only [Bool.false_eq_true, if_false]
    rw [answerByte_trace]
    simp only [Rx.emit, Rx.serviceMode, List.append_assoc, List.cons_append, List.nil_append]
    congr
  · simp [Rx.defer, Rx.emit]

theorem wroteBit_trace (e : Env) (s : Rx) (cv : Nat) (b : Bool) (pos : Nat) :
    (s.wroteBit e (BitVec.ofNat 32 cv) b (BitVec.ofNat 32 pos)).trace =
      s.trace ++ accessCalls e s.trace s.serviceMode .write (.bit cv b pos) := by
  unfold Rx.wroteBit accessCalls
  cases e.asyncWritable
  · simp only [Bool.false_eq_true, if_false]
    rw [answerBit_trace]
    simp only [Rx.emit, Rx.serviceMode, List.append_assoc, List.cons_append, List.nil_append]
    congr
  · simp [Rx.defer, Rx.emit]

theorem accessCalls_ne_nil (e : Env) (tr : List Event) (sv : Bool) (k : Kind) (a : Access) :
    accessCalls e tr sv k a ≠ [] := by
  cases k <;> cases a <;> simp only [accessCalls] <;> split <;> simp

theorem calls_initIfNeeded (e : Env) (s s' s1 : Rx) (cv : BitVec 32) (calls : List Event)
    (hne : calls ≠ []) (h : s1.trace = s.trace ++ calls) (h' : s1.initIfNeeded e cv = .ok s') : Calls s s' calls := by
  unfold Rx.initIfNeeded at h'
  split at h'
  · obtain ⟨_, _, _, _, evs, _, _, _, _, hq, rfl⟩ := init_ok e s1 s' h'
    exact ⟨evs, by simp [initResult, h], hq, fun h => absurd h hne⟩
  · cases h'
    exact .of_eq h

theorem ofNat14 (cv : Nat) (h : cv < 2 ^ 32) : BitVec.ofNat 32 cv = 14#32 ↔ cv = 14 := by
  constructor
  · intro h'
    have := congrArg BitVec.toNat h'
    simp at this; omega
  · rintro rfl; rfl

theorem calls_verifyByte (e : Env) (s : Rx) (cv : Nat) (b : Byte) :
    Post (s.cvVerifyByte e (BitVec.ofNat 32 cv) b) (fun s' => Calls s s'
      (actionCalls e s.trace s.serviceMode s.cfg.cvsLocked (some (.verify, .byte cv b)))) := by
  rw [cvVerifyByte_eq]
  refine Post.ok ?_
  unfold actionCalls permitted
  cases s.cfg.cvsLocked
  · exact .of_eq (verifiedByte_trace ..)
  · exact .of_eq (by simp)

theorem calls_verifyBit (e : Env) (s : Rx) (cv : Nat) (b : Bool) (pos : Nat) :
    Post (s.cvVerifyBit e (BitVec.ofNat 32 cv) b (BitVec.ofNat 32 pos)) (fun s' => Calls s s'
      (actionCalls e s.trace s.serviceMode s.cfg.cvsLocked (some (.verify, .bit cv b pos)))) := by
  rw [cvVerifyBit_eq]
  refine Post.ok ?_
  unfold actionCalls permitted
  cases s.cfg.cvsLocked
  · exact .of_eq (verifiedBit_trace ..)
  · exact .of_eq (by simp)

theorem calls_writeByte (e : Env) (s : Rx) (cv : Nat) (hcv : cv < 2 ^ 32) (b : Byte) :
    Post (s.cvWriteByte e (BitVec.ofNat 32 cv) b) (fun s' => Calls s s'
      (actionCalls e s.trace s.serviceMode s.cfg.cvsLocked (some (.write, .byte cv b)))) := by
  rw [cvWriteByte_eq]
  unfold actionCalls permitted
  have h14 := ofNat14 cv hcv
  cases s.cfg.cvsLocked
  · rw [if_neg (by simp)]
    refine ⟨fun s' h => ?_⟩
    have := calls_initIfNeeded e s s' _ _ _ (accessCalls_ne_nil _ _ _ _ _) (wroteByte_trace ..) h
    simpa using this
  · by_cases h : cv = 14
    · rw [if_neg (by simp [h])]
      refine ⟨fun s' h' => ?_⟩
      have := calls_initIfNeeded e s s' _ _ _ (accessCalls_ne_nil _ _ _ _ _) (wroteByte_trace ..) h'
      simpa [h, Access.cv] using this
    · rw [if_pos ⟨rfl, fun hh => h (h14.mp hh)⟩]
      exact Post.ok (.of_eq (by simp [h, Access.cv]))

theorem calls_writeBit (e : Env) (s : Rx) (cv : Nat) (hcv : cv < 2 ^ 32) (b : Bool) (pos : Nat) :
    Post (s.cvWriteBit e (BitVec.ofNat 32 cv) b (BitVec.ofNat 32 pos)) (fun s' => Calls s s'
      (actionCalls e s.trace s.serviceMode s.cfg.cvsLocked (some (.write, .bit cv b pos)))) := by
  rw [cvWriteBit_eq]
  unfold actionCalls permitted
  have h14 := ofNat14 cv hcv
  cases s.cfg.cvsLocked
  · rw [if_neg (by simp)]
    refine ⟨fun s' h => ?_⟩
    have := calls_initIfNeeded e s s' _ _ _ (accessCalls_ne_nil _ _ _ _ _) (wroteBit_trace ..) h
    simpa using this
  · by_cases h : cv = 14
    · rw [if_neg (by simp [h])]
      refine ⟨fun s' h' => ?_⟩
      have := calls_initIfNeeded e s s' _ _ _ (accessCalls_ne_nil _ _ _ _ _) (wroteBit_trace ..) h'
      simpa [h, Access.cv] using this
    · rw [if_pos ⟨rfl, fun hh => h (h14.mp hh)⟩]
      exact Post.ok (.of_eq (by simp [h, Access.cv]))

theorem cvAddrOf_eq (b0 b1 : Byte) :
    cvAddrOf b0 b1 = BitVec.ofNat 32 ((b0.toNat % 4) * 256 + b1.toNat) := by
  have key : ∀ b : Byte, (b &&& 3#8).toNat = b.toNat % 4 := by decide +kernel
  have h1 := b1.isLt
  apply BitVec.eq_of_toNat_eq
  unfold cvAddrOf
  have h : ((b0 &&& 3#8).setWidth 32 <<< 8).toNat = (b0.toNat % 4) <<< 8 := by
    rw [BitVec.toNat_shiftLeft, BitVec.toNat_setWidth, key, Nat.shiftLeft_eq, Nat.shiftLeft_eq]
    omega
  have h2 : (b1.setWidth 32).toNat = b1.toNat := by simp; omega
  rw [BitVec.toNat_or, h, h2, ← Nat.shiftLeft_add_eq_or_of_lt (by omega), Nat.shiftLeft_eq,
    BitVec.toNat_ofNat]
  omega

theorem pos_eq (b : Byte) : (b &&& 7#8).setWidth 32 = BitVec.ofNat 32 (b.toNat % 8) := by
  have key : ∀ b : Byte, (b &&& 7#8).toNat = b.toNat % 8 := by decide +kernel
  apply BitVec.eq_of_toNat_eq
  rw [BitVec.toNat_setWidth, key, BitVec.toNat_ofNat]

theorem calls_longBody (e : Env) (s : Rx) (bs : List Byte) (hl : 3 ≤ bs.length) :
    Post (s.cvLongBody e bs) (fun s' => Calls s s' (actionCalls e s.trace s.serviceMode
      s.cfg.cvsLocked (longAction s.ownEqualCvPackets bs))) := by
  obtain _ | ⟨b0, _ | ⟨b1, _ | ⟨b2, rest⟩⟩⟩ := bs
  · simp at hl
  · simp at hl
  · simp at hl
  have hb1 := b1.isLt
  have key : ∀ b : Byte, ((b >>> 2) &&& 3#8).toNat = b.toNat / 4 % 4 := by decide +kernel
  have hop : ∀ k : Byte, ((b0 >>> 2) &&& 3#8 = k ↔ b0.toNat / 4 % 4 = k.toNat) := by
    intro k
    rw [← key]
    exact ⟨fun h => by rw [h], fun h => BitVec.eq_of_toNat_eq h⟩
  unfold Rx.cvLongBody
  simp only [byteAt_zero, byteAt_succ, ok_bind, hop, cvAddrOf_eq, pos_eq]
  simp only [longAction, longRequest]
  have h4 : b0.toNat / 4 % 4 = 0 ∨ b0.toNat / 4 % 4 = 1 ∨ b0.toNat / 4 % 4 = 2 ∨
    b0.toNat / 4 % 4 = 3 := by omega
  rcases h4 with h | h | h | h <;> rw [h]
  · exact Post.ok (.of_eq (by simp [actionCalls]))
  · exact calls_verifyByte ..
  · simp only [BitVec.toNat_ofNat, Nat.reducePow, Nat.reduceMod, Nat.reduceEqDiff, if_false, if_true]
    cases b2.getLsbD 4
    · exact calls_verifyBit ..
    · simp only [Bool.not_true, Bool.false_eq_true, if_false, if_true]
      split
      · exact calls_writeBit _ _ _ (by omega) ..
      · exact Post.ok (.of_eq (by simp [actionCalls]))
  · simp only [BitVec.toNat_ofNat, Nat.reducePow, Nat.reduceMod, Nat.reduceEqDiff, if_false, if_true]
    by_cases h1 : s.ownEqualCvPackets < 2
    · rw [if_pos h1, if_neg (by omega), if_pos h1]
      exact Post.ok (.of_eq (by simp [actionCalls]))
    · by_cases h2 : s.ownEqualCvPackets = 2
      · rw [if_neg h1, if_pos h2, if_pos h2]
        exact calls_writeByte _ _ _ (by omega) ..
      · rw [if_neg h1, if_neg h2, if_neg h2, if_neg h1]
        exact calls_verifyByte ..

end Dcc
