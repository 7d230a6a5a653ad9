import Verif.Lemmas.RxPom
/-!
Exactly which answer waits after a CV access.
-/
namespace Dcc
open Spec

/-- The answer waiting after an action in operations mode. -/
def Rx.pomAfter (e : Env) (s : Rx) (tr : List Event) (base : List (List Byte)) :
    Option (Kind × Access) → List (List Byte)
  | some (k, a) =>
    if permitted s.cfg.cvsLocked k a && !deferred e k && s.cfg.ch2DataEnabled then
      [pomBytes (resultOf e tr k a)]
    else base
  | none => base

private theorem emit_cfg (s : Rx) (ev : Event) : (s.emit ev).cfg = s.cfg := rfl
private theorem emit_q (s : Rx) (ev : Event) : (s.emit ev).q = s.q := rfl
private theorem defer_pom (s : Rx) (k : Callback) (ev : Event) : (s.defer k ev).q = s.q := rfl

theorem answerByte_op (s : Rx) (b v : Byte) (hm : s.serviceMode = false) :
    (s.answerByte b v).q.pom = if s.cfg.ch2DataEnabled then [pomBytes v] else s.q.pom := by
  unfold Rx.answerByte
  rw [hm, if_neg Bool.false_ne_true]

theorem answerBit_op (s : Rx) (b v : Bool) (hm : s.serviceMode = false) :
    (s.answerBit b v).q.pom =
      if s.cfg.ch2DataEnabled then [pomBytes (if v then 1#8 else 0#8)] else s.q.pom := by
  unfold Rx.answerBit
  rw [hm, if_neg Bool.false_ne_true]

theorem pomx_verifyByte (e : Env) (s : Rx) (cv : Nat) (b : Byte) (hm : s.serviceMode = false) :
    Post (s.cvVerifyByte e (BitVec.ofNat 32 cv) b) (fun s' =>
      s'.q.pom = s.pomAfter e s.trace s.q.pom (some (.verify, .byte cv b))) := by
  rw [cvVerifyByte_eq]
  refine Post.ok ?_
  have hm' : ∀ ev, (s.emit ev).serviceMode = false := fun _ => hm
  unfold Rx.verifiedByte Rx.pomAfter
  cases hl : s.cfg.cvsLocked <;> cases ha : e.asyncReadable <;> cases hc : s.cfg.ch2DataEnabled <;>
    simp [permitted, deferred, resultOf, ha, answerByte_op _ _ _ (hm' _), emit_cfg, emit_q, defer_pom, hc]

theorem pomx_verifyBit (e : Env) (s : Rx) (cv : Nat) (b : Bool) (pos : Nat) (hm : s.serviceMode = false) :
    Post (s.cvVerifyBit e (BitVec.ofNat 32 cv) b (BitVec.ofNat 32 pos)) (fun s' =>
      s'.q.pom = s.pomAfter e s.trace s.q.pom (some (.verify, .bit cv b pos))) := by
  rw [cvVerifyBit_eq]
  refine Post.ok ?_
  have hm' : ∀ ev, (s.emit ev).serviceMode = false := fun _ => hm
  unfold Rx.verifiedBit Rx.pomAfter
  cases hl : s.cfg.cvsLocked <;> cases ha : e.asyncReadable <;> cases hc : s.cfg.ch2DataEnabled <;>
    simp [permitted, deferred, resultOf, ha, answerBit_op _ _ _ (hm' _), emit_cfg, emit_q, defer_pom, hc]

theorem initIfNeeded_pom (e : Env) (s : Rx) (cv : BitVec 32) :
    Post (s.initIfNeeded e cv) (fun s' => s'.q.pom = s.q.pom) := by
  refine ⟨fun s' h => ?_⟩
  unfold Rx.initIfNeeded at h
  split at h
  · obtain ⟨_, _, _, _, evs, _, _, _, _, hq, rfl⟩ := init_ok e s s' h
    rfl
  · cases h; rfl

private theorem cv14 (cv : Nat) (h : cv < 1024) : (BitVec.ofNat 32 cv = 14#32 ↔ cv = 14) := by
  constructor
  · intro hx
    have := congrArg BitVec.toNat hx
    simp only [BitVec.toNat_ofNat] at this
    omega
  · rintro rfl; rfl

theorem pomx_writeByte (e : Env) (s : Rx) (cv : Nat) (b : Byte) (hcv : cv < 1024)
    (hm : s.serviceMode = false) :
    Post (s.cvWriteByte e (BitVec.ofNat 32 cv) b) (fun s' =>
      s'.q.pom = s.pomAfter e s.trace s.q.pom (some (.write, .byte cv b))) := by
  rw [cvWriteByte_eq]
  have hm' : ∀ ev, (s.emit ev).serviceMode = false := fun _ => hm
  split
  · rename_i h
    rw [Ne, cv14 cv hcv] at h
    refine Post.ok ?_
    simp [Rx.pomAfter, permitted, h.1, h.2, Access.cv]
  · rename_i h
    rw [Ne, cv14 cv hcv] at h
    refine (initIfNeeded_pom e _ _).mono fun s' h' => h'.trans ?_
    have hp : permitted s.cfg.cvsLocked .write (.byte cv b) = true := by
      cases hl : s.cfg.cvsLocked
      · rfl
      · rw [hl] at h
        have : cv = 14 := by simpa using h
        simp [permitted, Access.cv, this]
    unfold Rx.wroteByte Rx.pomAfter
    cases ha : e.asyncWritable <;> cases hc : s.cfg.ch2DataEnabled <;>
      simp [hp, deferred, resultOf, ha, answerByte_op _ _ _ (hm' _), emit_cfg, emit_q, defer_pom, hc]

theorem pomx_writeBit (e : Env) (s : Rx) (cv : Nat) (b : Bool) (pos : Nat) (hcv : cv < 1024)
    (hm : s.serviceMode = false) :
    Post (s.cvWriteBit e (BitVec.ofNat 32 cv) b (BitVec.ofNat 32 pos)) (fun s' =>
      s'.q.pom = s.pomAfter e s.trace s.q.pom (some (.write, .bit cv b pos))) := by
  rw [cvWriteBit_eq]
  have hm' : ∀ ev, (s.emit ev).serviceMode = false := fun _ => hm
  split
  · rename_i h
    rw [Ne, cv14 cv hcv] at h
    refine Post.ok ?_
    simp [Rx.pomAfter, permitted, h.1, h.2, Access.cv]
  · rename_i h
    rw [Ne, cv14 cv hcv] at h
    refine (initIfNeeded_pom e _ _).mono fun s' h' => h'.trans ?_
    have hp : permitted s.cfg.cvsLocked .write (.bit cv b pos) = true := by
      cases hl : s.cfg.cvsLocked
      · rfl
      · rw [hl] at h
        have : cv = 14 := by simpa using h
        simp [permitted, Access.cv, this]
    unfold Rx.wroteBit Rx.pomAfter
    cases ha : e.asyncWritable <;> cases hc : s.cfg.ch2DataEnabled <;>
      simp [hp, deferred, resultOf, ha, answerBit_op _ _ _ (hm' _), emit_cfg, emit_q, defer_pom, hc]

theorem pomx_longBody (e : Env) (s : Rx) (bs : List Byte) (hm : s.serviceMode = false) :
    Post (s.cvLongBody e bs) (fun s' =>
      s'.q.pom = s.pomAfter e s.trace s.q.pom (longAction s.ownEqualCvPackets bs)) := by
  obtain _ | ⟨b0, _ | ⟨b1, _ | ⟨b2, rest⟩⟩⟩ := bs
  · exact Post.error
  · exact Post.error
  · unfold Rx.cvLongBody
    simp only [byteAt, List.getElem?_cons_zero, List.getElem?_cons_succ, List.getElem?_nil, ok_bind,
      error_bind]
    repeat' split
    all_goals first | exact Post.error | exact Post.ok rfl
  have hb1 := b1.isLt
  have key : ∀ b : Byte, ((b >>> 2) &&& 3#8).toNat = b.toNat / 4 % 4 := by decide +kernel
  have hop : ∀ k : Byte, ((b0 >>> 2) &&& 3#8 = k ↔ b0.toNat / 4 % 4 = k.toNat) := by
    intro k
    rw [← key]
    exact ⟨fun h => by rw [h], fun h => BitVec.eq_of_toNat_eq h⟩
  unfold Rx.cvLongBody
  simp only [byteAt_zero, byteAt_succ, ok_bind, hop, cvAddrOf_eq, pos_eq]
  simp only [longAction, longRequest]
  have h4 : b0.toNat / 4 % 4 = 0 ∨ b0.toNat / 4 % 4 = 1 ∨ b0.toNat / 4 % 4 = 2 ∨
    b0.toNat / 4 % 4 = 3 := by omega
  rcases h4 with h | h | h | h <;> rw [h]
  · exact Post.ok rfl
  · exact pomx_verifyByte _ _ _ _ hm
  · simp only [BitVec.toNat_ofNat, Nat.reducePow, Nat.reduceMod, Nat.reduceEqDiff, if_false, if_true]
    cases b2.getLsbD 4
    · exact pomx_verifyBit _ _ _ _ _ hm
    · simp only [Bool.not_true, Bool.false_eq_true, if_false, if_true]
      split
      · exact pomx_writeBit _ _ _ _ _ (by omega) hm
      · exact Post.ok rfl
  · simp only [BitVec.toNat_ofNat, Nat.reducePow, Nat.reduceMod, Nat.reduceEqDiff, if_false, if_true]
    by_cases h1 : s.ownEqualCvPackets < 2
    · rw [if_pos h1, if_neg (by omega), if_pos h1]
      exact Post.ok rfl
    · by_cases h2 : s.ownEqualCvPackets = 2
      · rw [if_neg h1, if_pos h2, if_pos h2]
        exact pomx_writeByte _ _ _ _ (by omega) hm
      · rw [if_neg h1, if_neg h2, if_neg h2, if_neg h1]
        exact pomx_verifyByte _ _ _ _ hm

theorem pomx_cvLong (e : Env) (s : Rx) (addr : BitVec 16) (p : Packet) (bs : List Byte)
    (hm : s.serviceMode = false) (hb : ¬ (addr ≠ 0#16 ∧ addr = s.addrs.consist.value)) :
    Post (s.cvLong e addr p bs) (fun s' => s'.q.pom =
      s.pomAfter e s.trace (s.pomBase p) (longAction (countPacket s.cvCount p).2 bs)) := by
  unfold Rx.cvLong
  rw [if_neg hb]
  have hc : (s.countOwnEqualCvPackets p).ownEqualCvPackets = (countPacket s.cvCount p).2 := by
    rw [← count_cvCount]; rfl
  obtain ⟨f1, f2, f3, f4⟩ := count_fields s p
  have f2' : (s.countOwnEqualCvPackets p).serviceMode = false := by
    unfold Rx.serviceMode at hm ⊢; rw [f2]; exact hm
  dsimp only
  rw [if_neg (by rw [f2']; simp)]
  refine (pomx_longBody e _ bs f2').mono fun s' h => ?_
  rw [h, hc, f1, count_pom]
  unfold Rx.pomAfter
  rw [f3]

/-- An action a long form packet asks for is the access it names, on one of 1024 CVs. -/
theorem longAction_request {n : Nat} {bs : List Byte} {k : Kind} {a : Access}
    (h : longAction n bs = some (k, a)) : (∃ k', longRequest bs = some (k', a)) ∧ 3 ≤ bs.length ∧
      a.cv < 1024 ∧ ∀ cv b pos, a = .bit cv b pos → pos < 8 := by
  have h1 : ∃ k', longRequest bs = some (k', a) := by
    unfold longAction at h
    split at h
    · rename_i hr; cases h; exact ⟨_, hr⟩
    · rename_i hr
      split at h
      · cases h; exact ⟨_, hr⟩
      · split at h
        · cases h
        · cases h; exact ⟨_, hr⟩
    · rename_i hr
      split at h
      · cases h; exact ⟨_, hr⟩
      · cases h
    · cases h
  obtain ⟨k', hr⟩ := h1
  refine ⟨⟨k', hr⟩, ?_⟩
  unfold longRequest at hr
  split at hr
  · rename_i b0 b1 b2 rest
    have := b1.isLt
    refine ⟨by simp, ?_⟩
    dsimp only at hr
    repeat' split at hr
    all_goals first
      | (cases hr; refine ⟨by simp only [Access.cv]; omega, ?_⟩; intro cv b pos hx; first | (cases hx; done) | (cases hx; omega))
      | (cases hr)
  · cases hr

private theorem quiet_values (p : Packet) (evs : List Event) (h : ∀ ev ∈ evs, ev.isQuiet = true) :
    values p evs = [] := by
  unfold values
  rw [List.filterMap_eq_nil_iff]
  intro ev hev
  have := h ev hev
  cases ev <;> first | rfl | cases this

private theorem values_append (p : Packet) (a b : List Event) :
    values p (a ++ b) = values p a ++ values p b := List.filterMap_append

/-- The value an access returns is the one obtained. -/
private theorem values_access (e : Env) (tr : List Event) (locked : Bool) (k : Kind) (a : Access) (p : Packet)
    (n : Nat) (ha : longAction n (afterAddress p) = some (k, a))
    (hp : permitted locked k a = true) (hd : deferred e k = false) :
    values p (actionCalls e tr false locked (some (k, a))) = [resultOf e tr k a] := by
  obtain ⟨⟨k', hr⟩, -, h1, h2⟩ := longAction_request ha
  have h32 : ∀ n : Nat, n < 1024 → n % 4294967296 = n := fun n hn => Nat.mod_eq_of_lt (by omega)
  rw [actionCalls, if_pos hp]
  unfold values
  rw [hr]
  cases k <;> cases a
  all_goals
    simp only [deferred] at hd
    simp only [Access.cv] at h1
    first
      | (have h3 := h2 _ _ _ rfl
         simp [accessCalls, hd, ack, accessResult, h32 _ h1, resultOf, h32 _ (Nat.lt_trans h3 (by decide : 8 < 1024))])
      | simp [accessCalls, hd, ack, accessResult, h32 _ h1, resultOf]

/-- The answer waiting after executing a CV access packet of the long form in operations mode: the
last value obtained if one is, otherwise that of before if the packet is the same. -/
theorem execute_pom_exact (e : Env) (s s' : Rx) (now : Int) (rand : Nat) (ret : Bool) (p : Packet)
    (hv : ∀ p ∈ s.deque, 2 ≤ p.length) (hm : s.serviceMode = false) (hf : front s = some p)
    (hc : cvRequest s p = true) (hl : ∀ b, (afterAddress p).head? = some b → b.toNat < 240)
    (h : s.execute e now rand = .ok (s', ret)) :
    s'.q.pom = if answersNow e s (countPacket s.cvCount p).2 p then
      (values p (newCalls s s')).getLast?.toList.map pomBytes else s.pomBase p := by
  obtain ⟨stores, ht, -⟩ := prepared_trace e s now
  obtain ⟨m1, m2, -⟩ := prepared_modes e s now
  have f := (prepare_total e s now).2
  have hbase : (s.prepared e now).pomBase p = s.pomBase p := by
    unfold Rx.pomBase; rw [f.lastOwnCvPacket, f.qpom]
  obtain ⟨s2, addr, ha, h, hs2, hs3⟩ := execute_isLong e s s' now rand ret p hv hm hf hc hl h
  have hp := (pomx_cvLong e _ addr p _ (m1.trans hm) ha).out _ h
  rw [hs3, hp, hbase, prepared_cvCount, ht]
  unfold Rx.pomAfter answersNow
  rw [m2, hm]
  cases hx : longAction (countPacket s.cvCount p).2 (afterAddress p) with
  | none => simp
  | some x =>
    obtain ⟨k, a⟩ := x
    have h1 := (calls_cvLong e _ _ p _ ha (longAction_request hx).2.1).out _ h
    rw [m1, m2, hm, prepared_cvCount, ht] at h1
    change Calls _ s2 (actionCalls e _ false _ (longAction _ _)) at h1
    rw [hx] at h1
    obtain ⟨quiet, h2, h3, -⟩ := prepared_calls ht h1
    simp only [Option.any_some, Bool.not_false, Bool.true_and]
    cases h4 : permitted s.cfg.cvsLocked k a
    · simp
    cases h5 : deferred e k
    · cases h6 : s.cfg.ch2DataEnabled
      · simp
      · simp only [Bool.not_false, Bool.and_self, if_true]
        rw [newCalls_append (s := s) (evs := stores ++ actionCalls e (s.trace ++ stores) false
          s.cfg.cvsLocked (some (k, a)) ++ quiet) (by rw [hs2, h3]; simp), values_append, values_append,
          quiet_values p quiet h2, values_access e _ _ k a p _ hx h4 h5]
        simp
    · simp

end Dcc
