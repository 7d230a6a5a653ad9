import Verif.Lemmas.RxCvWrites
/-! Register mode. -/
namespace Dcc
open Spec

theorem registerPacket_eq {p : Packet} {w : Bool} {reg : Nat} {v : Byte}
    (h : registerPacket p = some (w, reg, v)) : ∃ b0 c, p = [b0, v, c] ∧ 112 ≤ b0.toNat ∧
      b0.toNat ≤ 127 ∧ w = b0.getLsbD 3 ∧ reg = b0.toNat % 8 := by
  unfold registerPacket at h
  split at h
  · split at h
    · cases h; rename_i h; exact ⟨_, _, rfl, h.1, h.2, rfl, rfl⟩
    · cases h
  · cases h

/-- What `registerMode` does, in full. -/
theorem registerMode_eq (e : Env) (s : Rx) (b0 v c : Byte) :
    s.registerMode e [b0, v, c] =
      if b0.toNat % 8 < 4 then
        if b0.getLsbD 3 then
          s.cvWriteByte e (BitVec.ofNat 32 (4 * s.indexReg.toNat + (b0.toNat % 8) + 4294967292)) v
        else
          s.cvVerifyByte e (BitVec.ofNat 32 (4 * s.indexReg.toNat + (b0.toNat % 8) + 4294967292)) v
      else if b0.toNat % 8 = 4 then
        if b0.getLsbD 3 then s.cvWriteByte e (BitVec.ofNat 32 28) v
        else s.cvVerifyByte e (BitVec.ofNat 32 28) v
      else if b0.toNat % 8 = 5 then
        if b0.getLsbD 3 then .ok { s with indexReg := v }
        else if s.indexReg = v then .ok (s.emit .serviceAck)
        else .ok s
      else
        if b0.getLsbD 3 then s.cvWriteByte e (BitVec.ofNat 32 (b0.toNat % 8)) v
        else s.cvVerifyByte e (BitVec.ofNat 32 (b0.toNat % 8)) v := by
  have h0 : (b0 &&& 7#8).setWidth 32 = BitVec.ofNat 32 (b0.toNat % 8) := pos_eq b0
  have h1 : ((b0 &&& 7#8).setWidth 32 < 4#32) = (b0.toNat % 8 < 4) := by
    rw [h0, BitVec.lt_def, eq_iff_iff]; simp; omega
  have h2 : ∀ k, k < 8 → ((b0 &&& 7#8).setWidth 32 = BitVec.ofNat 32 k) = (b0.toNat % 8 = k) := by
    intro k hk
    rw [h0, eq_iff_iff]
    constructor
    · intro h
      have := congrArg BitVec.toNat h
      simp at this; omega
    · intro h; rw [h]
  have h3 : s.indexReg.setWidth 32 * 4#32 - (4#32 - (b0 &&& 7#8).setWidth 32) =
      BitVec.ofNat 32 (4 * s.indexReg.toNat + (b0.toNat % 8) + 4294967292) := by
    rw [h0]
    have := s.indexReg.isLt
    apply BitVec.eq_of_toNat_eq
    simp only [BitVec.toNat_sub, BitVec.toNat_mul, BitVec.toNat_ofNat, BitVec.toNat_setWidth]
    omega
  unfold Rx.registerMode
  simp only [byteAt_zero, byteAt_succ, ok_bind, pure_eq_ok]
  rw [h3]
  simp only [h1, h2 4 (by omega), h2 5 (by omega)]
  rw [h0]

theorem step_indexReg (e : Env) (s s' : Rx) (op : RxOp) (hr : Reachable e s)
    (h : s.step e op = .ok s') : s'.indexReg = ((if op.isExecute && s.serviceMode then
        ((front s).toList.filterMap registerPacket).filterMap fun (w, reg, v) =>
          if w ∧ reg = 5 then some v else none
      else []).getLast?.getD s.indexReg) := by
  cases op with
  | init => exact ((cv_init e s).out _ h).indexReg
  | enable =>
    simp only [Rx.step, Rx.enable, Except.ok.injEq] at h
    subst h
    split <;> rfl
  | disable =>
    simp only [Rx.step, Rx.disable, Except.ok.injEq] at h
    subst h
    split <;> rfl
  | receive t r => exact ((receive_frame e s hr.recvInv.room t r).out _ h).indexReg
  | datagram ds =>
    obtain ⟨q, b, rfl⟩ := datagram_eq e s s' ds h
    rfl
  | biDiChannel1 =>
    simp only [Rx.step, Except.ok.injEq] at h
    obtain ⟨q, evs, h1, h2⟩ := channel1_adds s
    rw [← h, h1]; rfl
  | biDiChannel2 =>
    obtain ⟨q, evs, rfl, h2⟩ := (channel2_adds s).out _ h
    rfl
  | callbackByte i v =>
    simp only [Rx.step] at h
    split at h
    · rw [callbackByte_eq] at h
      cases h
      exact (CvFrame.answerByte ..).indexReg
    · cases h; rfl
  | callbackBit i v =>
    simp only [Rx.step] at h
    split at h
    · rw [callbackBit_eq] at h
      cases h
      exact (CvFrame.answerBit ..).indexReg
    · cases h; rfl
  | execute now rand =>
    simp only [Rx.step, bind_eq_ok] at h
    obtain ⟨⟨s2, ret⟩, h, h2⟩ := h
    cases h2
    have hp := (prepare_total e s now).2.indexReg
    have hx : (RxOp.execute now rand).isExecute = true := rfl
    rw [hx, Bool.true_and]
    cases exec_cases e s s2 now rand ret hr.lengths h with
    | idle h hs _ =>
      have : front s = none := by
        unfold front
        rcases h with h | h <;> simp [h]
      rw [this, hs]
      cases s.serviceMode <;> rfl
    | foreign p rest _ hd hm hf hs _ => rw [hs, hm]; exact hp
    | operations p rest n s3 _ hd hm hn hf h hs _ =>
      rw [hm, hs]
      show s3.indexReg = s.indexReg
      obtain ⟨b, hb, hc⟩ := instruction_cases e _ s3 _ p _ rand h
      cases hc with
      | enter ha hb h => rw [h]; exact hp
      | control hd hb h => rw [h]; exact hp
      | consist hd h => exact ((instr_consist e _ _).out _ h).indexReg.trans hp
      | drives hd h => obtain ⟨evs, m, rfl, -⟩ := h; exact hp
      | searches hd _ _ h => obtain ⟨b, q, rfl⟩ := h; exact hp
      | cvLong hd h => exact ((instr_cvLong e _ _ p _).out _ h).indexReg.trans hp
      | cvShort hd h => exact ((instr_cvShort e _ _ p _).out _ h).indexReg.trans hp
    | service p rest s3 hpe hd hm h hs =>
      have hfr : front s = some p := front_eq.mpr ⟨hpe, rest, hd⟩
      rw [hm, if_pos rfl, hfr, hs]
      show s3.indexReg = _
      simp only [Option.toList_some, List.filterMap_cons, List.filterMap_nil]
      cases (service_cases e _ s3 p ret h).1 with
      | ignored h1 hs =>
        have : registerPacket p = none := by
          rcases h1 with ⟨r, rfl⟩ | ⟨b, r, rfl, -, h1, -⟩
          · unfold registerPacket; split
            · rename_i h; cases h; rfl
            · rfl
          · unfold registerPacket; split
            · rename_i h; rw [h] at h1; simp at h1
            · rfl
        rw [this, hs]; exact hp
      | leave b r hb h0 h7 hs =>
        have : registerPacket p = none := by
          rw [Ne, nibble7] at h7
          rw [hb]
          unfold registerPacket; split
          · rename_i h; cases h; rw [if_neg h7]
          · rfl
        rw [this, hs]; exact hp
      | direct b r hb h7 hl h =>
        have : registerPacket p = none := by
          unfold registerPacket; split
          · simp at hl
          · rfl
        rw [this]
        exact ((instr_cvLong e _ _ p _).out _ h).indexReg.trans hp
      | register b r hb h7 hl h =>
        obtain ⟨v, c, rfl⟩ : ∃ v c, r = [v, c] := by
          rw [hb] at hl
          obtain _ | ⟨v, _ | ⟨c, _ | _⟩⟩ := r <;> simp at hl
          exact ⟨v, c, rfl⟩
        rw [nibble7] at h7
        rw [hb] at h ⊢
        have : registerPacket [b, v, c] = some (b.getLsbD 3, b.toNat % 8, v) := by
          simp only [registerPacket, if_pos h7]
        rw [this]
        dsimp only
        have hfm : List.filterMap (fun x : Bool × Nat × Byte =>
            if x.1 = true ∧ x.2.1 = 5 then some x.2.2 else none) [(b.getLsbD 3, b.toNat % 8, v)] =
            if b.getLsbD 3 = true ∧ b.toNat % 8 = 5 then [v] else [] := by
          rw [List.filterMap_cons]
          dsimp only
          by_cases hh : b.getLsbD 3 = true ∧ b.toNat % 8 = 5
          · rw [if_pos hh, if_pos hh]; rfl
          · rw [if_neg hh, if_neg hh]; rfl
        rw [hfm]
        rw [registerMode_eq] at h
        split at h
        · rw [if_neg (by omega)]
          split at h
          · exact ((cv_writeByte ..).out _ h).indexReg.trans hp
          · exact ((cv_verifyByte ..).out _ h).indexReg.trans hp
        split at h
        · rw [if_neg (by omega)]
          split at h
          · exact ((cv_writeByte ..).out _ h).indexReg.trans hp
          · exact ((cv_verifyByte ..).out _ h).indexReg.trans hp
        split at h
        · rename_i h5
          split at h
          · rename_i hw
            cases h
            rw [if_pos ⟨hw, h5⟩]; rfl
          · rename_i hw
            rw [if_neg (fun h => hw h.1)]
            split at h <;> cases h <;> exact hp
        · rw [if_neg (by omega)]
          split at h
          · exact ((cv_writeByte ..).out _ h).indexReg.trans hp
          · exact ((cv_verifyByte ..).out _ h).indexReg.trans hp

theorem run_indexReg (e : Env) (ops : List RxOp) : ∀ (s s' : Rx), Reachable e s →
    s.run e ops = .ok s' → s'.indexReg = (pageWrites e s ops).getLast?.getD s.indexReg := by
  induction ops with
  | nil => intro s s' _ h; cases h; rfl
  | cons op ops ih =>
    intro s s' hr h
    simp only [Rx.run, bind_eq_ok] at h
    obtain ⟨s1, h1, h2⟩ := h
    rw [ih s1 s' (.step op hr h1) h2, step_indexReg e s s1 op hr h1]
    simp only [pageWrites, h1, List.getLast?_append]
    cases (pageWrites e s1 ops).getLast? <;> simp

theorem indexReg_of_history (e : Env) (ops : List RxOp) (s : Rx) (h : ({} : Rx).run e ops = .ok s) :
    s.indexReg = page e ops := run_indexReg e ops {} s .start h

/-- The state after executing a register mode packet comes from `registerMode`. -/
theorem execute_register (e : Env) (s s' : Rx) (now : Int) (rand : Nat) (ret : Bool) (p : Packet)
    (b0 v c : Byte) (hr : Reachable e s) (hm : s.serviceMode = true) (hf : front s = some p)
    (hp : p = [b0, v, c]) (h7 : 112 ≤ b0.toNat ∧ b0.toNat ≤ 127)
    (h : s.execute e now rand = .ok (s', ret)) :
    ∃ s2, (s.prepared e now).registerMode e [b0, v, c] = .ok s2 ∧ s' = s2.popFront := by
  cases exec_cases e s s' now rand ret hr.lengths h with
  | idle h _ _ => obtain ⟨h1, r, h2⟩ := front_eq.mp hf; rcases h with h | h <;> simp_all
  | foreign q rest hp hd hm' hfd _ _ => rw [hm] at hm'; cases hm'
  | operations q rest n s2 hp hd hm' hn ha h hs' _ => rw [hm] at hm'; cases hm'
  | service q rest s2 hpe hd hm' h hs' =>
    have hfr := front_eq.mpr ⟨hpe, rest, hd⟩
    rw [hf] at hfr; cases hfr
    cases (service_cases e _ s2 p ret h).1 with
    | ignored h1 _ =>
      exfalso
      rcases h1 with ⟨r, rfl⟩ | ⟨d, r, rfl, -, h1, -⟩
      · cases hp; simp at h7
      · rw [hp] at h1; simp at h1
    | leave d r hc' _ hn _ =>
      rw [hc'] at hp; cases hp
      exact absurd ((nibble7 _).mpr h7) hn
    | direct _ _ _ _ hl' _ => rw [hp] at hl'; simp at hl'
    | register d r hb _ _ h => rw [hp] at h; exact ⟨s2, h, hs'⟩

end Dcc
