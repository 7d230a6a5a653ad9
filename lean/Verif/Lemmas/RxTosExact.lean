import Verif.Lemmas.RxTos
/-!
Exactly when a tip-off search is answered.
-/
namespace Dcc
open Spec

/-- The reference backoff describes the object. -/
structure PauseIs (p : Pause) (b : Backoff) : Prop where
  range : b.range = min p.free 3
  count : b.count = p.left

theorem PauseIs.fresh : PauseIs {} {} := ⟨rfl, rfl⟩

theorem PauseIs.now (b : Backoff) : PauseIs {} b.now := ⟨rfl, rfl⟩

theorem PauseIs.window {p : Pause} {b : Backoff} (h : PauseIs p b) : 8 <<< b.range = window p.free := by
  rw [h.range]
  unfold Spec.window
  match p.free with
  | 0 => rfl
  | 1 => rfl
  | 2 => rfl
  | k + 3 =>
    rw [show min (k + 3) 3 = 3 by omega]
    rfl

theorem PauseIs.query {p : Pause} {b : Backoff} (h : PauseIs p b) (r : Nat) :
    PauseIs (p.query r).1 (b.query r).1 ∧ (b.query r).2 = (p.query r).2 := by
  unfold Backoff.query Pause.query
  by_cases hc : b.count ≠ 0
  · rw [if_pos hc, if_pos (show 0 < p.left by rw [← h.count]; omega)]
    exact ⟨⟨h.range, by dsimp only; rw [h.count]⟩, rfl⟩
  · rw [if_neg hc, if_neg (show ¬ 0 < p.left by rw [← h.count]; omega)]
    refine ⟨⟨?_, ?_⟩, rfl⟩
    · dsimp only
      rw [h.range]; omega
    · dsimp only
      rw [h.window]

theorem PauseIs.answers {p : Pause} {b : Backoff} (h : PauseIs p b) (rs : List Nat) :
    backoffAnswers b rs = p.answers rs := by
  induction rs generalizing p b with
  | nil => rfl
  | cons r rs ih =>
    rw [backoffAnswers, Pause.answers, (h.query r).2, ih (h.query r).1]

/-- What a search does. -/
structure TosExact (rand : Nat) (s s' : Rx) : Prop where
  backoff : s'.tosBackoff = (s.tosBackoff.query rand).1
  tos : s'.q.tos =
    if (s.tosBackoff.query rand).2 = false ∧ s.q.tos = [] ∧
      (s.lastPacketTp - s.tosTp).toNat / 1000000000 < 30 then
      [tosBytes s.addrs ((s.lastPacketTp - s.tosTp).toNat / 1000000000)] else s.q.tos

theorem exact_tipOffSearch (s : Rx) (rand : Nat) (hle : s.tosTp ≤ s.lastPacketTp) : Post (s.tipOffSearch rand) (TosExact rand s) := by
  unfold Rx.tipOffSearch
  dsimp only
  split
  · rename_i hb
    refine Post.ok ⟨rfl, ?_⟩
    rw [if_neg]
    rintro ⟨h1, h2, -⟩
    rw [h1, h2] at hb
    simp at hb
  rename_i hb
  have he : s.q.tos = [] := by
    cases hq : s.q.tos with
    | nil => rfl
    | cons a b => rw [hq] at hb; simp at hb
  have hq : (s.tosBackoff.query rand).2 = false := by
    cases hq : (s.tosBackoff.query rand).2 with
    | false => rfl
    | true => rw [hq] at hb; simp at hb
  split
  · rename_i h30
    refine Post.ok ⟨rfl, ?_⟩
    rw [if_neg]
    rintro ⟨-, -, h⟩
    have hx : 0 ≤ s.lastPacketTp - s.tosTp := by omega
    generalize s.lastPacketTp - s.tosTp = x at h30 h hx
    unfold seconds at h30
    rw [Int.tdiv_eq_ediv_of_nonneg hx] at h30
    omega
  rename_i h30
  refine ⟨fun s' h => ?_⟩
  rw [adrHigh_eq, adrLow_eq, ok_bind, ok_bind, bind_eq_ok] at h
  obtain ⟨d, hd, h⟩ := h
  obtain ⟨h1, rfl⟩ := encodeId_inv (by omega) hd
  rw [he, pushBack, if_pos (by decide), ok_bind] at h
  cases h
  have hs : (BitVec.ofInt 32 (seconds (s.lastPacketTp - s.tosTp))).toNat =
      (s.lastPacketTp - s.tosTp).toNat / 1000000000 ∧
      (s.lastPacketTp - s.tosTp).toNat / 1000000000 < 30 := by
    have hx : 0 ≤ s.lastPacketTp - s.tosTp := by omega
    generalize s.lastPacketTp - s.tosTp = x at h30 hx
    unfold seconds at h30 ⊢
    rw [BitVec.toNat_ofInt, Int.tdiv_eq_ediv_of_nonneg hx]
    rw [Int.tdiv_eq_ediv_of_nonneg hx] at h30
    omega
  refine ⟨rfl, ?_⟩
  rw [if_pos ⟨hq, he, hs.2⟩]
  show [_] = [_]
  unfold tosBytes
  dsimp only
  rw [hs.1]

/-- Nothing about searches changes. -/
structure TosSame (s s' : Rx) : Prop where
  backoff : s'.tosBackoff = s.tosBackoff
  tos : s'.q.tos = s.q.tos

theorem exact_feature (s : Rx) (a : BitVec 16) (bs : List Byte) (rand : Nat)
    (hle : s.tosTp ≤ s.lastPacketTp) : Post (s.featureExpansion a bs rand) (fun s' =>
      if searchInstruction bs = true then TosExact rand s s' else TosSame s s') := by
  have hs : ∀ (x : BitVec 32) (st : Bool), (searchInstruction bs = true ↔ x = 2#32 ∧ st = false) →
      Post (s.binaryState x st rand) (fun s' =>
        if searchInstruction bs = true then TosExact rand s s' else TosSame s s') := by
    intro x st hx
    unfold Rx.binaryState
    split
    · rename_i h
      simp only [if_pos (hx.mpr ⟨h.1, by simpa using h.2⟩)]
      exact exact_tipOffSearch s rand hle
    · rename_i h
      simp only [if_neg fun h' => h ⟨(hx.mp h').1, by simpa using (hx.mp h').2⟩]
      exact Post.ok ⟨rfl, rfl⟩
  have no : ∀ b0 rest, bs = b0 :: rest → b0 ≠ 0xC0#8 → b0 ≠ 0xDD#8 → searchInstruction bs = false := by
    intro b0 rest hb h1 h2
    subst hb
    obtain _ | ⟨b1, rest⟩ := rest
    · rfl
    · have e1 : b0.toNat ≠ 0xC0 := fun h => h1 (BitVec.eq_of_toNat_eq h)
      have e2 : b0.toNat ≠ 0xDD := fun h => h2 (BitVec.eq_of_toNat_eq h)
      simp [searchInstruction, e1, e2]
  unfold Rx.featureExpansion
  obtain _ | ⟨b0, _ | ⟨b1, rest⟩⟩ := bs
  · exact Post.error
  · have : searchInstruction [b0] = false := rfl
    simp only [byteAt, List.getElem?_cons_zero, List.getElem?_cons_succ, List.getElem?_nil, ok_bind,
      error_bind, this, Bool.false_eq_true, if_false]
    repeat' split
    all_goals first | exact Post.error | exact Post.ok ⟨rfl, rfl⟩
  simp only [byteAt, List.getElem?_cons_zero, List.getElem?_cons_succ, ok_bind]
  split
  · rename_i h0
    obtain _ | ⟨b2, rest⟩ := rest
    · exact Post.error
    simp only [List.getElem?_cons_zero, ok_bind]
    refine hs _ _ ⟨fun h => ?_, fun ⟨h1, h2⟩ => ?_⟩
    · subst h0
      simp [searchInstruction] at h
      obtain ⟨h1, h2⟩ := h
      rw [show b1 = 2#8 from BitVec.eq_of_toNat_eq h1, show b2 = 0#8 from BitVec.eq_of_toNat_eq h2]
      decide
    · obtain ⟨h3, h4⟩ := xf_long b1 b2 h1 h2
      subst h0
      simp [searchInstruction, h3, h4]
  split
  · rename_i h0
    refine hs _ _ ⟨fun h => ?_, fun ⟨h1, h2⟩ => ?_⟩
    · subst h0
      simp [searchInstruction] at h
      rw [show b1 = 2#8 from BitVec.eq_of_toNat_eq h]
      decide
    · subst h0
      simp [searchInstruction, xf_short b1 h1 h2]
  simp only [no b0 _ rfl (by assumption) (by assumption), Bool.false_eq_true, if_false]
  split
  · exact Post.ok ⟨rfl, rfl⟩
  split
  · exact Post.ok ⟨rfl, rfl⟩
  · exact Post.ok ⟨rfl, rfl⟩

private theorem search_decodes : ∀ b : Byte, b.toNat = 0xDD ∨ b.toNat = 0xC0 →
    decodeInstructionByte b = .featureExpansion ∧ b ≠ 0xDE#8 ∧ b ≠ 0xDF#8 ∧ b ≠ 0#8 := by
  decide +kernel

theorem searchInstruction_head {bs : List Byte} {b : Byte} (hb : bs.head? = some b)
    (h : searchInstruction bs = true) :
    decodeInstructionByte b = .featureExpansion ∧ b ≠ 0xDE#8 ∧ b ≠ 0xDF#8 ∧ b ≠ 0#8 := by
  obtain _ | ⟨b', _ | ⟨b1, rest⟩⟩ := bs
  · cases hb
  · cases h
  · cases hb
    refine search_decodes b ?_
    simp only [searchInstruction, Bool.or_eq_true, Bool.and_eq_true, decide_eq_true_eq] at h
    rcases h with h | h
    · exact .inl h.1
    · exact .inr h.1.1

/-- What executing an instruction does about searches. -/
theorem exact_instruction (e : Env) (s s' : Rx) (addr : BitVec 16) (p : Packet) (bs : List Byte)
    (rand : Nat) (hle : s.tosTp ≤ s.lastPacketTp)
    (h : s.executeInstruction e addr p bs rand = .ok s') :
    if searchInstruction bs = true then TosExact rand s s' else TosSame s s' := by
  obtain ⟨b, hb, hc⟩ := instruction_cases e s s' addr p bs rand h
  have neg : (decodeInstructionByte b = .featureExpansion → b ≠ 0xDE#8 → b ≠ 0xDF#8 → b ≠ 0#8 → False) →
      TosSame s s' → if searchInstruction bs = true then TosExact rand s s' else TosSame s s' := by
    intro h1 h2
    rw [if_neg]
    · exact h2
    · intro h3
      obtain ⟨a1, a2, a3, a4⟩ := searchInstruction_head hb h3
      exact h1 a1 a2 a3 a4
  cases hc with
  | enter ha hb h => exact neg (fun _ _ _ h0 => h0 hb) (by rw [h]; exact ⟨rfl, rfl⟩)
  | control hd hn h => exact neg (fun h1 => by rw [hd] at h1; cases h1) (by rw [h]; exact ⟨rfl, rfl⟩)
  | consist hd h =>
    have f := (instr_consist e _ _).out _ h
    exact neg (fun h1 => by rw [hd] at h1; cases h1) ⟨f.tosBackoff, f.tos⟩
  | drives hd h =>
    obtain ⟨evs, m, rfl, -⟩ := h
    refine neg (fun h1 h2 h3 _ => ?_) ⟨rfl, rfl⟩
    rcases hd with hd | hd | hd | hd | hd
    · rw [hd] at h1; cases h1
    · rw [hd] at h1; cases h1
    · rw [hd] at h1; cases h1
    · exact h2 hd
    · exact h3 hd
  | searches hd _ _ h' =>
    unfold Rx.executeInstruction decodeInstruction at h
    obtain _ | ⟨b', rest⟩ := bs
    · cases hb
    cases hb
    rw [byteAt_zero] at h
    simp only [ok_bind, pure_eq_ok, hd] at h
    exact (exact_feature s addr _ rand hle).out _ h
  | cvLong hd h =>
    have f := (instr_cvLong e _ _ _ _).out _ h
    exact neg (fun h1 => by rw [hd] at h1; cases h1) ⟨f.tosBackoff, f.tos⟩
  | cvShort hd h =>
    have f := (instr_cvShort e _ _ _ _).out _ h
    exact neg (fun h1 => by rw [hd] at h1; cases h1) ⟨f.tosBackoff, f.tos⟩

/-- The backoff after the preparation. -/
theorem prepared_backoff (e : Env) (s : Rx) (now : Int) : (s.prepared e now).tosBackoff =
    if 2000000000 ≤ now - s.lastPacketTp then s.tosBackoff.now else s.tosBackoff := by
  unfold Rx.prepared
  have h0 : ∀ x : Rx, (x.logonStore e).lastPacketTp = x.lastPacketTp ∧
      (x.logonStore e).tosBackoff = x.tosBackoff := by
    intro x
    obtain ⟨evs, h, -⟩ := logonStore_eq e x
    rw [h]
    split <;> exact ⟨rfl, rfl⟩
  have h1 : ∀ x : Rx, x.updateQos.lastPacketTp = x.lastPacketTp ∧ x.updateQos.tosBackoff = x.tosBackoff := by
    intro x
    unfold Rx.updateQos
    split <;> exact ⟨rfl, rfl⟩
  have h2 : ∀ x : Rx, (x.updateTimepoints now).tosBackoff =
      if 2000000000 ≤ now - x.lastPacketTp then x.tosBackoff.now else x.tosBackoff := by
    intro x
    unfold Rx.updateTimepoints
    dsimp only
    split <;> rfl
  rw [h2, (h1 _).1, (h1 _).2, (h0 _).1, (h0 _).2]

/-- The other calls leave the backoff alone. -/
theorem other_backoff (e : Env) (s s' : Rx) (op : RxOp) (hroom : s.deque.length ≤ e.rxDeque)
    (h : s.step e op = .ok s') (h1 : op.isExecute = false) (h2 : op ≠ .biDiChannel2) :
    s'.tosBackoff = s.tosBackoff := by
  cases op with
  | init =>
    obtain ⟨cv29, prim, a, v, evs, -, -, -, -, -, rfl⟩ := init_ok e s s' h
    rfl
  | enable =>
    simp only [Rx.step, Rx.enable, Except.ok.injEq] at h
    subst h
    split <;> rfl
  | disable =>
    simp only [Rx.step, Rx.disable, Except.ok.injEq] at h
    subst h
    split <;> rfl
  | receive t r => exact ((receive_frame e s hroom t r).out _ h).tosBackoff
  | execute now rand => cases h1
  | datagram ds =>
    obtain ⟨q, b, rfl⟩ := datagram_eq e s s' ds h
    rfl
  | biDiChannel1 =>
    have h : .ok s.biDiChannel1 = Except.ok s' := h
    cases h
    obtain ⟨q, evs, h, -⟩ := channel1_adds s
    rw [h]
  | biDiChannel2 => exact absurd rfl h2
  | callbackByte i v =>
    simp only [Rx.step] at h
    split at h
    · rw [callbackByte_eq] at h
      cases h
      unfold Rx.answerByte
      split
      · split <;> rfl
      · rfl
    · cases h; rfl
  | callbackBit i v =>
    simp only [Rx.step] at h
    split at h
    · rw [callbackBit_eq] at h
      cases h
      unfold Rx.answerBit
      split
      · split <;> rfl
      · rfl
    · cases h; rfl

/-- What executing a packet does about searches. -/
theorem execute_exact (e : Env) (s s' : Rx) (p : Packet) (now : Int) (rand : Nat) (hr : Reachable e s)
    (hle : s.tosTp ≤ s.lastPacketTp) (hnow : s.lastPacketTp ≤ now) (hp : front s = some p)
    (h : s.step e (.execute now rand) = .ok s') :
    let b := if 2000000000 ≤ now - s.lastPacketTp then s.tosBackoff.now else s.tosBackoff
    let n := (now - s'.tosTp).toNat / 1000000000
    s'.lastPacketTp = now ∧
    s'.tosTp = (if 2000000000 ≤ now - s.lastPacketTp then now else s.tosTp) ∧
    if searchPacket s p = true then s'.tosBackoff = (b.query rand).1 ∧
      s'.q.tos = (if (b.query rand).2 = false ∧ s.q.tos = [] ∧ n < 30 then [tosBytes s.addrs n] else s.q.tos)
    else s'.tosBackoff = b ∧ s'.q.tos = s.q.tos := by
  intro b n
  have ht : s'.lastPacketTp = now ∧
      s'.tosTp = if 2000000000 ≤ now - s.lastPacketTp then now else s.tosTp := by
    rcases execute_tos e s s' now rand hr hle hnow h with ⟨h1, -⟩ | ⟨p', -, h2, h3, -⟩
    · rw [hp] at h1; cases h1
    · exact ⟨h2, h3⟩
  refine ⟨ht.1, ht.2, ?_⟩
  simp only [Rx.step, bind_eq_ok, pure_eq_ok, Except.ok.injEq] at h
  obtain ⟨⟨s1, ret⟩, h1, rfl⟩ := h
  obtain ⟨t1, t2⟩ := prepared_times e s now
  have f := (prepare_total e s now).2
  have hb := prepared_backoff e s now
  have hle' : (s.prepared e now).tosTp ≤ (s.prepared e now).lastPacketTp := by
    rw [t1, t2]; split <;> omega
  have hn : n = ((s.prepared e now).lastPacketTp - (s.prepared e now).tosTp).toNat / 1000000000 := by
    show (now - s1.tosTp).toNat / 1000000000 = _
    rw [t1, t2, ← ht.2]
  cases exec_cases e s s1 now rand ret hr.lengths h1 with
  | idle h hs _ =>
    exfalso
    unfold front at hp
    rcases h with h | h <;> simp [h] at hp
  | foreign p' rest hp' hd hm hf hs _ =>
    have hfr : front s = some p' := front_eq.mpr ⟨hp', rest, hd⟩
    rw [hp] at hfr
    cases hfr
    rw [if_neg (by unfold searchPacket; rw [decide_eq_false hf]; simp), hs]
    exact ⟨hb, f.qtos⟩
  | operations p' rest m s2 hp' hd hm hn' hf h hs _ =>
    have hfr : front s = some p' := front_eq.mpr ⟨hp', rest, hd⟩
    rw [hp] at hfr
    cases hfr
    have key := exact_instruction e _ s2 _ p _ rand hle' h
    have hsp : searchPacket s p = searchInstruction (afterAddress p) := by
      unfold searchPacket
      rw [hm, decide_eq_true (show ForDecoder s p from ⟨m, hn', hf⟩)]
      rfl
    rw [hsp, hs]
    split at key
    · rw [if_pos (by assumption)]
      refine ⟨?_, ?_⟩
      · show s2.tosBackoff = _
        rw [key.backoff, hb]
      · show s2.q.tos = _
        rw [key.tos, hb, ← hn, f.qtos, f.addrs]
    · rw [if_neg (by assumption)]
      exact ⟨key.backoff.trans hb, key.tos.trans f.qtos⟩
  | service p' rest s2 hp' hd hm h hs =>
    have hfr : front s = some p' := front_eq.mpr ⟨hp', rest, hd⟩
    rw [hp] at hfr
    cases hfr
    rw [if_neg (by unfold searchPacket; rw [hm]; simp), hs]
    have : TosSame (s.prepared e now) s2 := by
      cases (service_cases e _ s2 p ret h).1 with
      | ignored h1 hs => rw [hs]; exact ⟨rfl, rfl⟩
      | leave b rest hb h0 h7 hs => rw [hs]; exact ⟨rfl, rfl⟩
      | register b rest hb h7 hl h =>
        rcases (cv_registerMode e _ p).out _ h with h | ⟨b, h⟩
        · exact ⟨h.tosBackoff, h.tos⟩
        · rw [h]; exact ⟨rfl, rfl⟩
      | direct b rest hb h7 hl h =>
        have f := (instr_cvLong e _ _ _ _).out _ h
        exact ⟨f.tosBackoff, f.tos⟩
    exact ⟨this.backoff.trans hb, this.tos.trans f.qtos⟩

end Dcc
