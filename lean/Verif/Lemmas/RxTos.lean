import Verif.Lemmas.RxPom
/-!
What happens to the answer of a tip-off search waiting for channel 2.
-/
namespace Dcc
open Spec

theorem encodeId_inv {i : Bits} {id data : Nat} {d : List Byte} (hid : id < 16)
    (h : encodeId i id data = .ok d) : data < 2 ^ payloadBits i ∧ d = idBytes i id data := by
  have hd : data < 2 ^ payloadBits i := by
    rw [encodeId, bind_eq_ok] at h
    obtain ⟨x, h, -⟩ := h
    unfold makeDatagramId at h
    split at h
    · rename_i h1; rw [payloadBits, Nat.mul_comm 6]; exact h1
    · cases h
  refine ⟨hd, ?_⟩
  rw [encodeId_ok i id data hid hd] at h
  exact (Except.ok.inj h).symm

theorem encodeData_inv {i : Bits} {data : Nat} {d : List Byte} (h : encodeData i data = .ok d) :
    data < 2 ^ (6 * datagramSize i) ∧ d = dataBytes i data := by
  have hd : data < 2 ^ (6 * datagramSize i) := by
    rw [encodeData, bind_eq_ok] at h
    obtain ⟨x, h, -⟩ := h
    unfold makeDatagram at h
    split at h
    · rename_i h1; rw [Nat.mul_comm 6]; exact h1
    · cases h
  refine ⟨hd, ?_⟩
  rw [encodeData_ok i data hd] at h
  exact (Except.ok.inj h).symm

/-- The message answering a tip-off search. -/
def tosBytes (as : Addresses) (sec : Nat) : List Byte :=
  idBytes .b12 1 (adrHighData as as.primary) ++ idBytes .b12 2 (adrLowData as as.primary) ++
    idBytes .b12 14 sec

/-- Unless the clock has run backwards the answer waiting is the one from before, or a new one. -/
structure TosFrame (s s' : Rx) : Prop where
  tos : s.tosTp ≤ s.lastPacketTp → s'.q.tos = s.q.tos ∨ (s.q.tos = [] ∧
    (s.lastPacketTp - s.tosTp).toNat / 1000000000 < 30 ∧
    s'.q.tos = [tosBytes s.addrs ((s.lastPacketTp - s.tosTp).toNat / 1000000000)])
  any : s'.q.tos = s.q.tos ∨ ∃ n, n < 256 ∧ s'.q.tos = [tosBytes s.addrs n]

theorem tos_tipOffSearch (s : Rx) (rand : Nat) : Post (s.tipOffSearch rand) (TosFrame s) := by
  unfold Rx.tipOffSearch
  dsimp only
  split
  · exact Post.ok ⟨fun _ => .inl rfl, .inl rfl⟩
  rename_i hb
  split
  · exact Post.ok ⟨fun _ => .inl rfl, .inl rfl⟩
  rename_i h30
  have he : s.q.tos = [] := by
    cases hq : s.q.tos with
    | nil => rfl
    | cons a b => rw [hq] at hb; simp at hb
  refine ⟨fun s' h => ?_⟩
  rw [adrHigh_eq, adrLow_eq, ok_bind, ok_bind, bind_eq_ok] at h
  obtain ⟨d, hd, h⟩ := h
  obtain ⟨h1, rfl⟩ := encodeId_inv (by omega) hd
  rw [he, pushBack, if_pos (by decide), ok_bind] at h
  cases h
  refine ⟨fun hle => ?_, .inr ⟨_, h1, rfl⟩⟩
  have hs : (BitVec.ofInt 32 (seconds (s.lastPacketTp - s.tosTp))).toNat =
      (s.lastPacketTp - s.tosTp).toNat / 1000000000 ∧
      (s.lastPacketTp - s.tosTp).toNat / 1000000000 < 30 := by
    have hx : 0 ≤ s.lastPacketTp - s.tosTp := by omega
    generalize s.lastPacketTp - s.tosTp = x at h30 hx
    unfold seconds at h30 ⊢
    rw [BitVec.toNat_ofInt, Int.tdiv_eq_ediv_of_nonneg hx]
    rw [Int.tdiv_eq_ediv_of_nonneg hx] at h30
    omega
  refine .inr ⟨he, hs.2, ?_⟩
  show [_] = [_]
  unfold tosBytes
  dsimp only
  rw [hs.1]

private theorem xf_b2 (b1 b2 : Byte)
    (h : ((b2.setWidth 32 <<< 7) ||| (b1 &&& 0x7F#8).setWidth 32 : BitVec 32) = 2#32) : b2 = 0#8 := by
  have h1 : ∀ i, (2#32).getLsbD (i + 7) = false := by
    intro i
    have : (2#32).getLsbD (i + 7) = (2#32 >>> 7).getLsbD i := by
      rw [BitVec.getLsbD_ushiftRight, Nat.add_comm]
    rw [this, show 2#32 >>> 7 = 0#32 from by decide, BitVec.getLsbD_zero]
  have h2 : ∀ i, (0x7F#8).getLsbD (i + 7) = false := by
    intro i
    have : (0x7F#8).getLsbD (i + 7) = (0x7F#8 >>> 7).getLsbD i := by
      rw [BitVec.getLsbD_ushiftRight, Nat.add_comm]
    rw [this, show 0x7F#8 >>> 7 = 0#8 from by decide, BitVec.getLsbD_zero]
  apply BitVec.eq_of_getLsbD_eq
  intro i hi
  have := congrArg (fun x => x.getLsbD (i + 7)) h
  simp only [h1, BitVec.getLsbD_or, BitVec.getLsbD_setWidth, BitVec.getLsbD_and, h2,
    BitVec.getLsbD_shiftLeft] at this
  have e1 : decide (i + 7 < 32) = true := decide_eq_true (by omega)
  have e2 : decide (i + 7 < 7) = false := decide_eq_false (by omega)
  have e3 : decide (i < 32) = true := decide_eq_true (by omega)
  simp [e1, e2, e3] at this
  rw [BitVec.getLsbD_zero]
  exact this

private theorem xf_b1 : ∀ b1 : Byte,
    (((0#8).setWidth 32 <<< 7) ||| (b1 &&& 0x7F#8).setWidth 32 : BitVec 32) = 2#32 →
      b1.getLsbD 7 = false → b1.toNat = 2 := by
  decide +kernel

theorem xf_long (b1 b2 : Byte)
    (h : ((b2.setWidth 32 <<< 7) ||| (b1 &&& 0x7F#8).setWidth 32 : BitVec 32) = 2#32)
    (h7 : b1.getLsbD 7 = false) : b1.toNat = 2 ∧ b2.toNat = 0 := by
  have := xf_b2 b1 b2 h
  subst this
  exact ⟨xf_b1 b1 h h7, rfl⟩

theorem xf_short : ∀ b1 : Byte, ((b1 &&& 0x7F#8).setWidth 32 : BitVec 32) = 2#32 →
    b1.getLsbD 7 = false → b1.toNat = 2 := by
  decide +kernel

theorem tos_feature (s : Rx) (a : BitVec 16) (bs : List Byte) (rand : Nat) :
    Post (s.featureExpansion a bs rand) (fun s' => s'.q.tos = s.q.tos ∨
      (searchInstruction bs = true ∧ TosFrame s s')) := by
  have hs : ∀ (x : BitVec 32) (st : Bool), (x = 2#32 → st = false → searchInstruction bs = true) →
      Post (s.binaryState x st rand) (fun s' => s'.q.tos = s.q.tos ∨
        (searchInstruction bs = true ∧ TosFrame s s')) := by
    intro x st hx
    unfold Rx.binaryState
    split
    · rename_i h
      refine (tos_tipOffSearch ..).mono fun s' hs => .inr ⟨hx h.1 (by simpa using h.2), hs⟩
    · exact Post.ok (.inl rfl)
  unfold Rx.featureExpansion
  obtain _ | ⟨b0, _ | ⟨b1, rest⟩⟩ := bs
  · exact Post.error
  · simp only [byteAt, List.getElem?_cons_zero, List.getElem?_cons_succ, List.getElem?_nil, ok_bind,
      error_bind]
    repeat' split
    all_goals first | exact Post.error | exact Post.ok (.inl rfl)
  simp only [byteAt, List.getElem?_cons_zero, List.getElem?_cons_succ, ok_bind]
  split
  · rename_i h0
    obtain _ | ⟨b2, rest⟩ := rest
    · exact Post.error
    simp only [List.getElem?_cons_zero, ok_bind]
    refine hs _ _ fun h1 h2 => ?_
    obtain ⟨h3, h4⟩ := xf_long b1 b2 h1 h2
    subst h0
    simp [searchInstruction, h3, h4]
  split
  · rename_i h0
    refine hs _ _ fun h1 h2 => ?_
    subst h0
    simp [searchInstruction, xf_short b1 h1 h2]
  split
  · exact Post.ok (.inl rfl)
  split
  · exact Post.ok (.inl rfl)
  · exact Post.ok (.inl rfl)

/-- What executing an instruction does to the answer waiting. -/
theorem tos_instruction (e : Env) (s s' : Rx) (addr : BitVec 16) (p : Packet) (bs : List Byte)
    (rand : Nat) (h : s.executeInstruction e addr p bs rand = .ok s') :
    s'.q.tos = s.q.tos ∨ (searchInstruction bs = true ∧ TosFrame s s') := by
  obtain ⟨b, hb, hc⟩ := instruction_cases e s s' addr p bs rand h
  cases hc with
  | enter ha hb h => exact .inl (by rw [h]; rfl)
  | control hd hb h => exact .inl (by rw [h])
  | consist hd h => exact .inl ((instr_consist e _ _).out _ h).tos
  | drives hd h =>
    obtain ⟨evs, m, rfl, -⟩ := h
    exact .inl rfl
  | searches hd _ _ h' =>
    unfold Rx.executeInstruction decodeInstruction at h
    obtain _ | ⟨b', rest⟩ := bs
    · cases hb
    cases hb
    rw [byteAt_zero] at h
    simp only [ok_bind, pure_eq_ok, hd] at h
    exact (tos_feature s addr _ rand).out _ h
  | cvLong hd h => exact .inl ((instr_cvLong e _ _ _ _).out _ h).tos
  | cvShort hd h => exact .inl ((instr_cvShort e _ _ _ _).out _ h).tos

/-- The time points after the preparation. -/
theorem prepared_times (e : Env) (s : Rx) (now : Int) : (s.prepared e now).lastPacketTp = now ∧
    (s.prepared e now).tosTp = if 2000000000 ≤ now - s.lastPacketTp then now else s.tosTp := by
  unfold Rx.prepared
  have h0 : ∀ x : Rx, (x.logonStore e).lastPacketTp = x.lastPacketTp ∧
      (x.logonStore e).tosTp = x.tosTp := by
    intro x
    obtain ⟨evs, h, -⟩ := logonStore_eq e x
    rw [h]
    split <;> exact ⟨rfl, rfl⟩
  have h1 : ∀ x : Rx, x.updateQos.lastPacketTp = x.lastPacketTp ∧ x.updateQos.tosTp = x.tosTp := by
    intro x
    unfold Rx.updateQos
    split <;> exact ⟨rfl, rfl⟩
  have h2 : ∀ x : Rx, (x.updateTimepoints now).lastPacketTp = now ∧ (x.updateTimepoints now).tosTp =
      if 2000000000 ≤ now - x.lastPacketTp then now else x.tosTp := by
    intro x
    unfold Rx.updateTimepoints
    dsimp only
    split <;> exact ⟨rfl, rfl⟩
  refine ⟨(h2 _).1, ?_⟩
  rw [(h2 _).2, (h1 _).1, (h1 _).2, (h0 _).1, (h0 _).2]

/-- What executing does to the answer waiting and the time points. -/
theorem execute_tos (e : Env) (s s' : Rx) (now : Int) (rand : Nat) (hr : Reachable e s)
    (hle : s.tosTp ≤ s.lastPacketTp) (hnow : s.lastPacketTp ≤ now)
    (h : s.step e (.execute now rand) = .ok s') : (front s = none ∧ s' = s) ∨
    ∃ p, front s = some p ∧ s'.lastPacketTp = now ∧
      s'.tosTp = (if 2000000000 ≤ now - s.lastPacketTp then now else s.tosTp) ∧
      (s'.q.tos = s.q.tos ∨ (searchPacket s p = true ∧ s.q.tos = [] ∧
        (now - s'.tosTp).toNat / 1000000000 < 30 ∧
        s'.q.tos = [tosBytes s.addrs ((now - s'.tosTp).toNat / 1000000000)])) := by
  simp only [Rx.step, bind_eq_ok, pure_eq_ok, Except.ok.injEq] at h
  obtain ⟨⟨s1, ret⟩, h1, rfl⟩ := h
  obtain ⟨t1, t2⟩ := prepared_times e s now
  have f := (prepare_total e s now).2
  have hle' : (s.prepared e now).tosTp ≤ (s.prepared e now).lastPacketTp := by
    rw [t1, t2]; split <;> omega
  have times : front s = none ∨ (s1.lastPacketTp = now ∧ s1.tosTp = (s.prepared e now).tosTp) := by
    rcases execute_cases e s s1 now rand ret h1 with ⟨hc, rfl, -⟩ |
      ⟨p, rest, s2, s3, hp, hd, h2, f1, -, f2, rfl⟩
    · left
      unfold front
      rcases hc with hc | hc <;> simp [hc]
    · right
      rw [(prepare_total e s now).1] at h2
      cases h2
      exact ⟨f2.lastPacketTp.trans t1, f2.tosTp⟩
  cases exec_cases e s s1 now rand ret hr.lengths h1 with
  | idle h hs _ =>
    left
    refine ⟨?_, hs⟩
    unfold front
    rcases h with h | h <;> simp [h]
  | foreign p rest hp hd hm hf hs _ =>
    have hfr : front s = some p := front_eq.mpr ⟨hp, rest, hd⟩
    rcases times with times | ⟨h2, h3⟩
    · rw [hfr] at times; cases times
    · exact .inr ⟨p, hfr, h2, h3.trans t2, .inl (by rw [hs]; exact f.qtos)⟩
  | operations p rest n s2 hp hd hm hn hf h hs _ =>
    have hfr : front s = some p := front_eq.mpr ⟨hp, rest, hd⟩
    rcases times with times | ⟨h2, h3⟩
    · rw [hfr] at times; cases times
    refine .inr ⟨p, hfr, h2, h3.trans t2, ?_⟩
    have hs' : s1.q.tos = s2.q.tos := by rw [hs]; rfl
    rcases tos_instruction e _ s2 _ p _ rand h with ht | ⟨hi, ht⟩
    · exact .inl (by rw [hs', ht]; exact f.qtos)
    · rcases ht.tos hle' with ht | ⟨a1, a2, a3⟩
      · exact .inl (by rw [hs', ht]; exact f.qtos)
      · rw [t1] at a2 a3
        rw [h3, hs', a3]
        refine .inr ⟨?_, f.qtos ▸ a1, a2, by rw [f.addrs]⟩
        unfold searchPacket
        rw [hm, hi, decide_eq_true (show ForDecoder s p from ⟨n, hn, hf⟩)]
        rfl
  | service p rest s2 hp hd hm h hs =>
    have hfr : front s = some p := front_eq.mpr ⟨hp, rest, hd⟩
    rcases times with times | ⟨h2, h3⟩
    · rw [hfr] at times; cases times
    refine .inr ⟨p, hfr, h2, h3.trans t2, .inl ?_⟩
    have hs' : s1.q.tos = s2.q.tos := by rw [hs]; rfl
    rw [hs', ← f.qtos]
    cases (service_cases e _ s2 p ret h).1 with
    | ignored h1 hs => rw [hs]
    | leave b rest hb h0 h7 hs => rw [hs]; rfl
    | register b rest hb h7 hl h =>
      rcases (cv_registerMode e _ p).out _ h with h | ⟨b, h⟩
      · exact h.tos
      · rw [h]
    | direct b rest hb h7 hl h => exact ((instr_cvLong e _ _ _ _).out _ h).tos

/-- Whatever the clock does: the answer waiting is the one from before, or some new one. -/
theorem execute_tos_any (e : Env) (s s' : Rx) (now : Int) (rand : Nat)
    (hr : ∀ p ∈ s.deque, 2 ≤ p.length)
    (h : s.step e (.execute now rand) = .ok s') :
    s'.q.tos = s.q.tos ∨ ∃ n, n < 256 ∧ s'.q.tos = [tosBytes s.addrs n] := by
  simp only [Rx.step, bind_eq_ok, pure_eq_ok, Except.ok.injEq] at h
  obtain ⟨⟨s1, ret⟩, h1, rfl⟩ := h
  have f := (prepare_total e s now).2
  cases exec_cases e s s1 now rand ret hr h1 with
  | idle h hs _ => exact .inl (by rw [hs])
  | foreign p rest hp hd hm hf hs _ => exact .inl (by rw [hs]; exact f.qtos)
  | operations p rest n s2 hp hd hm hn hf h hs _ =>
    have hs' : s1.q.tos = s2.q.tos := by rw [hs]; rfl
    rcases tos_instruction e _ s2 _ p _ rand h with ht | ⟨hi, ht⟩
    · exact .inl (by rw [hs', ht]; exact f.qtos)
    · rcases ht.any with ht | ⟨n, h1, ht⟩
      · exact .inl (by rw [hs', ht]; exact f.qtos)
      · exact .inr ⟨n, h1, by rw [hs', ht, f.addrs]⟩
  | service p rest s2 hp hd hm h hs =>
    left
    have hs' : s1.q.tos = s2.q.tos := by rw [hs]; rfl
    rw [hs', ← f.qtos]
    cases (service_cases e _ s2 p ret h).1 with
    | ignored h1 hs => rw [hs]
    | leave b rest hb h0 h7 hs => rw [hs]; rfl
    | register b rest hb h7 hl h =>
      rcases (cv_registerMode e _ p).out _ h with h | ⟨b, h⟩
      · exact h.tos
      · rw [h]
    | direct b rest hb h7 hl h => exact ((instr_cvLong e _ _ _ _).out _ h).tos

/-- The other calls leave the time points alone, and but for `biDiChannel2` the answer waiting. -/
structure SameTos (s s' : Rx) : Prop where
  last : s'.lastPacketTp = s.lastPacketTp
  start : s'.tosTp = s.tosTp
  tos : s'.q.tos = s.q.tos

theorem SameTos.refl (s : Rx) : SameTos s s := ⟨rfl, rfl, rfl⟩

theorem other_tos (e : Env) (s s' : Rx) (op : RxOp) (hroom : s.deque.length ≤ e.rxDeque)
    (h : s.step e op = .ok s') (h1 : op.isExecute = false) (h2 : op ≠ .biDiChannel2) :
    SameTos s s' := by
  cases op with
  | init =>
    obtain ⟨cv29, prim, a, v, evs, -, -, -, -, -, rfl⟩ := init_ok e s s' h
    exact ⟨rfl, rfl, rfl⟩
  | enable =>
    simp only [Rx.step, Rx.enable, Except.ok.injEq] at h
    subst h
    split <;> exact ⟨rfl, rfl, rfl⟩
  | disable =>
    simp only [Rx.step, Rx.disable, Except.ok.injEq] at h
    subst h
    split <;> exact ⟨rfl, rfl, rfl⟩
  | receive t r =>
    have f := (receive_frame e s hroom t r).out _ h
    exact ⟨f.lastPacketTp, f.tosTp, f.tos⟩
  | execute now rand => cases h1
  | datagram ds =>
    obtain ⟨q, b, rfl⟩ := datagram_eq e s s' ds h
    exact ⟨rfl, rfl, rfl⟩
  | biDiChannel1 =>
    have h : .ok s.biDiChannel1 = Except.ok s' := h
    cases h
    unfold Rx.biDiChannel1
    split
    · unfold Rx.appAdr; split <;> exact ⟨rfl, rfl, rfl⟩
    · unfold Rx.appAdr; split <;> exact ⟨rfl, rfl, rfl⟩
    · unfold Rx.appAdr; split <;> exact ⟨rfl, rfl, rfl⟩
    · unfold Rx.appLogon1; split <;> exact ⟨rfl, rfl, rfl⟩
    · exact ⟨rfl, rfl, rfl⟩
  | biDiChannel2 => exact absurd rfl h2
  | callbackByte i v =>
    simp only [Rx.step] at h
    split at h
    · rw [callbackByte_eq] at h
      cases h
      unfold Rx.answerByte
      split
      · split <;> exact ⟨rfl, rfl, rfl⟩
      · exact ⟨rfl, rfl, rfl⟩
    · cases h; exact .refl s
  | callbackBit i v =>
    simp only [Rx.step] at h
    split at h
    · rw [callbackBit_eq] at h
      cases h
      unfold Rx.answerBit
      split
      · split <;> exact ⟨rfl, rfl, rfl⟩
      · exact ⟨rfl, rfl, rfl⟩
    · cases h; exact .refl s

/-- What `biDiChannel2` does to the answer waiting. -/
theorem channel2_tos (s s' : Rx) (h : s.biDiChannel2 = .ok s') :
    s'.lastPacketTp = s.lastPacketTp ∧ s'.tosTp = s.tosTp ∧
    if cutout s = .tipOff then s'.q.tos = s.q.tos.drop 1 ∧
      transmitted (newCalls s s') = s.q.tos.take 1 else s'.q.tos = s.q.tos := by
  have h := channel2_cutout s s' h
  subst h
  cases hc : cutout s with
  | nothing => exact ⟨rfl, rfl, rfl⟩
  | tipOff =>
    show s.appTos.lastPacketTp = _ ∧ s.appTos.tosTp = _ ∧ (s.appTos.q.tos = _ ∧ _)
    unfold Rx.answer Rx.appTos
    cases hq : s.q.tos with
    | nil => exact ⟨rfl, rfl, hq, by rw [newCalls_self rfl]; rfl⟩
    | cons d rest =>
      refine ⟨rfl, rfl, rfl, ?_⟩
      dsimp only
      rw [newCalls_append (s := s) (evs := [.transmitBiDi d]) rfl]
      rfl
  | cv =>
    rw [if_neg (by decide)]
    show s.appPom.lastPacketTp = _ ∧ s.appPom.tosTp = _ ∧ s.appPom.q.tos = _
    unfold Rx.appPom
    split
    · exact ⟨rfl, rfl, rfl⟩
    split
    · exact ⟨rfl, rfl, rfl⟩
    split <;> exact ⟨rfl, rfl, rfl⟩
  | dynamic =>
    rw [if_neg (by decide)]
    show s.appDyn.lastPacketTp = _ ∧ s.appDyn.tosTp = _ ∧ s.appDyn.q.tos = _
    unfold Rx.appDyn
    split <;> exact ⟨rfl, rfl, rfl⟩
  | logon =>
    rw [if_neg (by decide)]
    show s.appLogon2.lastPacketTp = _ ∧ s.appLogon2.tosTp = _ ∧ s.appLogon2.q.tos = _
    unfold Rx.appLogon2
    split <;> exact ⟨rfl, rfl, rfl⟩

end Dcc
