import Verif.Lemmas.RxAddr
/-! What the functions for CV access do, as equations, and what they leave alone. -/
namespace Dcc

/-- The calls made between two states all have a property. -/
def Adds (P : Event → Prop) (s s' : Rx) : Prop :=
  ∃ evs, s'.trace = s.trace ++ evs ∧ ∀ ev ∈ evs, P ev

theorem Adds.refl {P : Event → Prop} (s : Rx) : Adds P s s := ⟨[], by simp, by simp⟩

theorem Adds.of_eq {P : Event → Prop} {s s' : Rx} (h : s'.trace = s.trace) : Adds P s s' :=
  ⟨[], by simp [h], by simp⟩

theorem Adds.trans {P : Event → Prop} {a b c : Rx} (h : Adds P a b) (g : Adds P b c) : Adds P a c := by
  obtain ⟨e1, t1, q1⟩ := h
  obtain ⟨e2, t2, q2⟩ := g
  refine ⟨e1 ++ e2, by rw [t2, t1, List.append_assoc], fun ev hev => ?_⟩
  rcases List.mem_append.mp hev with h | h
  · exact q1 ev h
  · exact q2 ev h

theorem Adds.emit {P : Event → Prop} (s : Rx) (ev : Event) (h : P ev) : Adds P s (s.emit ev) :=
  ⟨[ev], rfl, by simpa using h⟩

theorem Adds.mono {P Q : Event → Prop} {s s' : Rx} (h : Adds P s s') (hpq : ∀ ev, P ev → Q ev) :
    Adds Q s s' := by
  obtain ⟨evs, t, q⟩ := h
  exact ⟨evs, t, fun ev hev => hpq ev (q ev hev)⟩

/-! ### Reading the configuration -/

theorem Answer.of_quiet {e : Env} {tr evs : List Event} {cv : BitVec 32} {v : Byte}
    (hq : ∀ ev ∈ evs, ev.isQuiet = true) (h : Answer e (tr ++ evs) cv v) : Answer e tr cv v := by
  obtain ⟨evs', h1, h2⟩ := h
  refine ⟨evs ++ evs', ?_, by rw [h2, List.append_assoc]⟩
  intro ev hev
  rcases List.mem_append.mp hev with h | h
  · exact hq ev h
  · exact h1 ev h

theorem InitVals.Answers.of_quiet {v : InitVals} {e : Env} {tr evs : List Event}
    (hq : ∀ ev ∈ evs, ev.isQuiet = true) (h : v.Answers e (tr ++ evs)) : v.Answers e tr :=
  ⟨h.cv19.of_quiet hq, h.cv20.of_quiet hq, h.cv15.of_quiet hq, h.cv16.of_quiet hq,
    h.cv28.of_quiet hq, h.cv250.of_quiet hq, h.cv251.of_quiet hq, h.cv252.of_quiet hq,
    h.cv253.of_quiet hq, h.cv65297.of_quiet hq, h.cv65298.of_quiet hq, h.cv65299.of_quiet hq⟩

theorem InitVals.events_quiet (v : InitVals) (e : Env) : ∀ ev ∈ v.events e, ev.isQuiet = true := by
  intro ev hev
  unfold InitVals.events at hev
  cases he : e.highCurrent <;> rw [he] at hev <;> simp at hev <;>
    (rcases hev with h | h | h | h | h | h | h | h | h | h | h | h <;> first
      | (subst h; rfl)
      | (rcases h with h | h <;> subst h <;> rfl))

/-- The bytes the primary address is read from. -/
def PrimaryBytes (e : Env) (tr : List Event) (cv29 : Byte) (prim : List Byte) : Prop :=
  if cv29.getLsbD 5 then
    ∃ a b, prim = [a, b] ∧ Answer e tr 16#32 a ∧ Answer e tr 17#32 b
  else ∃ a, prim = [a] ∧ Answer e tr 0#32 a

/-- The state after `init` with these values. -/
def initResult (s : Rx) (cv29 : Byte) (a : Address) (v : InitVals) (evs : List Event) : Rx :=
  { s with
    trace := s.trace ++ evs
    addrs :=
      { s.addrs with
        primary := { a with reversed := cv29.getLsbD 0 }
        consist := consistOf v.cv19 v.cv20 }
    cfg := v.cfg cv29
    logon :=
      { s.logon with
        cidFront := (v.cv65297.setWidth 16 <<< 8) ||| v.cv65298.setWidth 16
        sessionFront := v.cv65299 } }

theorem init_eq (e : Env) (s : Rx) : ∃ (cv29 : Byte) (prim : List Byte) (v : InitVals)
    (evs : List Event), Answer e s.trace 28#32 cv29 ∧ PrimaryBytes e s.trace cv29 prim ∧
      v.Answers e s.trace ∧ (∀ ev ∈ evs, ev.isQuiet = true) ∧
      s.init e = (decodeAddress prim >>= fun a => .ok (initResult s cv29 a v evs)) := by
  unfold Rx.init
  obtain ⟨cv29, a29, h29, t29, q29⟩ := readCv_answer e s _ _ 28#32 (List.append_nil _).symm (by simp)
  rw [h29]
  dsimp only
  unfold Rx.initPrimary
  cases h5 : cv29.getLsbD 5
  · simp only [Bool.false_eq_true, if_false]
    obtain ⟨c1, a1, h1, t1, q1⟩ := readCv_answer e s _ _ 0#32 t29 q29
    rw [h1]
    dsimp only
    have hP : PrimaryBytes e s.trace cv29 [c1] := by
      unfold PrimaryBytes
      rw [h5, if_neg Bool.false_ne_true]
      exact ⟨c1, rfl, a1⟩
    cases hd : decodeAddress [c1] with
    | error f =>
      obtain ⟨v, hv, _⟩ := initRest_eq e s cv29
      exact ⟨cv29, [c1], v, _, a29, hP, hv, q1, by rw [hd]; rfl⟩
    | ok a =>
      obtain ⟨v, hv, hr⟩ := initRest_eq e { ((s.emit (.readCv 28#32 cv29)).emit (.readCv 0#32 c1)) with
        addrs := { s.addrs with primary := { a with reversed := cv29.getLsbD 0 } } } cv29
      rw [show Rx.trace { ((s.emit (.readCv 28#32 cv29)).emit (.readCv 0#32 c1)) with
        addrs := { s.addrs with primary := { a with reversed := cv29.getLsbD 0 } } } = _ from t1] at hv
      refine ⟨cv29, [c1], v, ([] ++ [.readCv 28#32 cv29] ++ [.readCv 0#32 c1]) ++ v.events e, a29, hP,
        hv.of_quiet q1, ?_, ?_⟩
      · intro ev hev
        rcases List.mem_append.mp hev with h | h
        · exact q1 ev h
        · exact v.events_quiet e ev h
      · rw [hd, ok_bind]
        show Except.ok (Rx.initRest e { ((s.emit (.readCv 28#32 cv29)).emit (.readCv 0#32 c1)) with
          addrs := { s.addrs with primary := { a with reversed := cv29.getLsbD 0 } } } cv29) = _
        rw [hr]
        simp [InitVals.result, initResult, Rx.emit]
  · simp only [if_true]
    obtain ⟨c17, a17, h17, t17, q17⟩ := readCv_answer e s _ _ 16#32 t29 q29
    rw [h17]
    dsimp only
    obtain ⟨c18, a18, h18, t18, q18⟩ := readCv_answer e s _ _ 17#32 t17 q17
    rw [h18]
    dsimp only
    have hP : PrimaryBytes e s.trace cv29 [c17, c18] := by
      unfold PrimaryBytes
      rw [if_pos h5]
      exact ⟨c17, c18, rfl, a17, a18⟩
    cases hd : decodeAddress [c17, c18] with
    | error f =>
      obtain ⟨v, hv, _⟩ := initRest_eq e s cv29
      exact ⟨cv29, [c17, c18], v, _, a29, hP, hv, q18, by rw [hd]; rfl⟩
    | ok a =>
      obtain ⟨v, hv, hr⟩ := initRest_eq e { (((s.emit (.readCv 28#32 cv29)).emit (.readCv 16#32 c17)).emit
        (.readCv 17#32 c18)) with
        addrs := { s.addrs with primary := { a with reversed := cv29.getLsbD 0 } } } cv29
      rw [show Rx.trace { (((s.emit (.readCv 28#32 cv29)).emit (.readCv 16#32 c17)).emit
        (.readCv 17#32 c18)) with
        addrs := { s.addrs with primary := { a with reversed := cv29.getLsbD 0 } } } = _ from t18] at hv
      refine ⟨cv29, [c17, c18], v, ([] ++ [.readCv 28#32 cv29] ++ [.readCv 16#32 c17] ++
        [.readCv 17#32 c18]) ++ v.events e, a29, hP, hv.of_quiet q18, ?_, ?_⟩
      · intro ev hev
        rcases List.mem_append.mp hev with h | h
        · exact q18 ev h
        · exact v.events_quiet e ev h
      · rw [hd, ok_bind]
        show Except.ok (Rx.initRest e { (((s.emit (.readCv 28#32 cv29)).emit (.readCv 16#32 c17)).emit
          (.readCv 17#32 c18)) with
          addrs := { s.addrs with primary := { a with reversed := cv29.getLsbD 0 } } } cv29) = _
        rw [hr]
        simp [InitVals.result, initResult, Rx.emit]

/-! ### Verifying and writing -/

/-- Calls made for CV access. -/
def Event.isCv : Event → Bool
  | .readCv _ _ | .highCurrentBiDi _ | .readCvByte _ _ _ | .readCvBit _ _ _ _ | .writeCvByte _ _ _
  | .writeCvBit _ _ _ _ | .asyncReadCvByte _ _ | .asyncReadCvBit _ _ _ | .asyncWriteCvByte _ _
  | .asyncWriteCvBit _ _ _ | .serviceAck => true
  | _ => false

theorem Event.isCv_of_quiet {ev : Event} (h : ev.isQuiet = true) : ev.isCv = true := by
  cases ev <;> first | rfl | cases h

/-- What verifying a byte does (lock aside). -/
def Rx.verifiedByte (e : Env) (s : Rx) (cv : BitVec 32) (byte : Byte) : Rx :=
  if e.asyncReadable then s.defer (.byte byte) (.asyncReadCvByte cv byte)
  else (s.emit (.readCvByte cv byte (e.readCvByte s.trace cv byte))).answerByte byte
    (e.readCvByte s.trace cv byte)

/-- What verifying a bit does (lock aside). -/
def Rx.verifiedBit (e : Env) (s : Rx) (cv : BitVec 32) (bit : Bool) (pos : BitVec 32) : Rx :=
  if e.asyncReadable then s.defer (.bit bit) (.asyncReadCvBit cv bit pos)
  else (s.emit (.readCvBit cv bit pos (e.readCvBit s.trace cv bit pos))).answerBit bit
    (e.readCvBit s.trace cv bit pos)

/-- What writing a byte does (lock and `init` aside). -/
def Rx.wroteByte (e : Env) (s : Rx) (cv : BitVec 32) (byte : Byte) : Rx :=
  if e.asyncWritable then s.defer (.byte byte) (.asyncWriteCvByte cv byte)
  else (s.emit (.writeCvByte cv byte (e.writeCvByte s.trace cv byte))).answerByte byte
    (e.writeCvByte s.trace cv byte)

/-- What writing a bit does (lock and `init` aside). -/
def Rx.wroteBit (e : Env) (s : Rx) (cv : BitVec 32) (bit : Bool) (pos : BitVec 32) : Rx :=
  if e.asyncWritable then s.defer (.bit bit) (.asyncWriteCvBit cv bit pos)
  else (s.emit (.writeCvBit cv bit pos (e.writeCvBit s.trace cv bit pos))).answerBit bit
    (e.writeCvBit s.trace cv bit pos)

theorem cvVerifyByte_eq (e : Env) (s : Rx) (cv : BitVec 32) (byte : Byte) :
    s.cvVerifyByte e cv byte = .ok (if s.cfg.cvsLocked then s else s.verifiedByte e cv byte) := by
  unfold Rx.cvVerifyByte Rx.verifiedByte
  rw [callbackByte_eq]
  cases s.cfg.cvsLocked <;> cases e.asyncReadable <;> rfl

theorem cvVerifyBit_eq (e : Env) (s : Rx) (cv : BitVec 32) (bit : Bool) (pos : BitVec 32) :
    s.cvVerifyBit e cv bit pos = .ok (if s.cfg.cvsLocked then s else s.verifiedBit e cv bit pos) := by
  unfold Rx.cvVerifyBit Rx.verifiedBit
  rw [callbackBit_eq]
  cases s.cfg.cvsLocked <;> cases e.asyncReadable <;> rfl

theorem cvWriteByte_eq (e : Env) (s : Rx) (cv : BitVec 32) (byte : Byte) :
    s.cvWriteByte e cv byte = if s.cfg.cvsLocked ∧ cv ≠ 14#32 then .ok s
      else (s.wroteByte e cv byte).initIfNeeded e cv := by
  unfold Rx.cvWriteByte Rx.cvWriteImplByte Rx.wroteByte Rx.writeCvByte
  dsimp only
  rw [callbackByte_eq]
  simp only [Bool.and_eq_true, bne_iff_ne]
  cases e.asyncWritable <;> rfl

theorem cvWriteBit_eq (e : Env) (s : Rx) (cv : BitVec 32) (bit : Bool) (pos : BitVec 32) :
    s.cvWriteBit e cv bit pos = if s.cfg.cvsLocked ∧ cv ≠ 14#32 then .ok s
      else (s.wroteBit e cv bit pos).initIfNeeded e cv := by
  unfold Rx.cvWriteBit Rx.cvWriteImplBit Rx.wroteBit Rx.writeCvBit
  dsimp only
  rw [callbackBit_eq]
  simp only [Bool.and_eq_true, bne_iff_ne]
  cases e.asyncWritable <;> rfl

/-- What the functions for CV access leave alone besides the fields of `ExecFrame`. -/
structure CvFrame (s s' : Rx) : Prop where
  exec : ExecFrame s s'
  last : s'.lastOwnCvPacket = s.lastOwnCvPacket
  count : s'.ownEqualCvPackets = s.ownEqualCvPackets
  indexReg : s'.indexReg = s.indexReg
  mode : s'.mode = s.mode
  man : s'.man = s.man
  tosBackoff : s'.tosBackoff = s.tosBackoff
  tos : s'.q.tos = s.q.tos
  adds : Adds (fun ev => ev.isCv = true) s s'

theorem CvFrame.refl (s : Rx) : CvFrame s s := ⟨.refl s, rfl, rfl, rfl, rfl, rfl, rfl, rfl, .refl s⟩

theorem CvFrame.trans {a b c : Rx} (h : CvFrame a b) (g : CvFrame b c) : CvFrame a c :=
  ⟨h.exec.trans g.exec, g.last.trans h.last, g.count.trans h.count, g.indexReg.trans h.indexReg,
    g.mode.trans h.mode, g.man.trans h.man, g.tosBackoff.trans h.tosBackoff, g.tos.trans h.tos,
    h.adds.trans g.adds⟩

theorem CvFrame.emit (s : Rx) (ev : Event) (h : ev.isCv = true) : CvFrame s (s.emit ev) :=
  ⟨frame_emit s ev, rfl, rfl, rfl, rfl, rfl, rfl, rfl, .emit s ev h⟩

theorem CvFrame.defer (s : Rx) (c : Callback) (ev : Event) (h : ev.isCv = true) :
    CvFrame s (s.defer c ev) :=
  ⟨frame_defer s c ev, rfl, rfl, rfl, rfl, rfl, rfl, rfl, ⟨[ev], rfl, by simpa using h⟩⟩

theorem CvFrame.answerByte (s : Rx) (a b : Byte) : CvFrame s (s.answerByte a b) := by
  have hf := (frame_callbackByte s a b).out _ (callbackByte_eq s a b)
  unfold Rx.answerByte at hf ⊢
  split
  · split
    · exact .emit s _ rfl
    · exact .refl s
  · rename_i h
    rw [if_neg h] at hf
    exact ⟨hf, rfl, rfl, rfl, rfl, rfl, rfl, rfl, .of_eq rfl⟩

theorem CvFrame.answerBit (s : Rx) (a b : Bool) : CvFrame s (s.answerBit a b) := by
  have hf := (frame_callbackBit s a b).out _ (callbackBit_eq s a b)
  unfold Rx.answerBit at hf ⊢
  split
  · split
    · exact .emit s _ rfl
    · exact .refl s
  · rename_i h
    rw [if_neg h] at hf
    exact ⟨hf, rfl, rfl, rfl, rfl, rfl, rfl, rfl, .of_eq rfl⟩

theorem CvFrame.verifiedByte (e : Env) (s : Rx) (cv : BitVec 32) (b : Byte) :
    CvFrame s (s.verifiedByte e cv b) := by
  unfold Rx.verifiedByte
  split
  · exact .defer _ _ _ rfl
  · exact (CvFrame.emit s _ rfl).trans (.answerByte _ _ _)

theorem CvFrame.verifiedBit (e : Env) (s : Rx) (cv : BitVec 32) (b : Bool) (p : BitVec 32) :
    CvFrame s (s.verifiedBit e cv b p) := by
  unfold Rx.verifiedBit
  split
  · exact .defer _ _ _ rfl
  · exact (CvFrame.emit s _ rfl).trans (.answerBit _ _ _)

theorem CvFrame.wroteByte (e : Env) (s : Rx) (cv : BitVec 32) (b : Byte) :
    CvFrame s (s.wroteByte e cv b) := by
  unfold Rx.wroteByte
  split
  · exact .defer _ _ _ rfl
  · exact (CvFrame.emit s _ rfl).trans (.answerByte _ _ _)

theorem CvFrame.wroteBit (e : Env) (s : Rx) (cv : BitVec 32) (b : Bool) (p : BitVec 32) :
    CvFrame s (s.wroteBit e cv b p) := by
  unfold Rx.wroteBit
  split
  · exact .defer _ _ _ rfl
  · exact (CvFrame.emit s _ rfl).trans (.answerBit _ _ _)

theorem init_ok (e : Env) (s s' : Rx) (h : s.init e = .ok s') : ∃ (cv29 : Byte) (prim : List Byte)
    (a : Address) (v : InitVals) (evs : List Event), Answer e s.trace 28#32 cv29 ∧
      PrimaryBytes e s.trace cv29 prim ∧ decodeAddress prim = .ok a ∧
      v.Answers e s.trace ∧ (∀ ev ∈ evs, ev.isQuiet = true) ∧ s' = initResult s cv29 a v evs := by
  obtain ⟨cv29, prim, v, evs, h1, h2, h3, h4, h5⟩ := init_eq e s
  rw [h5, bind_eq_ok] at h
  obtain ⟨a, ha, h⟩ := h
  cases h
  exact ⟨cv29, prim, a, v, evs, h1, h2, ha, h3, h4, rfl⟩

theorem cv_init (e : Env) (s : Rx) : Post (s.init e) (CvFrame s) := by
  refine ⟨fun s' h => ?_⟩
  have hf := (frame_init e s).out _ h
  obtain ⟨cv29, prim, a, v, evs, -, -, -, -, hq, rfl⟩ := init_ok e s s' h
  exact ⟨hf, rfl, rfl, rfl, rfl, rfl, rfl, rfl, ⟨evs, rfl, fun ev hev => Event.isCv_of_quiet (hq ev hev)⟩⟩

theorem cv_initIfNeeded (e : Env) (s : Rx) (cv : BitVec 32) :
    Post (s.initIfNeeded e cv) (CvFrame s) := by
  unfold Rx.initIfNeeded
  split
  · exact cv_init e s
  · exact Post.ok (.refl s)

theorem cv_verifyByte (e : Env) (s : Rx) (cv : BitVec 32) (b : Byte) :
    Post (s.cvVerifyByte e cv b) (CvFrame s) := by
  rw [cvVerifyByte_eq]
  refine Post.ok ?_
  split
  · exact .refl s
  · exact .verifiedByte ..

theorem cv_verifyBit (e : Env) (s : Rx) (cv : BitVec 32) (b : Bool) (p : BitVec 32) :
    Post (s.cvVerifyBit e cv b p) (CvFrame s) := by
  rw [cvVerifyBit_eq]
  refine Post.ok ?_
  split
  · exact .refl s
  · exact .verifiedBit ..

theorem cv_writeByte (e : Env) (s : Rx) (cv : BitVec 32) (b : Byte) :
    Post (s.cvWriteByte e cv b) (CvFrame s) := by
  rw [cvWriteByte_eq]
  split
  · exact Post.ok (.refl s)
  · exact (cv_initIfNeeded ..).mono fun a ha => (CvFrame.wroteByte ..).trans ha

theorem cv_writeBit (e : Env) (s : Rx) (cv : BitVec 32) (b : Bool) (p : BitVec 32) :
    Post (s.cvWriteBit e cv b p) (CvFrame s) := by
  rw [cvWriteBit_eq]
  split
  · exact Post.ok (.refl s)
  · exact (cv_initIfNeeded ..).mono fun a ha => (CvFrame.wroteBit ..).trans ha

/-- Prove `Post f (CvFrame s)` goals by going through the program. -/
macro "cv_auto" : tactic =>
  `(tactic| repeat' (first
    | exact cv_verifyByte ..
    | exact cv_verifyBit ..
    | exact cv_writeByte ..
    | exact cv_writeBit ..
    | exact Post.ok (CvFrame.refl _)
    | exact Post.pure (CvFrame.refl _)
    | exact Post.error
    | (refine Post.bind_any fun _ => ?_)
    | dsimp only
    | split))

theorem cv_longBody (e : Env) (s : Rx) (bs : List Byte) : Post (s.cvLongBody e bs) (CvFrame s) := by
  unfold Rx.cvLongBody
  cv_auto

theorem cv_shortBody (e : Env) (s : Rx) (bs : List Byte) : Post (s.cvShortBody e bs) (CvFrame s) := by
  unfold Rx.cvShortBody
  refine Post.bind_any fun b0 => ?_
  dsimp only
  split
  · cv_auto
  split
  · cv_auto
  split
  · split
    · cv_auto
    · refine Post.bind_any fun b1 => ?_
      refine Post.bind (cv_writeByte ..) fun s1 h1 => ?_
      refine Post.bind_any fun b2 => ?_
      refine Post.bind (cv_writeByte ..) fun s2 h2 => ?_
      exact (cv_writeBit ..).mono fun s3 h3 => (h1.trans h2).trans h3
  split
  · split
    · cv_auto
    · refine Post.bind_any fun b1 => ?_
      refine Post.bind (cv_writeByte ..) fun s1 h1 => ?_
      refine Post.bind_any fun b2 => ?_
      exact (cv_writeByte ..).mono fun s2 h2 => h1.trans h2
  · cv_auto

/-- `registerMode` changes the page register only. -/
theorem cv_registerMode (e : Env) (s : Rx) (bs : List Byte) : Post (s.registerMode e bs)
    (fun s' => CvFrame s s' ∨ ∃ b, s' = { s with indexReg := b }) := by
  unfold Rx.registerMode
  refine Post.bind_any fun b0 => ?_
  dsimp only
  refine Post.bind_any fun b1 => ?_
  have key : ∀ (w : Bool) (i : BitVec 32), Post
      (if w = true then s.cvWriteByte e i b1 else s.cvVerifyByte e i b1)
      (fun s' => CvFrame s s' ∨ ∃ b, s' = { s with indexReg := b }) := by
    intro w i
    split
    · exact (cv_writeByte ..).mono fun _ h => .inl h
    · exact (cv_verifyByte ..).mono fun _ h => .inl h
  split
  · exact key _ _
  split
  · exact key _ _
  split
  · split
    · exact Post.ok (.inr ⟨b1, rfl⟩)
    split
    · exact Post.ok (.inl (.emit s _ rfl))
    · exact Post.ok (.inl (.refl s))
  · exact key _ _

end Dcc
