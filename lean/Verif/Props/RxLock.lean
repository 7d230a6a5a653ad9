import Verif.Lemmas.RxRegister
import Verif.Spec.Memory
/-! The decoder lock: C43. -/
namespace Dcc
open Spec

/-- Among these calls there is no access to a CV other than writing CV15. -/
def Spec.OnlyUnlocks (calls : List Event) : Prop :=
  ∀ ka ∈ accesses calls, ka.1 = .write ∧ ka.2.cv = 14

/-- The trace grew by calls that access at most CV15. -/
def Locked (s s' : Rx) : Prop := ∃ calls, s'.trace = s.trace ++ calls ∧ OnlyUnlocks calls

theorem Locked.refl (s : Rx) : Locked s s := ⟨[], by simp, by simp [OnlyUnlocks, accesses]⟩

theorem Locked.of_eq {s s' : Rx} (h : s'.trace = s.trace) : Locked s s' :=
  ⟨[], by simp [h], by simp [OnlyUnlocks, accesses]⟩

theorem Locked.of_adds {P : Event → Prop} {s s' : Rx} (h : Adds P s s')
    (hp : ∀ ev, P ev → accessOf ev = none) : Locked s s' := by
  obtain ⟨evs, h1, h2⟩ := h
  refine ⟨evs, h1, ?_⟩
  have : accesses evs = [] := by
    unfold accesses
    rw [List.filterMap_eq_nil_iff]
    exact fun ev hev => hp ev (h2 ev hev)
  intro ka hka
  rw [this] at hka; cases hka

theorem quiet_no_access (ev : Event) (h : ev.isQuiet = true) : accessOf ev = none := by
  cases ev <;> first | rfl | cases h

theorem transmit_no_access (ev : Event) (h : ∃ bs, ev = .transmitBiDi bs) : accessOf ev = none := by
  obtain ⟨bs, rfl⟩ := h; rfl

theorem Locked.of_calls {e : Env} {s s' : Rx} {tr : List Event} {sv : Bool} {k : Kind} {a : Access}
    (hpos : ∀ cv b pos, a = .bit cv b pos → pos < 8)
    (h : Calls s s' (actionCalls e tr sv true (some (k, a)))) : Locked s s' := by
  obtain ⟨quiet, h1, h2, -⟩ := h
  refine ⟨_, by rw [h1, List.append_assoc], ?_⟩
  intro ka hka
  rw [accesses_append, accesses_quiet h2, List.append_nil] at hka
  simp only [actionCalls] at hka
  split at hka
  · rename_i hp
    simp only [permitted, Bool.not_true, Bool.false_or, Bool.and_eq_true, decide_eq_true_eq] at hp
    rw [accesses_accessCalls _ _ _ _ _ (by omega) hpos] at hka
    simp at hka
    rw [hka]; exact hp
  · cases hka

theorem locked_writeByte (e : Env) (s : Rx) (cv : BitVec 32) (b : Byte) (hl : s.cfg.cvsLocked = true)
    (hcv : cv ≠ 14#32) : s.cvWriteByte e cv b = .ok s := by
  rw [cvWriteByte_eq, if_pos ⟨hl, hcv⟩]

theorem locked_writeBit (e : Env) (s : Rx) (cv : BitVec 32) (b : Bool) (pos : BitVec 32)
    (hl : s.cfg.cvsLocked = true) (hcv : cv ≠ 14#32) : s.cvWriteBit e cv b pos = .ok s := by
  rw [cvWriteBit_eq, if_pos ⟨hl, hcv⟩]

theorem locked_verifyByte (e : Env) (s : Rx) (cv : BitVec 32) (b : Byte)
    (hl : s.cfg.cvsLocked = true) : s.cvVerifyByte e cv b = .ok s := by
  rw [cvVerifyByte_eq, hl]; rfl

theorem locked_write14 (e : Env) (s : Rx) (b : Byte) (hl : s.cfg.cvsLocked = true) :
    Post (s.cvWriteByte e 14#32 b) (Locked s) := by
  have := calls_writeByte e s 14 (by omega) b
  rw [hl] at this
  exact this.mono fun s' h => .of_calls (fun _ _ _ h => by cases h) h

theorem locked_shortBody (e : Env) (s : Rx) (bs : List Byte) (hl : s.cfg.cvsLocked = true) :
    Post (s.cvShortBody e bs) (Locked s) := by
  unfold Rx.cvShortBody
  refine Post.bind_any fun b0 => ?_
  dsimp only
  split
  · exact Post.bind_any fun b => by
      rw [locked_writeByte e s _ _ hl (by decide)]; exact Post.ok (.refl s)
  split
  · exact Post.bind_any fun b => by
      rw [locked_writeByte e s _ _ hl (by decide)]; exact Post.ok (.refl s)
  split
  · split
    · exact Post.ok (.refl s)
    · refine Post.bind_any fun b1 => ?_
      rw [locked_writeByte e s _ _ hl (by decide), ok_bind]
      refine Post.bind_any fun b2 => ?_
      rw [locked_writeByte e s _ _ hl (by decide), ok_bind, locked_writeBit e s _ _ _ hl (by decide)]
      exact Post.ok (.refl s)
  split
  · split
    · exact Post.ok (.refl s)
    · refine Post.bind_any fun b1 => ?_
      rw [locked_writeByte e s _ _ hl (by decide), ok_bind]
      refine Post.bind_any fun b2 => ?_
      rw [locked_writeByte e s _ _ hl (by decide)]
      exact Post.ok (.refl s)
  · exact Post.ok (.refl s)

theorem locked_longBody (e : Env) (s : Rx) (bs : List Byte) (hl : s.cfg.cvsLocked = true) :
    Post (s.cvLongBody e bs) (Locked s) := by
  by_cases h3 : 3 ≤ bs.length
  · refine (calls_longBody e s bs h3).mono fun s' h => ?_
    rw [hl] at h
    unfold longAction at h
    split at h
    · rename_i a hq
      obtain ⟨hcv, hpos⟩ := longRequest_range hq
      exact .of_calls hpos h
    · rename_i cv b hq
      obtain ⟨hcv, hpos⟩ := longRequest_range hq
      split at h
      · exact .of_calls (fun _ _ _ h => by cases h) h
      split at h
      · obtain ⟨q, h1, h2, h3⟩ := h
        rw [h3 rfl] at h1
        exact .of_eq (by simpa [actionCalls] using h1)
      · exact .of_calls (fun _ _ _ h => by cases h) h
    · rename_i cv b pos hq
      obtain ⟨hcv, hpos⟩ := longRequest_range hq
      split at h
      · exact .of_calls hpos h
      · obtain ⟨q, h1, h2, h3⟩ := h
        rw [h3 rfl] at h1
        exact .of_eq (by simpa [actionCalls] using h1)
    · obtain ⟨q, h1, h2, h3⟩ := h
      rw [h3 rfl] at h1
      exact .of_eq (by simpa [actionCalls] using h1)
  · refine ⟨fun s' h => ?_⟩
    obtain _ | ⟨b0, _ | ⟨b1, _ | ⟨b2, rest⟩⟩⟩ := bs
    · cases h
    · cases h
    · unfold Rx.cvLongBody at h
      have hn : byteAt ([] : List Byte) 0 = .error .oob := rfl
      simp only [byteAt_zero, byteAt_succ, ok_bind, hn, error_bind, pure_eq_ok] at h
      repeat' split at h
      all_goals first | (cases h; exact .refl s) | cases h
    · simp at h3

theorem locked_cvLong (e : Env) (s : Rx) (addr : BitVec 16) (p : Packet) (bs : List Byte)
    (hl : s.cfg.cvsLocked = true) : Post (s.cvLong e addr p bs) (Locked s) := by
  unfold Rx.cvLong
  split
  · exact Post.ok (.refl s)
  dsimp only
  obtain ⟨f1, f2, f3, f4⟩ := count_fields s p
  split
  · exact Post.ok (.of_eq f1)
  · refine (locked_longBody e _ bs (by rw [f3]; exact hl)).mono fun s' h => ?_
    obtain ⟨c, h1, h2⟩ := h
    exact ⟨c, by rw [h1, f1], h2⟩

theorem locked_cvShort (e : Env) (s : Rx) (addr : BitVec 16) (p : Packet) (bs : List Byte)
    (hl : s.cfg.cvsLocked = true) : Post (s.cvShort e addr p bs) (Locked s) := by
  unfold Rx.cvShort
  split
  · exact Post.ok (.refl s)
  obtain ⟨f1, f2, f3, f4⟩ := count_fields s p
  refine (locked_shortBody e _ bs (by rw [f3]; exact hl)).mono fun s' h => ?_
  obtain ⟨c, h1, h2⟩ := h
  exact ⟨c, by rw [h1, f1], h2⟩

theorem locked_register (e : Env) (s : Rx) (b0 v c : Byte) (hl : s.cfg.cvsLocked = true) :
    Post (s.registerMode e [b0, v, c]) (Locked s) := by
  have hw : ∀ cv, Post (s.cvWriteByte e cv v) (Locked s) := by
    intro cv
    by_cases hcv : cv = 14#32
    · rw [hcv]; exact locked_write14 e s v hl
    · rw [locked_writeByte e s cv v hl hcv]; exact Post.ok (.refl s)
  have hv : ∀ cv, Post (s.cvVerifyByte e cv v) (Locked s) := by
    intro cv
    rw [locked_verifyByte e s cv v hl]; exact Post.ok (.refl s)
  rw [registerMode_eq]
  repeat' split
  all_goals first
    | exact hw _
    | exact hv _
    | exact Post.ok (.refl s)
    | exact Post.ok (.of_eq rfl)
    | exact Post.ok ⟨[.serviceAck], rfl, by simp [OnlyUnlocks, accesses, accessOf, writeOf, verifyOf]⟩

theorem prepared_locked {e : Env} {s s2 : Rx} {now : Int} {stores : List Event}
    (ht : (s.prepared e now).trace = s.trace ++ stores) (hs : LogonStores s stores)
    (h : Locked (s.prepared e now) s2) : ∃ stores calls, LogonStores s stores ∧
      s2.trace = s.trace ++ stores ++ calls ∧ OnlyUnlocks calls := by
  obtain ⟨c, h1, h2⟩ := h
  exact ⟨stores, c, hs, by rw [h1, ht], h2⟩

theorem locked_execute (e : Env) (s s' : Rx) (hr : Reachable e s) (hl : s.cfg.cvsLocked = true)
    (now : Int) (rand : Nat) (ret : Bool) (h : s.execute e now rand = .ok (s', ret)) :
    ∃ stores calls, LogonStores s stores ∧ s'.trace = s.trace ++ stores ++ calls ∧
      OnlyUnlocks calls := by
  obtain ⟨stores, ht, hs⟩ := prepared_trace e s now
  obtain ⟨m1, m2, m3⟩ := prepared_modes e s now
  have hl' : (s.prepared e now).cfg.cvsLocked = true := by rw [m2]; exact hl
  have hno : Locked (s.prepared e now) (s.prepared e now) := .refl _
  cases exec_cases e s s' now rand ret hr.lengths h with
  | idle h hs _ =>
    exact ⟨[], [], ⟨by simp, by simp, fun _ => rfl⟩, by rw [hs]; simp, by simp [OnlyUnlocks, accesses]⟩
  | foreign q rest hp hd hm' hfd hs' _ => rw [hs']; exact prepared_locked ht hs hno
  | operations p rest n s2 hpe hd hm' hn' ha h hs' _ =>
    rw [hs']
    suffices hx : Locked (s.prepared e now) s2 from prepared_locked ht hs hx
    obtain ⟨b, hb, hi⟩ := instruction_cases e _ s2 _ p _ rand h
    cases hi with
    | enter _ hb h =>
      exact ⟨[.serviceModeHook true], by rw [h]; rfl,
        by simp [OnlyUnlocks, accesses, accessOf, writeOf, verifyOf]⟩
    | control hd' _ h => rw [h]; exact hno
    | consist hd' h =>
      unfold Rx.consistControl at h
      simp only [bind_eq_ok] at h
      obtain ⟨x, -, y, -, h⟩ := h
      rw [locked_writeByte e _ _ _ hl' (by decide)] at h
      cases h; exact hno
    | drives hd' h =>
      obtain ⟨evs, m, rfl, hq⟩ := h
      refine Locked.of_adds (P := fun ev => ev.locoAddr = some _) ⟨evs, rfl, hq⟩ fun ev hev => ?_
      cases ev <;> first | (cases hev; done) | rfl
    | searches hd' _ _ h => obtain ⟨b, q, rfl⟩ := h; exact .of_eq rfl
    | cvShort hd' h => exact (locked_cvShort e _ _ _ _ hl').out _ h
    | cvLong hd' h => exact (locked_cvLong e _ _ _ _ hl').out _ h
  | service p rest s2 hpe hd hm h hs' =>
    rw [hs']
    suffices hx : Locked (s.prepared e now) s2 from prepared_locked ht hs hx
    cases (service_cases e _ s2 p ret h).1 with
    | ignored h1 hs => rw [hs]; exact hno
    | leave b r hb h0 h7 hs =>
      exact ⟨[.serviceModeHook false], by rw [hs]; rfl,
        by simp [OnlyUnlocks, accesses, accessOf, writeOf, verifyOf]⟩
    | direct b r hb h7 hl h => exact (locked_cvLong e _ _ _ _ hl').out _ h
    | register b r hb h7 hl h =>
      obtain ⟨v, c, rfl⟩ : ∃ v c, r = [v, c] := by
        rw [hb] at hl
        obtain _ | ⟨v, _ | ⟨c, _ | _⟩⟩ := r <;> simp at hl
        exact ⟨v, c, rfl⟩
      rw [hb] at h
      exact (locked_register e _ b v c hl').out _ h

/-- **C43** While the decoder is locked, no call of any public method verifies or writes a CV except
a write to CV15, in operations and service mode, for every packet; the stores of an automatic logon
are missing (they are not prevented, see below).  That the decoder is locked exactly if CV15 and CV16
are non-zero and different is part of C45. -/
theorem C43_lock_partial (e : Env) (s s' : Rx) (hr : Reachable e s) (hl : s.cfg.cvsLocked = true)
    (op : RxOp) (h : s.step e op = .ok s') :
    ∃ stores calls, LogonStores s stores ∧ s'.trace = s.trace ++ stores ++ calls ∧
      OnlyUnlocks calls := by
  have other : Locked s s' → ∃ stores calls, LogonStores s stores ∧
      s'.trace = s.trace ++ stores ++ calls ∧ OnlyUnlocks calls := by
    rintro ⟨c, h1, h2⟩
    exact ⟨[], c, ⟨by simp, by simp, fun _ => rfl⟩, by rw [h1, List.append_nil], h2⟩
  cases op with
  | init =>
    obtain ⟨_, _, _, _, evs, _, _, _, _, hq, rfl⟩ := init_ok e s s' h
    exact other (.of_adds (P := fun ev => ev.isQuiet = true) ⟨evs, rfl, hq⟩ quiet_no_access)
  | enable =>
    simp only [Rx.step, Rx.enable, Except.ok.injEq] at h
    subst h
    exact other (by split <;> exact .of_eq rfl)
  | disable =>
    simp only [Rx.step, Rx.disable, Except.ok.injEq] at h
    subst h
    exact other (by split <;> exact .of_eq rfl)
  | receive t r =>
    exact other (.of_adds ((receive_frame e s hr.recvInv.room t r).out _ h).adds quiet_no_access)
  | execute now rand =>
    simp only [Rx.step, bind_eq_ok] at h
    obtain ⟨⟨s2, ret⟩, h, h2⟩ := h
    cases h2
    exact locked_execute e s s2 hr hl now rand ret h
  | datagram ds =>
    obtain ⟨q, b, rfl⟩ := datagram_eq e s s' ds h
    exact other (.of_eq rfl)
  | biDiChannel1 =>
    simp only [Rx.step, Except.ok.injEq] at h
    obtain ⟨q, evs, h1, h2⟩ := channel1_adds s
    exact other (.of_adds (P := fun ev => ∃ bs, ev = .transmitBiDi bs) ⟨evs, by rw [← h, h1], h2⟩
      transmit_no_access)
  | biDiChannel2 =>
    obtain ⟨q, evs, rfl, h2⟩ := (channel2_adds s).out _ h
    exact other (.of_adds (P := fun ev => ∃ bs, ev = .transmitBiDi bs) ⟨evs, rfl, h2⟩
      transmit_no_access)
  | callbackByte i v =>
    simp only [Rx.step] at h
    split at h
    · rw [callbackByte_eq] at h
      cases h
      refine other ⟨_, answerByte_trace .., ?_⟩
      simp [OnlyUnlocks, accesses_ack]
    · cases h; exact other (.refl s)
  | callbackBit i v =>
    simp only [Rx.step] at h
    split at h
    · rw [callbackBit_eq] at h
      cases h
      refine other ⟨_, answerBit_trace .., ?_⟩
      simp [OnlyUnlocks, accesses_ack]
    · cases h; exact other (.refl s)

/-- CVs of a locked decoder (CV15 = 1, CV16 = 2) with automatic logon enabled. -/
def Spec.lockedCvs (cv : BitVec 32) : Byte :=
  if cv = 14#32 then 1#8
  else if cv = 15#32 then 2#8
  else if cv = 27#32 then 0x83#8
  else exampleCvs cv

/-- A locked decoder hears a CV packet writing CV3 twice and one writing CV15, then the packets
wait for execution. -/
def Spec.lockedSession : List RxOp :=
  .init :: hears [3#8, 0xEC#8, 2#8, 9#8, 0xE4#8] ++ hears [3#8, 0xEC#8, 2#8, 9#8, 0xE4#8] ++
    hears [3#8, 0xEC#8, 14#8, 9#8, 0xE8#8] ++ hears [3#8, 0xEC#8, 14#8, 9#8, 0xE8#8]

/-- The hypotheses hold in a run; the decoder refuses to write CV3 and writes CV15. -/
example : holdsAfter (({} : Rx).run (memEnv lockedCvs) lockedSession) (fun s =>
    decide (s.cfg.cvsLocked = true) &&
    holdsAfter (s.run (memEnv lockedCvs) (List.replicate 4 (.execute 0 0))) (fun s' =>
      decide (accesses s'.trace = [(.write, .byte 14 9#8)]))) = true := by
  decide +kernel

/-- A locked decoder hears a LOGON_ENABLE of its former session and a drive command. -/
def Spec.lockedLogon : List RxOp :=
  .init :: hears [254#8, 0xFC#8, 0#8, 0#8, 1#8, 0x03#8] ++ hears [3#8, 0x60#8, 0x63#8]

/-- **C43** is false: a decoder whose CV15 and CV16 are 1 and 2 writes CV19, CV20 and further CVs when
it executes a drive command after a LOGON_ENABLE. -/
theorem C43_lock_false : ∃ (s s' : Rx) (now : Int) (rand : Nat),
    ({} : Rx).run (memEnv lockedCvs) lockedLogon = .ok s ∧ s.cfg.cvsLocked = true ∧
    s.step (memEnv lockedCvs) (.execute now rand) = .ok s' ∧
    accesses (s'.trace.drop s.trace.length) =
      [(.write, .byte 18 0#8), (.write, .byte 19 0#8), (.write, .byte 65296 0#8),
       (.write, .byte 65297 0#8), (.write, .byte 65298 1#8), (.write, .byte 65299 0#8),
       (.write, .byte 65300 0#8)] := by
  have h : holdsAfter (({} : Rx).run (memEnv lockedCvs) lockedLogon) (fun s =>
      s.cfg.cvsLocked && holdsAfter (s.step (memEnv lockedCvs) (.execute 0 0)) (fun s' =>
      decide (accesses (s'.trace.drop s.trace.length) =
      [(.write, .byte 18 0#8), (.write, .byte 19 0#8), (.write, .byte 65296 0#8),
       (.write, .byte 65297 0#8), (.write, .byte 65298 1#8), (.write, .byte 65299 0#8),
       (.write, .byte 65300 0#8)]))) = true := by decide +kernel
  obtain ⟨s, h1, h2⟩ := holdsAfter_ok h
  rw [Bool.and_eq_true] at h2
  obtain ⟨s', h3, h4⟩ := holdsAfter_ok h2.2
  exact ⟨s, s', 0, 0, h1, h2.1, h3, of_decide_eq_true h4⟩

end Dcc
