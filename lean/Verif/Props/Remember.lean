import Verif.Props.Switches
/-! C130: the command station and the session a decoder remembers are the ones in its CVs. -/
namespace Dcc
open Spec

/-- The command station and the session remembered are the ones in CV65297 to CV65299. -/
structure Spec.Remembers (c : BitVec 32 → Byte) (s : Rx) : Prop where
  cid : s.logon.cidFront.toNat = (c 65296#32).toNat * 256 + (c 65297#32).toNat
  session : s.logon.sessionFront = c 65298#32

/-- The CVs they are kept in. -/
def stationCvs : List (BitVec 32) := [65296#32, 65297#32, 65298#32]

/-- Another CV. -/
abbrev Outside (cv : BitVec 32) : Prop := cv ∉ stationCvs

def station (s : Rx) : BitVec 16 × Byte := (s.logon.cidFront, s.logon.sessionFront)

theorem Spec.Remembers.congr {c c' : BitVec 32 → Byte} {s s' : Rx} (h : Remembers c s)
    (hc : ∀ cv ∈ stationCvs, c' cv = c cv) (hs : station s' = station s) : Remembers c' s' := by
  have h1 : s'.logon.cidFront = s.logon.cidFront := congrArg Prod.fst hs
  have h2 : s'.logon.sessionFront = s.logon.sessionFront := congrArg Prod.snd hs
  refine ⟨?_, ?_⟩
  · rw [h1, hc _ (by decide), hc _ (by decide)]; exact h.cid
  · rw [h2, hc _ (by decide)]; exact h.session

theorem concat_nat (a b : Byte) : (a.setWidth 16 <<< 8 ||| b.setWidth 16).toNat = a.toNat * 256 + b.toNat := by
  have e0 := a.isLt
  have e1 := b.isLt
  rw [BitVec.toNat_or, BitVec.toNat_shiftLeft, BitVec.toNat_setWidth, BitVec.toNat_setWidth,
    Nat.mod_eq_of_lt (by omega : a.toNat < 2 ^ 16), Nat.mod_eq_of_lt (by omega : b.toNat < 2 ^ 16),
    Nat.shiftLeft_eq, Nat.mod_eq_of_lt (by omega), Nat.mul_comm a.toNat,
    ← Nat.two_pow_add_eq_or_of_lt e1]

theorem init_remembers {e : Env} {m : BitVec 32 → Byte} (hm : MemoryLike e m) {s s' : Rx} (h : s.init e = .ok s') :
    Remembers (mem m s'.trace) s' := by
  rw [(init_reflects hm h).2]
  obtain ⟨cv29, prim, a, v, evs, -, -, -, hv, -, rfl⟩ := init_ok e s s' h
  refine ⟨?_, ?_⟩
  · rw [← hv.cv65297.mem hm, ← hv.cv65298.mem hm]; exact concat_nat _ _
  · exact hv.cv65299.mem hm

theorem cvAddr_outside (a b : Byte) : Outside (cvAddrOf a b) := by
  have h : (cvAddrOf a b).getLsbD 15 = false := by simp [cvAddrOf]
  intro hm
  simp only [stationCvs, List.mem_cons, List.not_mem_nil, or_false] at hm
  rcases hm with hm | hm | hm <;> rw [hm] at h <;> exact absurd h (by decide)

theorem register_outside (i b : Byte) : Outside (i.setWidth 32 * 4#32 - (4#32 - (b &&& 7#8).setWidth 32)) := by
  have h : ∀ b : Byte, (b &&& 7#8).setWidth 32 = (b.setWidth 3).setWidth 32 := by decide +kernel
  have key : ∀ (r : BitVec 3) (i : Byte), Outside (i.setWidth 32 * 4#32 - (4#32 - r.setWidth 32)) := by decide +kernel
  rw [h]
  exact key _ _

theorem low_outside : ∀ b : Byte, Outside ((b &&& 7#8).setWidth 32) := by decide +kernel

theorem answerByte_station (s : Rx) (a b : Byte) : station (s.answerByte a b) = station s := by
  unfold Rx.answerByte
  repeat' split
  all_goals rfl

theorem answerBit_station (s : Rx) (a b : Bool) : station (s.answerBit a b) = station s := by
  unfold Rx.answerBit
  repeat' split
  all_goals rfl

/-- Station and session still are the ones in the CVs. -/
structure Recalls (m : BitVec 32 → Byte) (s s' : Rx) : Prop where
  out : Remembers (mem m s.trace) s → Remembers (mem m s'.trace) s'

theorem Recalls.refl (m : BitVec 32 → Byte) (s : Rx) : Recalls m s s := ⟨id⟩

theorem Recalls.trans {m : BitVec 32 → Byte} {a b c : Rx} (h : Recalls m a b) (g : Recalls m b c) :
    Recalls m a c := ⟨fun x => g.out (h.out x)⟩

theorem Recalls.of_same {m : BitVec 32 → Byte} {s s' : Rx} (hf : station s' = station s)
    (ht : Adds (fun ev => ev.stores = false) s s') : Recalls m s s' := by
  refine ⟨fun h => ?_⟩
  obtain ⟨evs, h1, h2⟩ := ht
  rw [h1, mem_append_quiet _ _ _ h2]
  exact h.congr (fun _ _ => rfl) hf

theorem recalls_answerByte (m : BitVec 32 → Byte) (s : Rx) (a b : Byte) :
    Recalls m s (s.answerByte a b) :=
  .of_same (answerByte_station s a b) ⟨_, answerByte_trace s a b, stores_ack _ _⟩

theorem recalls_answerBit (m : BitVec 32 → Byte) (s : Rx) (a b : Bool) :
    Recalls m s (s.answerBit a b) :=
  .of_same (answerBit_station s a b) ⟨_, answerBit_trace s a b, stores_ack _ _⟩

theorem recalls_emit (m : BitVec 32 → Byte) (s : Rx) (ev : Event) (h : ev.stores = false) :
    Recalls m s (s.emit ev) := .of_same rfl (.emit s ev h)

theorem recalls_verifyByte (e : Env) (m : BitVec 32 → Byte) (s : Rx) (cv : BitVec 32) (b : Byte) :
    Post (s.cvVerifyByte e cv b) (Recalls m s) := by
  rw [cvVerifyByte_eq]
  refine Post.ok ?_
  split
  · exact .refl m s
  · unfold Rx.verifiedByte
    split
    · exact .of_same rfl ⟨[_], rfl, by simp [Event.stores]⟩
    · exact (recalls_emit m s _ rfl).trans (recalls_answerByte ..)

theorem recalls_verifyBit (e : Env) (m : BitVec 32 → Byte) (s : Rx) (cv : BitVec 32) (b : Bool)
    (p : BitVec 32) : Post (s.cvVerifyBit e cv b p) (Recalls m s) := by
  rw [cvVerifyBit_eq]
  refine Post.ok ?_
  split
  · exact .refl m s
  · unfold Rx.verifiedBit
    split
    · exact .of_same rfl ⟨[_], rfl, by simp [Event.stores]⟩
    · exact (recalls_emit m s _ rfl).trans (recalls_answerBit ..)

theorem recalls_writeByte {e : Env} {m : BitVec 32 → Byte} (hm : MemoryLike e m) (s : Rx)
    (cv : BitVec 32) (b : Byte) (hcv : Outside cv) : Post (s.cvWriteByte e cv b) (Recalls m s) := by
  rw [cvWriteByte_eq]
  split
  · exact Post.ok (.refl m s)
  · unfold Rx.initIfNeeded
    split
    · exact ⟨fun s' h => ⟨fun _ => init_remembers hm h⟩⟩
    · refine Post.ok ⟨fun hR => ?_⟩
      have hc : ∀ c ∈ stationCvs, (if c = cv then b else mem m s.trace c) = mem m s.trace c := fun c hc =>
        if_neg (fun h : c = cv => hcv (h ▸ hc))
      unfold Rx.wroteByte
      split
      · refine hR.congr (fun c h => ?_) rfl
        show mem m (s.trace ++ [_]) c = _
        rw [mem_append]
        exact hc c h
      · refine (recalls_answerByte m _ _ _).out ?_
        refine hR.congr (fun c h => ?_) rfl
        show mem m (s.trace ++ [_]) c = _
        rw [mem_append]
        exact hc c h

theorem recalls_writeBit {e : Env} {m : BitVec 32 → Byte} (hm : MemoryLike e m) (s : Rx)
    (cv : BitVec 32) (b : Bool) (p : BitVec 32) (hcv : Outside cv) : Post (s.cvWriteBit e cv b p) (Recalls m s) := by
  rw [cvWriteBit_eq]
  split
  · exact Post.ok (.refl m s)
  · unfold Rx.initIfNeeded
    split
    · exact ⟨fun s' h => ⟨fun _ => init_remembers hm h⟩⟩
    · refine Post.ok ⟨fun hR => ?_⟩
      have hc : ∀ c ∈ stationCvs, (if c = cv then setBit (mem m s.trace c) p b else mem m s.trace c) = mem m s.trace c := fun c hc =>
        if_neg (fun h : c = cv => hcv (h ▸ hc))
      unfold Rx.wroteBit
      split
      · refine hR.congr (fun c h => ?_) rfl
        show mem m (s.trace ++ [_]) c = _
        rw [mem_append]
        exact hc c h
      · refine (recalls_answerBit m _ _ _).out ?_
        refine hR.congr (fun c h => ?_) rfl
        show mem m (s.trace ++ [_]) c = _
        rw [mem_append]
        exact hc c h

theorem recalls_shortBody {e : Env} {m : BitVec 32 → Byte} (hm : MemoryLike e m) (s : Rx)
    (bs : List Byte) : Post (s.cvShortBody e bs) (Recalls m s) := by
  unfold Rx.cvShortBody
  refine Post.bind_any fun b0 => ?_
  dsimp only
  split
  · exact Post.bind_any fun b => recalls_writeByte hm _ _ _ (by decide)
  split
  · exact Post.bind_any fun b => recalls_writeByte hm _ _ _ (by decide)
  split
  · split
    · exact Post.ok (.refl m s)
    · refine Post.bind_any fun b1 => ?_
      refine Post.bind (recalls_writeByte hm _ _ _ (by decide)) fun s1 h1 => ?_
      refine Post.bind_any fun b2 => ?_
      refine Post.bind (recalls_writeByte hm _ _ _ (by decide)) fun s2 h2 => ?_
      exact (recalls_writeBit hm _ _ _ _ (by decide)).mono fun s3 h3 => (h1.trans h2).trans h3
  split
  · split
    · exact Post.ok (.refl m s)
    · refine Post.bind_any fun b1 => ?_
      refine Post.bind (recalls_writeByte hm _ _ _ (by decide)) fun s1 h1 => ?_
      refine Post.bind_any fun b2 => ?_
      exact (recalls_writeByte hm _ _ _ (by decide)).mono fun s2 h2 => h1.trans h2
  · exact Post.ok (.refl m s)

theorem recalls_longBody {e : Env} {m : BitVec 32 → Byte} (hm : MemoryLike e m) (s : Rx)
    (bs : List Byte) : Post (s.cvLongBody e bs) (Recalls m s) := by
  unfold Rx.cvLongBody
  repeat' (first
    | exact recalls_verifyByte ..
    | exact recalls_verifyBit ..
    | exact recalls_writeByte hm _ _ _ (cvAddr_outside _ _)
    | exact recalls_writeBit hm _ _ _ _ (cvAddr_outside _ _)
    | exact Post.ok (.refl m s)
    | (refine Post.bind_any fun _ => ?_)
    | dsimp only
    | split)

theorem recalls_registerMode {e : Env} {m : BitVec 32 → Byte} (hm : MemoryLike e m) (s : Rx)
    (bs : List Byte) : Post (s.registerMode e bs) (Recalls m s) := by
  unfold Rx.registerMode
  refine Post.bind_any fun b0 => ?_
  dsimp only
  refine Post.bind_any fun b1 => ?_
  have key : ∀ (w : Bool) (i : BitVec 32), Outside i → Post
      (if w = true then s.cvWriteByte e i b1 else s.cvVerifyByte e i b1) (Recalls m s) := by
    intro w i hi
    split
    · exact recalls_writeByte hm _ _ _ hi
    · exact recalls_verifyByte ..
  split
  · exact key _ _ (register_outside _ _)
  split
  · exact key _ _ (by decide)
  split
  · split
    · exact Post.ok (.of_same rfl (.of_eq rfl))
    split
    · exact Post.ok (recalls_emit m s _ rfl)
    · exact Post.ok (.refl m s)
  · exact key _ _ (low_outside _)

theorem recalls_count (m : BitVec 32 → Byte) (s : Rx) (p : Packet) :
    Recalls m s (s.countOwnEqualCvPackets p) := by
  unfold Rx.countOwnEqualCvPackets
  split <;> exact .of_same rfl (.of_eq rfl)

theorem recalls_cvLong {e : Env} {m : BitVec 32 → Byte} (hm : MemoryLike e m) (s : Rx)
    (addr : BitVec 16) (p : Packet) (bs : List Byte) : Post (s.cvLong e addr p bs) (Recalls m s) := by
  unfold Rx.cvLong
  split
  · exact Post.ok (.refl m s)
  dsimp only
  split
  · exact Post.ok (recalls_count m s p)
  · exact (recalls_longBody hm ..).mono fun s' h => (recalls_count m s p).trans h

theorem recalls_cvShort {e : Env} {m : BitVec 32 → Byte} (hm : MemoryLike e m) (s : Rx)
    (addr : BitVec 16) (p : Packet) (bs : List Byte) : Post (s.cvShort e addr p bs) (Recalls m s) := by
  unfold Rx.cvShort
  split
  · exact Post.ok (.refl m s)
  · exact (recalls_shortBody hm ..).mono fun s' h => (recalls_count m s p).trans h

theorem recalls_instruction {e : Env} {m : BitVec 32 → Byte} (hm : MemoryLike e m) (s s' : Rx)
    (addr : BitVec 16) (p : Packet) (bs : List Byte) (rand : Nat)
    (h : s.executeInstruction e addr p bs rand = .ok s') : Recalls m s s' := by
  obtain ⟨b, hb, hi⟩ := instruction_cases e _ s' _ p _ rand h
  cases hi with
  | enter _ hb h => rw [h]; exact .of_same rfl ⟨[_], rfl, by simp [Event.stores]⟩
  | control hd' _ h => rw [h]; exact .refl m s
  | consist hd' h =>
    unfold Rx.consistControl at h
    simp only [bind_eq_ok] at h
    obtain ⟨x, -, y, -, h⟩ := h
    exact (recalls_writeByte hm _ _ _ (by decide)).out _ h
  | drives hd' h =>
    obtain ⟨evs, mm, rfl, hq⟩ := h
    exact .of_same rfl ⟨evs, rfl, fun ev hev => stores_of_loco ev (hq ev hev)⟩
  | searches hd' _ _ h => obtain ⟨b, q, rfl⟩ := h; exact .of_same rfl (.of_eq rfl)
  | cvShort hd' h => exact (recalls_cvShort hm ..).out _ h
  | cvLong hd' h => exact (recalls_cvLong hm ..).out _ h

theorem prepared_recalls (e : Env) (m : BitVec 32 → Byte) (s : Rx) (now : Int) : Recalls m s (s.prepared e now) := by
  have ht : ∀ x : Rx, (x.updateQos.updateTimepoints now).trace = x.trace ∧
      (x.updateQos.updateTimepoints now).logon = x.logon := by
    intro x
    unfold Rx.updateTimepoints Rx.updateQos
    dsimp only
    split <;> split <;> exact ⟨rfl, rfl⟩
  obtain ⟨evs, h1, -⟩ := logonStore_eq e { s with q := { s.q with adr := s.adrQueue } }
  refine ⟨fun h => ?_⟩
  cases hs : s.logon.store with
  | true =>
    have hl : (s.prepared e now).logon.cidFront = s.logon.cidBack ∧
        (s.prepared e now).logon.sessionFront = s.logon.sessionBack := by
      unfold Rx.prepared
      rw [(ht _).2, h1, if_pos hs]
      exact ⟨rfl, rfl⟩
    have hp := prepared_mem e s now m hs
    refine ⟨by rw [hl.1]; exact hp.cid.symm, by rw [hl.2]; exact (BitVec.eq_of_toNat_eq hp.session).symm⟩
  | false =>
    have hl : (s.prepared e now).trace = s.trace ∧ (s.prepared e now).logon = s.logon := by
      unfold Rx.prepared
      rw [(ht _).1, (ht _).2, h1, if_neg (by rw [hs]; exact Bool.false_ne_true)]
      exact ⟨rfl, rfl⟩
    rw [hl.1]
    exact h.congr (fun _ _ => rfl) (by unfold station; rw [hl.2])

theorem recalls_execute {e : Env} {m : BitVec 32 → Byte} (hm : MemoryLike e m) (s s' : Rx)
    (hr : Reachable e s) (now : Int) (rand : Nat) (ret : Bool)
    (h : s.execute e now rand = .ok (s', ret)) : Recalls m s s' := by
  have hp := prepared_recalls e m s now
  have hpop : ∀ x : Rx, Recalls m x x.popFront := fun x => .of_same rfl (.of_eq rfl)
  cases exec_cases e s s' now rand ret hr.lengths h with
  | idle h hs _ => rw [hs]; exact .refl m s
  | foreign q rest _ hd hm' hfd hs' _ => rw [hs']; exact hp.trans (hpop _)
  | operations p rest n s2 hpe hd hm' hn' ha h hs' _ =>
    rw [hs']
    exact hp.trans ((recalls_instruction hm _ _ _ _ _ _ h).trans (hpop _))
  | service p rest s2 hpe hd hm' h hs' =>
    rw [hs']
    refine hp.trans (Recalls.trans ?_ (hpop _))
    cases (service_cases e _ s2 p ret h).1 with
    | ignored h1 hs => rw [hs]; exact .refl m _
    | leave b r hb h0 h7 hs =>
      rw [hs]; exact .of_same rfl ⟨[_], rfl, by simp [Event.stores]⟩
    | direct b r hb h7 hl h => exact (recalls_cvLong hm ..).out _ h
    | register b r hb h7 hl h => exact (recalls_registerMode hm ..).out _ h

theorem step_recalls {e : Env} {m : BitVec 32 → Byte} (hm : MemoryLike e m) (s s' : Rx)
    (hr : Reachable e s) (op : RxOp) (h : s.step e op = .ok s') : Recalls m s s' := by
  cases op with
  | init => exact ⟨fun _ => init_remembers hm h⟩
  | enable =>
    simp only [Rx.step, Rx.enable, Except.ok.injEq] at h
    subst h
    split <;> exact .of_same rfl (.of_eq rfl)
  | disable =>
    simp only [Rx.step, Rx.disable, Except.ok.injEq] at h
    subst h
    split <;> exact .of_same rfl (.of_eq rfl)
  | receive t r =>
    have f := (receive_frame e s hr.recvInv.room t r).out _ h
    exact .of_same (Prod.ext f.cidFront f.sessionFront) (f.adds.mono stores_of_quiet)
  | execute now rand =>
    simp only [Rx.step, bind_eq_ok] at h
    obtain ⟨⟨s2, ret⟩, h, h2⟩ := h
    cases h2
    exact recalls_execute hm s s2 hr now rand ret h
  | datagram ds =>
    obtain ⟨q, b, rfl⟩ := datagram_eq e s s' ds h
    exact .of_same rfl (.of_eq rfl)
  | biDiChannel1 =>
    simp only [Rx.step, Except.ok.injEq] at h
    obtain ⟨q, evs, h1, h2⟩ := channel1_adds s
    rw [← h, h1]
    exact .of_same rfl ⟨evs, rfl, fun ev hev => stores_of_transmit ev (h2 ev hev)⟩
  | biDiChannel2 =>
    obtain ⟨q, evs, rfl, h2⟩ := (channel2_adds s).out _ h
    exact .of_same rfl ⟨evs, rfl, fun ev hev => stores_of_transmit ev (h2 ev hev)⟩
  | callbackByte i v =>
    simp only [Rx.step] at h
    split at h
    · rw [callbackByte_eq] at h
      cases h
      exact recalls_answerByte ..
    · cases h; exact .refl m s
  | callbackBit i v =>
    simp only [Rx.step] at h
    split at h
    · rw [callbackBit_eq] at h
      cases h
      exact recalls_answerBit ..
    · cases h; exact .refl m s

theorem run_recalls {e : Env} {m : BitVec 32 → Byte} (hm : MemoryLike e m) (ops : List RxOp) (s s' : Rx)
    (hr : Reachable e s) (h : s.run e ops = .ok s') (hR : Remembers (mem m s.trace) s ∨ .init ∈ ops) :
    Remembers (mem m s'.trace) s' := by
  induction ops generalizing s with
  | nil =>
    cases h
    exact hR.resolve_right (by simp)
  | cons op ops ih =>
    rw [Rx.run, bind_eq_ok] at h
    obtain ⟨s1, h1, h2⟩ := h
    refine ih s1 (hr.step op h1) h2 ?_
    rcases hR with hR | hR
    · exact .inl ((step_recalls hm s s1 hr op h1).out hR)
    · rw [List.mem_cons] at hR
      rcases hR with rfl | hR
      · exact .inl (init_remembers hm h1)
      · exact .inr hR

/-- **C130** With a CV store that behaves like memory, after any calls among which `init()` was called: the command
station and the session a decoder remembers for fast logon are the ones in CV65297 to CV65299. -/
theorem C130_remembers (e : Env) (m : BitVec 32 → Byte) (hm : MemoryLike e m) (ops : List RxOp) (s : Rx)
    (hi : .init ∈ ops) (h : ({} : Rx).run e ops = .ok s) : Remembers (mem m s.trace) s :=
  run_recalls hm ops {} s .start h (.inr hi)

/-- **C130** So a decoder that is switched off and on remembers the same: `init()` of a new object with the CVs left. -/
theorem C130_restart (e : Env) (m : BitVec 32 → Byte) (hm : MemoryLike e m) (ops : List RxOp) (s : Rx)
    (hi : .init ∈ ops) (h : ({} : Rx).run e ops = .ok s) (t : Rx)
    (ht : ({} : Rx).init (memEnv (mem m s.trace)) = .ok t) :
    t.logon.cidFront = s.logon.cidFront ∧ t.logon.sessionFront = s.logon.sessionFront := by
  have h1 := C130_remembers e m hm ops s hi h
  have hm2 : MemoryLike (memEnv (mem m s.trace)) (mem m s.trace) := ⟨fun _ _ => rfl⟩
  have h2 := init_remembers hm2 ht
  rw [(init_reflects hm2 ht).2] at h2
  exact ⟨BitVec.eq_of_toNat_eq (h2.cid.trans h1.cid.symm), h2.session.trans h1.session.symm⟩

/-- The decoder of C129 hears LOGON_ENABLE of station 513 in session 7 before it is assigned the address. -/
def rememberedLogon : List RxOp :=
  .init :: hears [254#8, 0xFF#8, 2#8, 1#8, 7#8, 5#8] ++ [.biDiChannel1, .biDiChannel2] ++ backwardsLogon.tail

/-- The hypotheses of `C130_remembers` hold in a run in which both change. -/
example : MemoryLike (memEnv backwardsCvs) backwardsCvs ∧ .init ∈ rememberedLogon ∧
    holdsAfter (({} : Rx).run (memEnv backwardsCvs) rememberedLogon) (fun s =>
      decide (s.logon.cidFront = 513#16 ∧ s.logon.sessionFront = 7#8)) = true :=
  ⟨⟨fun _ _ => rfl⟩, by decide +kernel, by decide +kernel⟩

/-- The hypotheses of `C130_restart` hold as well. -/
example : holdsAfter (({} : Rx).run (memEnv backwardsCvs) rememberedLogon) (fun s =>
    holdsAfter (({} : Rx).init (memEnv (mem backwardsCvs s.trace))) (fun t =>
      decide (t.logon.cidFront = 513#16))) = true := by decide +kernel

end Dcc
