import Verif.Lemmas.RxDecoder
import Verif.Lemmas.RxPom
/-! Histories of a receiver that does not log on. -/
namespace Dcc
open Spec

/-! ### No callbacks without asynchronous methods -/

private theorem calm_init (e : Env) (s : Rx) : Post (s.init e) (fun s' => s'.callbacks = s.callbacks) := by
  refine ⟨fun s' h => ?_⟩
  obtain ⟨cv29, prim, a, v, evs, -, -, -, -, -, rfl⟩ := init_ok e s s' h
  rfl

private theorem calm_needed (e : Env) (s : Rx) (cv : BitVec 32) :
    Post (s.initIfNeeded e cv) (fun s' => s'.callbacks = s.callbacks) := by
  unfold Rx.initIfNeeded
  split
  · exact calm_init e s
  · exact Post.ok rfl

section
variable {e : Env} (hw : e.asyncWritable = false) (hr : e.asyncReadable = false)
include hw hr

private theorem calm_verifyByte (s : Rx) (cv : BitVec 32) (b : Byte) :
    Post (s.cvVerifyByte e cv b) (fun s' => s'.callbacks = s.callbacks) := by
  rw [cvVerifyByte_eq]
  refine Post.ok ?_
  split
  · rfl
  · have := (performs_same hw hr s .verify (.byte cv.toNat b)).2.2.1
    rwa [Rx.performs, BitVec.ofNat_toNat, BitVec.setWidth_eq] at this

private theorem calm_verifyBit (s : Rx) (cv : BitVec 32) (b : Bool) (pos : BitVec 32) :
    Post (s.cvVerifyBit e cv b pos) (fun s' => s'.callbacks = s.callbacks) := by
  rw [cvVerifyBit_eq]
  refine Post.ok ?_
  split
  · rfl
  · have := (performs_same hw hr s .verify (.bit cv.toNat b pos.toNat)).2.2.1
    rwa [Rx.performs, BitVec.ofNat_toNat, BitVec.ofNat_toNat, BitVec.setWidth_eq, BitVec.setWidth_eq] at this

private theorem calm_writeByte (s : Rx) (cv : BitVec 32) (b : Byte) :
    Post (s.cvWriteByte e cv b) (fun s' => s'.callbacks = s.callbacks) := by
  rw [cvWriteByte_eq]
  split
  · exact Post.ok rfl
  · have := (performs_same hw hr s .write (.byte cv.toNat b)).2.2.1
    rw [Rx.performs, BitVec.ofNat_toNat, BitVec.setWidth_eq] at this
    exact (calm_needed ..).mono fun _ h => h.trans this

private theorem calm_writeBit (s : Rx) (cv : BitVec 32) (b : Bool) (pos : BitVec 32) :
    Post (s.cvWriteBit e cv b pos) (fun s' => s'.callbacks = s.callbacks) := by
  rw [cvWriteBit_eq]
  split
  · exact Post.ok rfl
  · have := (performs_same hw hr s .write (.bit cv.toNat b pos.toNat)).2.2.1
    rw [Rx.performs, BitVec.ofNat_toNat, BitVec.ofNat_toNat, BitVec.setWidth_eq, BitVec.setWidth_eq] at this
    exact (calm_needed ..).mono fun _ h => h.trans this

private theorem calm_longBody (s : Rx) (bs : List Byte) :
    Post (s.cvLongBody e bs) (fun s' => s'.callbacks = s.callbacks) := by
  unfold Rx.cvLongBody
  repeat' (first
    | exact calm_verifyByte hw hr ..
    | exact calm_verifyBit hw hr ..
    | exact calm_writeByte hw hr ..
    | exact calm_writeBit hw hr ..
    | exact Post.ok rfl
    | exact Post.pure rfl
    | exact Post.error
    | (refine Post.bind_any fun _ => ?_)
    | dsimp only
    | split)

private theorem calm_shortBody (s : Rx) (bs : List Byte) :
    Post (s.cvShortBody e bs) (fun s' => s'.callbacks = s.callbacks) := by
  unfold Rx.cvShortBody
  refine Post.bind_any fun b0 => ?_
  dsimp only
  split
  · exact Post.bind_any fun b1 => calm_writeByte hw hr ..
  split
  · exact Post.bind_any fun b1 => calm_writeByte hw hr ..
  split
  · split
    · exact Post.ok rfl
    · refine Post.bind_any fun b1 => ?_
      refine Post.bind (calm_writeByte hw hr ..) fun s1 h1 => ?_
      refine Post.bind_any fun b2 => ?_
      refine Post.bind (calm_writeByte hw hr ..) fun s2 h2 => ?_
      exact (calm_writeBit hw hr ..).mono fun s3 h3 => h3.trans (h2.trans h1)
  split
  · split
    · exact Post.ok rfl
    · refine Post.bind_any fun b1 => ?_
      refine Post.bind (calm_writeByte hw hr ..) fun s1 h1 => ?_
      refine Post.bind_any fun b2 => ?_
      exact (calm_writeByte hw hr ..).mono fun s2 h2 => h2.trans h1
  · exact Post.ok rfl

private theorem calm_register (s : Rx) (bs : List Byte) :
    Post (s.registerMode e bs) (fun s' => s'.callbacks = s.callbacks) := by
  unfold Rx.registerMode
  refine Post.bind_any fun b0 => ?_
  dsimp only
  refine Post.bind_any fun b1 => ?_
  repeat' (first
    | exact calm_verifyByte hw hr ..
    | exact calm_writeByte hw hr ..
    | exact Post.ok rfl
    | exact Post.pure rfl
    | split)

omit hw hr in
private theorem calm_counted (s : Rx) (p : Packet) : (s.countOwnEqualCvPackets p).callbacks = s.callbacks := by
  unfold Rx.countOwnEqualCvPackets
  split <;> rfl

private theorem calm_long (s : Rx) (addr : BitVec 16) (p : Packet) (bs : List Byte) :
    Post (s.cvLong e addr p bs) (fun s' => s'.callbacks = s.callbacks) := by
  unfold Rx.cvLong
  split
  · exact Post.ok rfl
  dsimp only
  split
  · exact Post.ok (calm_counted ..)
  · exact (calm_longBody hw hr ..).mono fun _ h => h.trans (calm_counted ..)

private theorem calm_short (s : Rx) (addr : BitVec 16) (p : Packet) (bs : List Byte) :
    Post (s.cvShort e addr p bs) (fun s' => s'.callbacks = s.callbacks) := by
  unfold Rx.cvShort
  split
  · exact Post.ok rfl
  · exact (calm_shortBody hw hr ..).mono fun _ h => h.trans (calm_counted ..)

private theorem calm_service (s : Rx) (p : Packet) :
    Post (s.executeService e p) (fun x => x.1.callbacks = s.callbacks) := by
  unfold Rx.executeService
  refine Post.bind_any fun b0 => ?_
  split
  · exact Post.ok rfl
  split
  · exact Post.ok rfl
  split
  · exact Post.bind (calm_register hw hr ..) fun _ h => Post.ok h
  split
  · exact Post.bind (calm_long hw hr ..) fun _ h => Post.ok h
  · exact Post.ok rfl

private theorem calm_execute {s s' : Rx} (hs : Reachable e s) {now : Int} {rand : Nat} {ret : Bool}
    (h : s.execute e now rand = .ok (s', ret)) : s'.callbacks = s.callbacks := by
  have f := (prepare_total e s now).2
  cases exec_cases e s s' now rand ret hs.lengths h with
  | idle _ h => rw [h]
  | foreign p rest _ _ _ _ h => rw [h]; exact f.callbacks
  | service p rest s2 _ _ _ h hs => rw [hs]; exact ((calm_service hw hr _ _).out _ h).trans f.callbacks
  | operations p rest n s2 _ _ _ _ _ h hs =>
    rw [hs]
    obtain ⟨b, -, hi⟩ := instruction_cases e _ s2 _ _ _ rand h
    refine Eq.trans (show s2.popFront.callbacks = s2.callbacks from rfl) (Eq.trans ?_ f.callbacks)
    cases hi with
    | enter _ _ h => rw [h]; rfl
    | control _ _ h => rw [h]
    | consist _ h =>
      unfold Rx.consistControl at h
      have : Post ((s.prepared e now).consistControl e (afterAddress p)) fun s' => s'.callbacks = (s.prepared e now).callbacks := by
        unfold Rx.consistControl
        exact Post.bind_any fun _ => Post.bind_any fun _ => calm_writeByte hw hr ..
      exact this.out _ h
    | drives _ h => obtain ⟨evs, m, h, -⟩ := h; rw [h]
    | searches _ _ _ h => obtain ⟨b, q, h⟩ := h; rw [h]
    | cvLong _ h => exact (calm_long hw hr ..).out _ h
    | cvShort _ h => exact (calm_short hw hr ..).out _ h

/-- Without asynchronous methods there are no callbacks. -/
theorem no_callbacks {s : Rx} (hs : Reachable e s) : s.callbacks = [] := by
  induction hs with
  | start => rfl
  | @step s s' op hs h ih =>
    have aside : Aside false s s' → s'.callbacks = [] := by
      rintro (g | ⟨ev, a, -, g, rfl⟩)
      · rw [g.same]; exact ih
      · show a.callbacks = _
        rw [g.same]; exact ih
    cases op with
    | init =>
      obtain ⟨cv29, prim, a, v, evs, -, -, -, -, -, rfl⟩ := init_ok e s s' h
      exact ih
    | enable =>
      simp only [Rx.step, Rx.enable, Except.ok.injEq] at h
      split at h <;> cases h <;> exact ih
    | disable =>
      simp only [Rx.step, Rx.disable, Except.ok.injEq] at h
      split at h <;> cases h <;> exact ih
    | receive t r => exact ((receive_frame e s hs.recvInv.room t r).out _ h).callbacks.trans ih
    | execute now rand =>
      simp only [Rx.step, bind_eq_ok, pure_eq_ok, Except.ok.injEq] at h
      obtain ⟨⟨z2, ret⟩, h3, rfl⟩ := h
      exact (calm_execute hw hr hs h3).trans ih
    | datagram ds => exact aside ((aside_step (k := false) rfl e s).out _ h)
    | biDiChannel1 => exact aside ((aside_step (k := false) rfl e s).out _ h)
    | biDiChannel2 => exact aside ((aside_step (k := false) rfl e s).out _ h)
    | callbackByte i v => exact aside ((aside_step (k := false) rfl e s).out _ h)
    | callbackBit i v => exact aside ((aside_step (k := false) rfl e s).out _ h)

end

/-- At most one value waits to be transmitted. -/
theorem waiting_value {e : Env} {s : Rx} (hs : Reachable e s) : ∃ w : Option Byte, s.q.pom = w.toList.map pomBytes := by
  induction hs with
  | start => exact ⟨none, rfl⟩
  | @step s s' op hs h ih =>
    have pom : ∀ v : Byte, s.pom v = .ok s' → ∃ w : Option Byte, s'.q.pom = w.toList.map pomBytes := by
      intro v h1
      rw [pom_eq] at h1
      cases h1
      split
      · exact ⟨some v, rfl⟩
      · exact ih
    cases op with
    | execute now rand =>
      simp only [Rx.step, bind_eq_ok, pure_eq_ok, Except.ok.injEq] at h
      obtain ⟨⟨z2, ret⟩, h3, rfl⟩ := h
      cases execute_pom e s z2 now rand ret hs.lengths h3 with
      | same h => rw [h]; exact ih
      | consist p _ _ _ h =>
        rcases h with h | ⟨v, h⟩
        · rw [h]; exact ih
        · exact ⟨some v, h⟩
      | cv p _ _ h =>
        rcases h with h | ⟨-, v, h, -⟩
        · rw [h]
          unfold Rx.pomBase
          split
          · exact ih
          · exact ⟨none, rfl⟩
        · exact ⟨some v, h⟩
    | callbackByte i v =>
      simp only [Rx.step] at h
      split at h
      · unfold Rx.callbackByte at h
        split at h
        · exact pom _ h
        · split at h <;> cases h <;> exact ih
      · cases h; exact ih
    | callbackBit i v =>
      simp only [Rx.step] at h
      split at h
      · unfold Rx.callbackBit at h
        split at h
        · exact pom _ h
        · split at h <;> cases h <;> exact ih
      · cases h; exact ih
    | biDiChannel2 =>
      by_cases hc : cutout s = .cv
      · have h := channel2_cutout s s' h
        rw [hc] at h
        have h : s' = s.appPom := h
        rw [h]
        unfold Rx.appPom
        obtain ⟨w, hw⟩ := ih
        split
        · exact ⟨w, hw⟩
        · split
          · exact ⟨w, hw⟩
          · rw [hw]
            cases w with
            | none => exact ⟨none, hw⟩
            | some v => exact ⟨none, rfl⟩
      · rw [other_pom hs rfl (by simp) (by simp) (fun _ => hc) h]; exact ih
    | _ => rw [other_pom hs rfl (by simp) (by simp) (by simp) h]; exact ih

/-! ### Calls other than `execute` -/

/-- What a history leaves: the decoder and the calls. -/
structure Became (m : BitVec 32 → Byte) (z z' : Rx) (x : Decoder × List Event) : Prop where
  is : Is m x.1 z'
  trace : z.trace <+: z'.trace
  calls : sessionCalls z z' = x.2

theorem Meets.became {m : BitVec 32 → Byte} {z z' : Rx} {y : Outcome} (h : Meets m z (.ok z') y) :
    ∃ x, y = some x ∧ Became m z z' x := by
  cases y with
  | none => exact h.elim
  | some x =>
    obtain ⟨h1, tr, h2, h3⟩ := h
    exact ⟨x, rfl, h1, h2 ▸ List.prefix_append _ _, (sessionCalls_of h2).trans h3⟩

private theorem settled_of {m : BitVec 32 → Byte} {d : Decoder} {s : Rx} (h : Is m d s) (h1 : s.logon.store = false)
    (h2 : s.logon.assigned = false) : Settled m s := ⟨h1, h2, h.logon, by rw [h.cvs]; exact h.reflects⟩

theorem is_holds {m : BitVec 32 → Byte} {d : Decoder} {s : Rx} (h : Is m d s) :
    Holds m ⟨d.cvs, d.last, d.count, d.waiting⟩ s := ⟨h.cvs, Prod.ext h.last h.count, h.pom⟩

/-- What the calls other than `execute` leave to a decoder that was not assigned an address. -/
theorem decoder_idle {e : Env} {m : BitVec 32 → Byte} (hm : MemoryLike e m) {z z1 : Rx} (hr : Reachable e z)
    {op : RxOp} (hex : op.isExecute = false) (h : z.step e op = .ok z1) (hz : Settled m z)
    (ha : z1.logon.assigned = false) {d : Decoder} (hd : Is m d z) :
    (op = .biDiChannel2 ∧ cutout z = .cv ∧ Became m z z1 ((d.answer z.link.packet).1, []) ∧
      (transmitted (newCalls z z1)).map understood = (d.answer z.link.packet).2.map some) ∨
    ¬ (op = .biDiChannel2 ∧ cutout z = .cv) ∧ Became m z z1 (d, []) := by
  obtain ⟨k1, -⟩ := step_keeps hm z z1 hr hz.store op h ha
  have hrf : Reflects (mem m z1.trace) z1 := k1.out (by rw [hd.cvs]; exact hd.reflects)
  have key : ∀ {evs : List Event} {w : Option Byte}, z1.trace = z.trace ++ evs →
      (∀ ev ∈ evs, ev.stores = false ∧ Event.isSession ev = false) → z1.lastOwnCvPacket = z.lastOwnCvPacket →
      z1.ownEqualCvPackets = z.ownEqualCvPackets → z1.mode = z.mode → z1.indexReg = z.indexReg →
      z1.callbacks = z.callbacks → z1.addrs.logon.value = 0#16 → z1.q.pom = w.toList.map pomBytes →
      Became m z z1 ({ d with waiting := w }, []) := by
    intro evs w h1 h2 h3 h4 h5 h6 h7 h8 h9
    have hc : mem m z1.trace = d.cvs := by rw [h1, mem_append_quiet _ _ _ fun ev hev => (h2 ev hev).1]; exact hd.cvs
    rw [hc] at hrf
    refine ⟨⟨⟨hc, ?_, h6.trans hd.page, h3.trans hd.last, h4.trans hd.count, h9, h8, h7.trans hd.callbacks⟩, hrf⟩,
      h1 ▸ List.prefix_append _ _, ?_⟩
    · have := hd.service
      unfold Rx.serviceMode at this ⊢
      rw [h5]; exact this
    · rw [sessionCalls_of h1, List.filter_eq_nil_iff]
      intro ev hev
      rw [(h2 ev hev).2]
      exact Bool.false_ne_true
  have quiet : ∀ ev : Event, ev.isQuiet = true → ev.stores = false ∧ Event.isSession ev = false := by
    intro ev hev
    cases ev <;> first | exact ⟨rfl, rfl⟩ | cases hev
  have same : ∀ {a : Rx}, Inner z a → a.trace = z.trace ∧ a.lastOwnCvPacket = z.lastOwnCvPacket ∧
      a.ownEqualCvPackets = z.ownEqualCvPackets ∧ a.mode = z.mode ∧ a.indexReg = z.indexReg ∧
      a.callbacks = z.callbacks ∧ a.addrs.logon = z.addrs.logon := by
    intro a g
    rw [g.same]; exact ⟨rfl, rfl, rfl, rfl, rfl, rfl, rfl⟩
  have aside : ∀ {w : Option Byte}, Aside true z z1 → z1.q.pom = w.toList.map pomBytes →
      Became m z z1 ({ d with waiting := w }, []) := by
    intro w
    rintro (g | ⟨ev, a, hev, g, rfl⟩) hp
    · obtain ⟨g1, g2, g3, g4, g5, g6, g7⟩ := same g
      exact key (evs := []) (by simpa using g1) (by simp) g2 g3 g4 g5 g6 (by rw [g7]; exact hd.logon) hp
    · obtain ⟨g1, g2, g3, g4, g5, g6, g7⟩ := same g
      refine key (evs := [ev]) (by rw [← g1]; rfl) ?_ g2 g3 g4 g5 g6 ?_ hp
      · intro ev' hev'
        rw [List.mem_singleton] at hev'
        subst hev'
        rcases hev with ⟨m, rfl⟩ | ⟨hk, -⟩
        · exact ⟨rfl, rfl⟩
        · cases hk
      · show a.addrs.logon.value = _
        rw [g7]; exact hd.logon
  cases op with
  | init =>
    obtain ⟨cv29, prim, a, v, evs, -, -, -, -, hq, rfl⟩ := init_ok e z z1 h
    exact .inr ⟨by simp, key (evs := evs) rfl (fun ev hev => quiet ev (hq ev hev)) rfl rfl rfl rfl rfl hd.logon hd.pom⟩
  | enable =>
    simp only [Rx.step, Rx.enable, Except.ok.injEq] at h
    split at h <;> cases h <;>
      exact .inr ⟨by simp, key (evs := []) (List.append_nil _).symm (by simp) rfl rfl rfl rfl rfl hd.logon hd.pom⟩
  | disable =>
    simp only [Rx.step, Rx.disable, Except.ok.injEq] at h
    split at h <;> cases h <;>
      exact .inr ⟨by simp, key (evs := []) (List.append_nil _).symm (by simp) rfl rfl rfl rfl rfl hd.logon hd.pom⟩
  | receive t r =>
    have f := (receive_frame e z hr.recvInv.room t r).out _ h
    obtain ⟨evs, h3, h4⟩ := f.adds
    refine .inr ⟨by simp, key h3 (fun ev hev => quiet ev (h4 ev hev)) f.lastOwnCvPacket f.ownEqualCvPackets f.mode
      f.indexReg f.callbacks ?_ (f.pom.trans hd.pom)⟩
    cases receive_case e z z1 t r h with
    | plain l d a pc prc h => rw [h]; exact hd.logon
    | logon l a s2 hp _ _ h3 hc hda hty hcrc h hs =>
      rw [hs] at ha ⊢
      exact ((unlogged_logon e _ a _ r).out _ h ha).2.2.2 hd.logon
  | execute => cases hex
  | datagram ds =>
    exact .inr ⟨by simp, aside ((aside_step (k := true) rfl e z).out _ h)
      ((other_pom hr hex (by simp) (by simp) (by simp) h).trans hd.pom)⟩
  | biDiChannel1 =>
    exact .inr ⟨by simp, aside ((aside_step (k := true) rfl e z).out _ h)
      ((other_pom hr hex (by simp) (by simp) (by simp) h).trans hd.pom)⟩
  | biDiChannel2 =>
    have g := (aside_step (k := true) rfl e z).out _ h
    by_cases hc : cutout z = .cv
    · left
      obtain ⟨a1, a2⟩ := main_answer hz (is_holds hd) hc h
      have b := aside g a1.pom
      have h1 : ((MainDevice.mk d.cvs d.last d.count d.waiting).answer z.link.packet).2 =
          (d.answer z.link.packet).2 := by
        unfold MainDevice.answer Decoder.answer
        dsimp only
        split
        · split <;> rfl
        · rfl
      have h2 : { d with waiting := ((MainDevice.mk d.cvs d.last d.count d.waiting).answer z.link.packet).1.waiting } =
          (d.answer z.link.packet).1 := by
        unfold MainDevice.answer Decoder.answer
        dsimp only
        split
        · split <;> rfl
        · rfl
      rw [h1] at a2
      rw [h2] at b
      exact ⟨rfl, hc, b, a2⟩
    · exact .inr ⟨fun h => hc h.2, aside g ((other_pom hr hex (by simp) (by simp) (fun _ => hc) h).trans hd.pom)⟩
  | callbackByte i v =>
    have : (Except.ok z : R Rx) = .ok z1 := by
      rw [← h]
      show _ = match z.callbacks[i]? with | some (.byte b) => z.callbackByte b v | _ => .ok z
      rw [hd.callbacks]; rfl
    cases this
    exact .inr ⟨by simp, hd, List.prefix_rfl, by simp [sessionCalls, newCalls]⟩
  | callbackBit i v =>
    have : (Except.ok z : R Rx) = .ok z1 := by
      rw [← h]
      show _ = match z.callbacks[i]? with | some (.bit b) => z.callbackBit b v | _ => .ok z
      rw [hd.callbacks]; rfl
    cases this
    exact .inr ⟨by simp, hd, List.prefix_rfl, by simp [sessionCalls, newCalls]⟩

/-! ### Histories -/

private theorem front_none {s : Rx} (h : front s = none) : s.packetEnd = true ∨ s.deque = [] := by
  unfold front at h
  cases hp : s.packetEnd with
  | true => exact .inl rfl
  | false =>
    rw [hp, if_neg Bool.false_ne_true] at h
    exact .inr (List.head?_eq_none_iff.mp h)

/-- A history in which no address is assigned. -/
theorem decoder_run {e : Env} {m : BitVec 32 → Byte} (hm : Memory e m) (ops : List RxOp) :
    ∀ (z z' : Rx) (d : Decoder), Reachable e z → Settled m z → Is m d z →
    Along (fun x => x.logon.assigned = false) e z ops → z.run e ops = .ok z' →
    ∃ x, d.run e.eastWest (mainSteps e z ops) = some x ∧ Became m z z' (x.1, x.2.1) ∧ Settled m z' ∧
      (sent (inChannel2 .cv) e z ops).map understood = x.2.2.map some := by
  induction ops with
  | nil =>
    intro z z' d _ hz hd _ h
    cases h
    exact ⟨_, rfl, ⟨hd, List.prefix_rfl, by simp [sessionCalls, newCalls]⟩, hz, rfl⟩
  | cons op ops ih =>
    intro z z' d hr hz hd hal h
    rw [Rx.run, bind_eq_ok] at h
    obtain ⟨z1, h1, h2⟩ := h
    have hal1 := hal.2
    rw [h1] at hal1
    have hal1 : Along (fun x => x.logon.assigned = false) e z1 ops := hal1
    have ha : z1.logon.assigned = false := by cases ops with
      | nil => exact hal1
      | cons => exact hal1.1
    have hr1 := hr.step op h1
    have hst := (step_keeps hm.toMemoryLike z z1 hr hz.store op h1 ha).2
    have later : ∀ y : Decoder × List Event, Became m z z1 y →
        ∃ x, y.1.run e.eastWest (mainSteps e z1 ops) = some x ∧ Became m z z' (x.1, y.2 ++ x.2.1) ∧ Settled m z' ∧
          (sent (inChannel2 .cv) e z1 ops).map understood = x.2.2.map some := by
      intro y hy
      obtain ⟨x, g1, g2, g3, g4⟩ := ih z1 z' y.1 hr1 (settled_of hy.is hst ha) hy.is hal1 h2
      exact ⟨x, g1, ⟨g2.is, hy.trace.trans g2.trace,
        by rw [sessionCalls_trans hy.trace g2.trace, hy.calls, g2.calls]⟩, g3, g4⟩
    simp only [mainSteps, sent, h1]
    by_cases hex : op.isExecute = true
    · cases op <;> try simp [RxOp.isExecute] at hex
      rename_i now rand
      have h1' := h1
      simp only [Rx.step, bind_eq_ok, pure_eq_ok, Except.ok.injEq] at h1'
      obtain ⟨⟨z2, ret⟩, h3, rfl⟩ := h1'
      simp only [inChannel2, mainStep, Bool.false_eq_true, if_false, List.nil_append]
      cases hfr : front z with
      | none =>
        rw [execute_front_none e z now rand (front_none hfr)] at h3
        cases h3
        exact later (d, []) ⟨hd, List.prefix_rfl, by simp [sessionCalls, newCalls]⟩
      | some p =>
        have hme : Meets m z (.ok z2) (d.execute e.eastWest p) := by
          rcases meets_execute hm hd hz.store hr.lengths hfr now rand with g | g
          · rw [g.1] at h3; cases h3
          · rw [h3] at g; exact g
        obtain ⟨y, hy, hb⟩ := hme.became
        obtain ⟨x, g1, g2, g3, g4⟩ := later y hb
        refine ⟨(x.1, y.2 ++ x.2.1, x.2.2), ?_, g2, g3, g4⟩
        show (d.execute e.eastWest p).bind _ = _
        rw [hy]
        have g1 : y.1.run e.eastWest (mainSteps e z2 ops) = some x := g1
        show (y.1.run e.eastWest (mainSteps e z2 ops)).map _ = _
        rw [g1]
        rfl
    · simp only [Bool.not_eq_true] at hex
      rcases decoder_idle hm.toMemoryLike hr hex h1 hz ha hd with ⟨rfl, hc, hb, hans⟩ | ⟨hc, hb⟩
      · obtain ⟨x, g1, g2, g3, g4⟩ := later _ hb
        simp only [inChannel2, mainStep, hc, decide_true, if_true]
        refine ⟨(x.1, x.2.1, (d.answer z.link.packet).2 ++ x.2.2), ?_, g2, g3, ?_⟩
        · have g1 : (d.answer z.link.packet).1.run e.eastWest (mainSteps e z1 ops) = some x := g1
          show ((d.answer z.link.packet).1.run e.eastWest (mainSteps e z1 ops)).map _ = _
          rw [g1]
          rfl
        · rw [List.map_append, hans, g4, ← List.map_append]
      · obtain ⟨x, g1, g2, g3, g4⟩ := later _ hb
        have hno : inChannel2 .cv z op = false := by
          clear ih later hex
          cases op <;> simp_all [inChannel2]
        have hns : mainStep z op = [] := by
          clear ih later
          cases op <;> first | rfl | (cases hex; done) | skip
          exact if_neg fun h => hc ⟨rfl, h⟩
        rw [hno, if_neg Bool.false_ne_true, List.nil_append, hns]
        exact ⟨x, g1, g2, g3, g4⟩

end Dcc
