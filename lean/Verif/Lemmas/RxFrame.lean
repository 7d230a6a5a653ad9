import Verif.Lemmas.Post
/-! What the functions of the receiver leave alone. -/
namespace Dcc

/-- What executing a packet in thread mode leaves alone. -/
structure ExecFrame (s s' : Rx) : Prop where
  link : s'.link = s.link
  deque : s'.deque = s.deque
  packetCount : s'.packetCount = s.packetCount
  preambleCount : s'.preambleCount = s.preambleCount
  received : s'.addrs.received = s.addrs.received
  logonAddr : s'.addrs.logon = s.addrs.logon
  enabled : s'.enabled = s.enabled
  selected : s'.logon.selected = s.logon.selected
  assigned : s'.logon.assigned = s.logon.assigned
  store : s'.logon.store = s.logon.store
  cidBack : s'.logon.cidBack = s.logon.cidBack
  sessionBack : s'.logon.sessionBack = s.logon.sessionBack
  backoff : s'.logon.backoff = s.logon.backoff
  lastPacketTp : s'.lastPacketTp = s.lastPacketTp
  tosTp : s'.tosTp = s.tosTp
  qlogon : s'.q.logon = s.q.logon
  qdyn : s'.q.dyn = s.q.dyn
  qadr : s'.q.adr = s.q.adr
  blockDyn : s'.q.blockDyn = s.q.blockDyn
  qos : s'.qos = s.qos
  trace : s.trace <+: s'.trace
  callbacks : s.callbacks <+: s'.callbacks
  did : s.cfg.did.length = 4 → s'.cfg.did.length = 4

theorem ExecFrame.refl (s : Rx) : ExecFrame s s := by
  constructor <;> first | rfl | exact List.prefix_rfl | exact id

theorem ExecFrame.trans {a b c : Rx} (h : ExecFrame a b) (g : ExecFrame b c) : ExecFrame a c := by
  constructor <;> first
    | (exact List.IsPrefix.trans h.trace g.trace)
    | (exact List.IsPrefix.trans h.callbacks g.callbacks)
    | (exact fun x => g.did (h.did x))
    | (simp only [g.link, h.link, g.deque, h.deque, g.packetCount, h.packetCount, g.preambleCount,
        h.preambleCount, g.received, h.received, g.logonAddr, h.logonAddr, g.enabled, h.enabled,
        g.selected, h.selected, g.assigned, h.assigned, g.store, h.store, g.cidBack, h.cidBack,
        g.sessionBack, h.sessionBack, g.backoff, h.backoff, g.lastPacketTp, h.lastPacketTp,
        g.tosTp, h.tosTp, g.qlogon, h.qlogon, g.qdyn, h.qdyn, g.qadr, h.qadr, g.blockDyn,
        h.blockDyn, g.qos, h.qos])

/-- Close `ExecFrame` goals for explicit states. -/
macro "frame_rfl" : tactic =>
  `(tactic| (constructor <;> first | rfl | exact id | exact List.prefix_rfl | exact List.prefix_append _ _ |
      simp [Rx.emit, Rx.readCv, Rx.writeCvByte, Rx.writeCvBit, Rx.defer]))

theorem frame_emit (s : Rx) (ev : Event) : ExecFrame s (s.emit ev) := by frame_rfl

theorem frame_defer (s : Rx) (c : Callback) (ev : Event) : ExecFrame s (s.defer c ev) := by frame_rfl

theorem frame_pom (s : Rx) (v : Byte) : Post (s.pom v) (ExecFrame s) := by
  unfold Rx.pom
  split
  · exact Post.ok (.refl s)
  · refine Post.bind_any fun d => Post.bind_any fun q => Post.ok ?_
    frame_rfl

theorem frame_callbackByte (s : Rx) (a b : Byte) : Post (s.callbackByte a b) (ExecFrame s) := by
  unfold Rx.callbackByte
  split
  · exact frame_pom s b
  split
  · exact Post.ok (frame_emit _ _)
  · exact Post.ok (.refl s)

theorem frame_callbackBit (s : Rx) (a b : Bool) : Post (s.callbackBit a b) (ExecFrame s) := by
  unfold Rx.callbackBit
  split
  · exact frame_pom s _
  split
  · exact Post.ok (frame_emit _ _)
  · exact Post.ok (.refl s)

theorem frame_initPrimary (e : Env) (s : Rx) (b : Byte) : Post (s.initPrimary e b) (ExecFrame s) := by
  unfold Rx.initPrimary
  split <;> (refine Post.bind_any fun a => Post.ok ?_; frame_rfl)

/-- The values `initRest` reads. -/
structure InitVals where
  cv19 : Byte
  cv20 : Byte
  cv15 : Byte
  cv16 : Byte
  cv28 : Byte
  cv250 : Byte
  cv251 : Byte
  cv252 : Byte
  cv253 : Byte
  cv65297 : Byte
  cv65298 : Byte
  cv65299 : Byte

/-- The configuration resulting from the values read. -/
def InitVals.cfg (v : InitVals) (cv29 : Byte) : Cfg :=
  { f0Exception := !cv29.getLsbD 1
    cvsLocked := v.cv15 != v.cv16 && v.cv15 != 0#8 && v.cv16 != 0#8
    ch1AddrEnabled := cv29.getLsbD 3 && v.cv28.getLsbD 0
    ch2DataEnabled := cv29.getLsbD 3 && v.cv28.getLsbD 1
    logonEnabled := cv29.getLsbD 3 && v.cv28.getLsbD 7
    ch2ConsistEnabled := cv29.getLsbD 3 && v.cv20.getLsbD 7
    did := [v.cv250, v.cv251, v.cv252, v.cv253] }

/-- The calls `initRest` makes. -/
def InitVals.events (v : InitVals) (e : Env) : List Event :=
  [.readCv 18#32 v.cv19, .readCv 19#32 v.cv20, .readCv 14#32 v.cv15, .readCv 15#32 v.cv16,
    .readCv 27#32 v.cv28] ++
  (if e.highCurrent then [.highCurrentBiDi (v.cv28.getLsbD 6)] else []) ++
  [.readCv 249#32 v.cv250, .readCv 250#32 v.cv251, .readCv 251#32 v.cv252, .readCv 252#32 v.cv253,
    .readCv 65296#32 v.cv65297, .readCv 65297#32 v.cv65298, .readCv 65298#32 v.cv65299]

/-- The state after `initRest`. -/
def InitVals.result (v : InitVals) (e : Env) (s : Rx) (cv29 : Byte) : Rx :=
  { s with
    trace := s.trace ++ v.events e
    addrs := { s.addrs with consist := consistOf v.cv19 v.cv20 }
    cfg := v.cfg cv29
    logon :=
      { s.logon with
        cidFront := (v.cv65297.setWidth 16 <<< 8) ||| v.cv65298.setWidth 16
        sessionFront := v.cv65299 } }

theorem readCv_eq (e : Env) (s : Rx) (cv : BitVec 32) :
    ∃ v, v = e.readCv s.trace cv ∧ s.readCv e cv = (v, s.emit (.readCv cv v)) := ⟨_, rfl, rfl⟩

/-- Events that only read the configuration. -/
def Event.isQuiet : Event → Bool
  | .readCv _ _ => true
  | .highCurrentBiDi _ => true
  | _ => false

/-- The value is the answer of the user's class at some time after `tr`, when only configuration
reads have happened since. -/
def Answer (e : Env) (tr : List Event) (cv : BitVec 32) (v : Byte) : Prop :=
  ∃ evs : List Event, (∀ ev ∈ evs, ev.isQuiet = true) ∧ v = e.readCv (tr ++ evs) cv

/-- All values are answers of the user's class. -/
structure InitVals.Answers (v : InitVals) (e : Env) (tr : List Event) : Prop where
  cv19 : Answer e tr 18#32 v.cv19
  cv20 : Answer e tr 19#32 v.cv20
  cv15 : Answer e tr 14#32 v.cv15
  cv16 : Answer e tr 15#32 v.cv16
  cv28 : Answer e tr 27#32 v.cv28
  cv250 : Answer e tr 249#32 v.cv250
  cv251 : Answer e tr 250#32 v.cv251
  cv252 : Answer e tr 251#32 v.cv252
  cv253 : Answer e tr 252#32 v.cv253
  cv65297 : Answer e tr 65296#32 v.cv65297
  cv65298 : Answer e tr 65297#32 v.cv65298
  cv65299 : Answer e tr 65298#32 v.cv65299

theorem readCv_answer (e : Env) (s s' : Rx) (evs : List Event) (cv : BitVec 32)
    (h : s'.trace = s.trace ++ evs) (hq : ∀ ev ∈ evs, ev.isQuiet = true) :
    ∃ v, Answer e s.trace cv v ∧ s'.readCv e cv = (v, s'.emit (.readCv cv v)) ∧
      (s'.emit (.readCv cv v)).trace = s.trace ++ (evs ++ [.readCv cv v]) ∧
      ∀ ev ∈ evs ++ [.readCv cv v], ev.isQuiet = true := by
  refine ⟨e.readCv s'.trace cv, ⟨evs, hq, by rw [h]⟩, rfl, by simp [Rx.emit, h], ?_⟩
  intro ev hev
  rcases List.mem_append.mp hev with h1 | h1
  · exact hq ev h1
  · simp only [List.mem_singleton] at h1
    subst h1
    rfl

theorem initRest_eq (e : Env) (s : Rx) (cv29 : Byte) :
    ∃ v : InitVals, v.Answers e s.trace ∧ s.initRest e cv29 = v.result e s cv29 := by
  unfold Rx.initRest
  obtain ⟨v1, a1, h1, t1, q1⟩ := readCv_answer e s _ _ 18#32 (List.append_nil _).symm (by simp)
  rw [h1]; dsimp only
  obtain ⟨v2, a2, h2, t2, q2⟩ := readCv_answer e s _ _ 19#32 t1 q1
  rw [h2]; dsimp only
  obtain ⟨v3, a3, h3, t3, q3⟩ := readCv_answer e s _ _ 14#32 t2 q2
  rw [h3]; dsimp only
  obtain ⟨v4, a4, h4, t4, q4⟩ := readCv_answer e s _ _ 15#32 t3 q3
  rw [h4]; dsimp only
  obtain ⟨v5, a5, h5, t5, q5⟩ := readCv_answer e s _ _ 27#32 t4 q4
  rw [h5]; dsimp only
  obtain ⟨sh, hsh, evh, th, qh, rh⟩ : ∃ sh, (if e.highCurrent = true then
      Rx.emit (((((s.emit (.readCv 18#32 v1)).emit (.readCv 19#32 v2)).emit (.readCv 14#32 v3)).emit
        (.readCv 15#32 v4)).emit (.readCv 27#32 v5)) (.highCurrentBiDi (v5.getLsbD 6))
      else ((((s.emit (.readCv 18#32 v1)).emit (.readCv 19#32 v2)).emit (.readCv 14#32 v3)).emit
        (.readCv 15#32 v4)).emit (.readCv 27#32 v5)) = sh ∧ ∃ evh, sh.trace = s.trace ++ evh ∧
        (∀ ev ∈ evh, ev.isQuiet = true) ∧ sh = { s with trace := s.trace ++
          ([.readCv 18#32 v1, .readCv 19#32 v2, .readCv 14#32 v3, .readCv 15#32 v4,
            .readCv 27#32 v5] ++ if e.highCurrent then [.highCurrentBiDi (v5.getLsbD 6)] else []) } := by
    refine ⟨_, rfl, ?_⟩
    cases e.highCurrent
    · exact ⟨_, t5, q5, by simp [Rx.emit]⟩
    · refine ⟨_, by simp only [if_true]; rw [Rx.emit, t5, List.append_assoc], ?_, by simp [Rx.emit]⟩
      intro ev hev
      rcases List.mem_append.mp hev with h1 | h1
      · exact q5 ev h1
      · simp only [List.mem_singleton] at h1
        subst h1
        rfl
  rw [hsh]
  obtain ⟨v6, a6, h6, t6, q6⟩ := readCv_answer e s _ _ 249#32 th qh
  rw [h6]; dsimp only
  obtain ⟨v7, a7, h7, t7, q7⟩ := readCv_answer e s _ _ 250#32 t6 q6
  rw [h7]; dsimp only
  obtain ⟨v8, a8, h8, t8, q8⟩ := readCv_answer e s _ _ 251#32 t7 q7
  rw [h8]; dsimp only
  obtain ⟨v9, a9, h9, t9, q9⟩ := readCv_answer e s _ _ 252#32 t8 q8
  rw [h9]; dsimp only
  obtain ⟨v10, a10, h10, t10, q10⟩ := readCv_answer e s _ _ 65296#32 t9 q9
  rw [h10]; dsimp only
  obtain ⟨v11, a11, h11, t11, q11⟩ := readCv_answer e s _ _ 65297#32 t10 q10
  rw [h11]; dsimp only
  obtain ⟨v12, a12, h12, t12, q12⟩ := readCv_answer e s _ _ 65298#32 t11 q11
  rw [h12]; dsimp only
  refine ⟨⟨v1, v2, v3, v4, v5, v6, v7, v8, v9, v10, v11, v12⟩, ⟨a1, a2, a3, a4, a5, a6, a7, a8, a9, a10, a11, a12⟩, ?_⟩
  subst rh
  simp [InitVals.result, InitVals.events, InitVals.cfg, Rx.emit]

theorem frame_initRest (e : Env) (s : Rx) (b : Byte) : ExecFrame s (s.initRest e b) := by
  obtain ⟨v, -, h⟩ := initRest_eq e s b
  rw [h]
  constructor <;> first | rfl | exact List.prefix_rfl | exact List.prefix_append _ _ | exact fun _ => rfl

theorem frame_init (e : Env) (s : Rx) : Post (s.init e) (ExecFrame s) := by
  unfold Rx.init
  refine Post.bind (frame_initPrimary e _ _) fun a ha => Post.ok ?_
  exact ((frame_emit _ _).trans ha).trans (frame_initRest e a _)

theorem frame_initIfNeeded (e : Env) (s : Rx) (cv : BitVec 32) :
    Post (s.initIfNeeded e cv) (ExecFrame s) := by
  unfold Rx.initIfNeeded
  split
  · exact frame_init e s
  · exact Post.ok (.refl s)

theorem frame_cvVerifyByte (e : Env) (s : Rx) (cv : BitVec 32) (b : Byte) :
    Post (s.cvVerifyByte e cv b) (ExecFrame s) := by
  unfold Rx.cvVerifyByte
  split
  · exact Post.ok (.refl s)
  split
  · exact Post.ok (frame_defer ..)
  · exact (frame_callbackByte _ _ _).mono fun a ha => (frame_emit _ _).trans ha

theorem frame_cvVerifyBit (e : Env) (s : Rx) (cv : BitVec 32) (b : Bool) (p : BitVec 32) :
    Post (s.cvVerifyBit e cv b p) (ExecFrame s) := by
  unfold Rx.cvVerifyBit
  split
  · exact Post.ok (.refl s)
  split
  · exact Post.ok (frame_defer ..)
  · exact (frame_callbackBit _ _ _).mono fun a ha => (frame_emit _ _).trans ha

theorem frame_cvWriteImplByte (e : Env) (s : Rx) (cv : BitVec 32) (b : Byte) :
    Post (s.cvWriteImplByte e cv b) (ExecFrame s) := by
  unfold Rx.cvWriteImplByte
  split
  · exact Post.ok (frame_defer ..)
  · exact (frame_callbackByte _ _ _).mono fun a ha => (frame_emit _ _).trans ha

theorem frame_cvWriteImplBit (e : Env) (s : Rx) (cv : BitVec 32) (b : Bool) (p : BitVec 32) :
    Post (s.cvWriteImplBit e cv b p) (ExecFrame s) := by
  unfold Rx.cvWriteImplBit
  split
  · exact Post.ok (frame_defer ..)
  · exact (frame_callbackBit _ _ _).mono fun a ha => (frame_emit _ _).trans ha

theorem frame_cvWriteByte (e : Env) (s : Rx) (cv : BitVec 32) (b : Byte) :
    Post (s.cvWriteByte e cv b) (ExecFrame s) := by
  unfold Rx.cvWriteByte
  split
  · exact Post.ok (.refl s)
  · exact Post.bind (frame_cvWriteImplByte ..) fun a ha =>
      (frame_initIfNeeded e a cv).mono fun c hc => ha.trans hc

theorem frame_cvWriteBit (e : Env) (s : Rx) (cv : BitVec 32) (b : Bool) (p : BitVec 32) :
    Post (s.cvWriteBit e cv b p) (ExecFrame s) := by
  unfold Rx.cvWriteBit
  split
  · exact Post.ok (.refl s)
  · exact Post.bind (frame_cvWriteImplBit ..) fun a ha =>
      (frame_initIfNeeded e a cv).mono fun c hc => ha.trans hc

theorem frame_count (s : Rx) (p : Packet) : ExecFrame s (s.countOwnEqualCvPackets p) := by
  unfold Rx.countOwnEqualCvPackets
  split <;> frame_rfl

/-- Prove `Post f (ExecFrame s)` goals by going through the program. -/
macro "frame_auto" : tactic =>
  `(tactic| repeat' (first
    | exact frame_cvVerifyByte ..
    | exact frame_cvVerifyBit ..
    | exact frame_cvWriteByte ..
    | exact frame_cvWriteBit ..
    | exact Post.ok (ExecFrame.refl _)
    | exact Post.pure (ExecFrame.refl _)
    | exact Post.error
    | exact Post.ok (frame_emit ..)
    | exact Post.pure (frame_emit ..)
    | (refine Post.bind_any fun _ => ?_)
    | dsimp only
    | split))

theorem frame_cvLongBody (e : Env) (s : Rx) (bs : List Byte) :
    Post (s.cvLongBody e bs) (ExecFrame s) := by
  unfold Rx.cvLongBody
  frame_auto

theorem frame_cvLong (e : Env) (s : Rx) (addr : BitVec 16) (p : Packet) (bs : List Byte) :
    Post (s.cvLong e addr p bs) (ExecFrame s) := by
  unfold Rx.cvLong
  split
  · exact Post.ok (.refl s)
  dsimp only
  split
  · exact Post.ok (frame_count s p)
  · exact (frame_cvLongBody ..).mono fun a ha => (frame_count s p).trans ha

theorem frame_cvShortBody (e : Env) (s : Rx) (bs : List Byte) :
    Post (s.cvShortBody e bs) (ExecFrame s) := by
  unfold Rx.cvShortBody
  refine Post.bind_any fun b0 => ?_
  dsimp only
  split
  · frame_auto
  split
  · frame_auto
  split
  · split
    · frame_auto
    · refine Post.bind_any fun b1 => ?_
      refine Post.bind (frame_cvWriteByte ..) fun s1 h1 => ?_
      refine Post.bind_any fun b2 => ?_
      refine Post.bind (frame_cvWriteByte ..) fun s2 h2 => ?_
      exact (frame_cvWriteBit ..).mono fun s3 h3 => (h1.trans h2).trans h3
  split
  · split
    · frame_auto
    · refine Post.bind_any fun b1 => ?_
      refine Post.bind (frame_cvWriteByte ..) fun s1 h1 => ?_
      refine Post.bind_any fun b2 => ?_
      exact (frame_cvWriteByte ..).mono fun s2 h2 => h1.trans h2
  · frame_auto

theorem frame_cvShort (e : Env) (s : Rx) (addr : BitVec 16) (p : Packet) (bs : List Byte) :
    Post (s.cvShort e addr p bs) (ExecFrame s) := by
  unfold Rx.cvShort
  split
  · exact Post.ok (.refl s)
  · exact (frame_cvShortBody ..).mono fun a ha => (frame_count s p).trans ha

theorem frame_registerMode (e : Env) (s : Rx) (bs : List Byte) :
    Post (s.registerMode e bs) (ExecFrame s) := by
  unfold Rx.registerMode
  refine Post.bind_any fun b0 => ?_
  dsimp only
  refine Post.bind_any fun b1 => ?_
  split
  · frame_auto
  split
  · frame_auto
  split
  · split
    · refine Post.ok ?_
      frame_rfl
    · frame_auto
  · frame_auto

theorem frame_tipOffSearch (s : Rx) (rand : Nat) : Post (s.tipOffSearch rand) (ExecFrame s) := by
  unfold Rx.tipOffSearch
  dsimp only
  split
  · refine Post.ok ?_
    frame_rfl
  split
  · refine Post.ok ?_
    frame_rfl
  · refine Post.bind_any fun _ => Post.bind_any fun _ => Post.bind_any fun _ =>
      Post.bind_any fun _ => Post.ok ?_
    frame_rfl

theorem frame_binaryState (s : Rx) (xf : BitVec 32) (b : Bool) (rand : Nat) :
    Post (s.binaryState xf b rand) (ExecFrame s) := by
  unfold Rx.binaryState
  split
  · exact frame_tipOffSearch s rand
  · exact Post.ok (.refl s)

theorem frame_directionSpeed (s : Rx) (a : BitVec 16) (d : Bool) (v : Int) :
    ExecFrame s (s.directionSpeed a d v) := (frame_emit _ _).trans (frame_emit _ _)

theorem frame_speed126 (s : Rx) (a : BitVec 16) (b : Byte) : ExecFrame s (s.speed126 a b) := by
  unfold Rx.speed126
  dsimp only
  split
  · exact frame_directionSpeed ..
  split
  · exact frame_emit ..
  · exact frame_directionSpeed ..

theorem frame_special (e : Env) (s : Rx) (a : BitVec 16) (b : Byte) :
    ExecFrame s (s.specialOperatingModes e a b) := by
  have h : ExecFrame s { s with man := b.getLsbD 7 } := by frame_rfl
  unfold Rx.specialOperatingModes
  dsimp only
  split
  · split
    · exact h.trans (frame_emit ..)
    split
    · exact h.trans (frame_emit ..)
    · exact h.trans (frame_emit ..)
  · exact h

theorem frame_optFunctions (s : Rx) (a : BitVec 16) (bs : List Byte) (i : Nat) (m : BitVec 32)
    (k : Nat) : Post (s.optFunctions a bs i m k) (ExecFrame s) := by
  unfold Rx.optFunctions
  split
  · split
    · exact Post.ok (frame_emit ..)
    · exact Post.error
  · exact Post.ok (.refl s)

theorem frame_speedDirFunctions (s : Rx) (a : BitVec 16) (bs : List Byte) :
    Post (s.speedDirFunctions a bs) (ExecFrame s) := by
  unfold Rx.speedDirFunctions
  refine Post.bind (frame_optFunctions ..) fun s1 h1 => ?_
  refine Post.bind (frame_optFunctions ..) fun s2 h2 => ?_
  refine Post.bind (frame_optFunctions ..) fun s3 h3 => ?_
  exact (frame_optFunctions ..).mono fun s4 h4 => ((h1.trans h2).trans h3).trans h4

theorem frame_advanced (e : Env) (s : Rx) (a : BitVec 16) (bs : List Byte) :
    Post (s.advancedOperations e a bs) (ExecFrame s) := by
  unfold Rx.advancedOperations
  refine Post.bind_any fun b0 => ?_
  split
  · refine Post.bind (frame_speedDirFunctions ..) fun s1 h1 => ?_
    exact Post.bind_any fun b1 => Post.ok (h1.trans (frame_speed126 ..))
  split
  · exact Post.bind_any fun b1 => Post.ok (frame_speed126 ..)
  split
  · exact Post.bind_any fun b1 => Post.ok (frame_special ..)
  · exact Post.ok (.refl s)

theorem frame_speedAndDirection (s : Rx) (a : BitVec 16) (bs : List Byte) :
    Post (s.speedAndDirection a bs) (ExecFrame s) := by
  unfold Rx.speedAndDirection
  refine Post.bind_any fun b0 => ?_
  dsimp only
  split
  · exact Post.ok (frame_emit ..)
  split
  · exact Post.ok ((frame_emit ..).trans (frame_directionSpeed ..))
  · exact Post.ok (frame_directionSpeed ..)

theorem frame_functionGroup (s : Rx) (a : BitVec 16) (bs : List Byte) :
    Post (s.functionGroup a bs) (ExecFrame s) := by
  unfold Rx.functionGroup
  frame_auto

theorem frame_featureExpansion (s : Rx) (a : BitVec 16) (bs : List Byte) (rand : Nat) :
    Post (s.featureExpansion a bs rand) (ExecFrame s) := by
  unfold Rx.featureExpansion
  refine Post.bind_any fun b0 => ?_
  split
  · exact Post.bind_any fun b2 => Post.bind_any fun b1 => frame_binaryState ..
  split
  · exact Post.bind_any fun b1 => frame_binaryState ..
  · frame_auto

theorem frame_setServiceMode (s : Rx) (b : Bool) : ExecFrame s (s.setServiceMode b) := by
  unfold Rx.setServiceMode
  frame_rfl

theorem frame_executeInstruction (e : Env) (s : Rx) (a : BitVec 16) (p : Packet) (bs : List Byte)
    (rand : Nat) : Post (s.executeInstruction e a p bs rand) (ExecFrame s) := by
  unfold Rx.executeInstruction
  refine Post.bind_any fun i => ?_
  cases i <;> dsimp only
  · exact Post.ok (.refl s)
  · split
    · refine Post.bind_any fun b => ?_
      split
      · exact Post.ok (frame_setServiceMode ..)
      · exact Post.ok (.refl s)
    · exact Post.ok (.refl s)
  · exact Post.bind_any fun b => Post.bind_any fun c => frame_cvWriteByte ..
  · exact frame_advanced ..
  · exact frame_speedAndDirection ..
  · exact frame_functionGroup ..
  · exact frame_featureExpansion ..
  · exact frame_cvLong ..
  · exact frame_cvShort ..
  · exact Post.ok (.refl s)

theorem frame_operationsAddressed (e : Env) (s : Rx) (a : Address) (p : Packet) (bs : List Byte)
    (rand : Nat) : Post (s.executeOperationsAddressed e a p bs rand) (fun r => ExecFrame s r.1) := by
  unfold Rx.executeOperationsAddressed
  split
  · exact Post.ok (.refl s)
  · exact Post.bind (frame_executeInstruction ..) fun s1 h1 => Post.ok h1

theorem frame_operations (e : Env) (s : Rx) (p : Packet) (rand : Nat) :
    Post (s.executeOperations e p rand) (fun r => ExecFrame s r.1) := by
  unfold Rx.executeOperations
  refine Post.bind_any fun a => ?_
  split
  · exact frame_operationsAddressed ..
  · exact frame_operationsAddressed ..
  · exact frame_operationsAddressed ..
  · exact Post.ok (.refl s)

theorem frame_service (e : Env) (s : Rx) (p : Packet) :
    Post (s.executeService e p) (fun r => ExecFrame s r.1) := by
  unfold Rx.executeService
  refine Post.bind_any fun b0 => ?_
  split
  · exact Post.ok (.refl s)
  split
  · exact Post.ok (frame_setServiceMode ..)
  split
  · exact Post.bind (frame_registerMode ..) fun s1 h1 => Post.ok h1
  split
  · exact Post.bind (frame_cvLong ..) fun s1 h1 => Post.ok h1
  · exact Post.ok (.refl s)

theorem frame_executeFront (e : Env) (s : Rx) (rand : Nat) :
    Post (s.executeFront e rand) (fun r => ExecFrame s r.1) := by
  unfold Rx.executeFront
  split
  · exact Post.error
  split
  · exact frame_service ..
  · exact frame_operations ..

end Dcc
