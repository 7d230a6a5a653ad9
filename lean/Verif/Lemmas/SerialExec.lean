import Verif.Lemmas.Serial
/-! What the methods called in the thread do is independent of the interrupts, function by function. -/
namespace Dcc
open Spec Prog

variable {e : Env} {α β : Type}

theorem visible_emit {s t : Rx} (h : core s = core t) (ev : Event) : core (s.emit ev) = core (t.emit ev) := by
  have key : ∀ s : Rx, core (s.emit ev) = { core s with trace := (core s).trace ++ visible [ev] } := fun s => by
    show core (s.emit ev) = { core s with trace := visible s.trace ++ visible [ev] }
    rw [show visible s.trace ++ visible [ev] = visible (s.trace ++ [ev]) from (List.filter_append ..).symm]
    rfl
  rw [key, key, h]

theorem visible_same {s t : Rx} (h : core s = core t) : visible s.trace = visible t.trace := congrArg (·.trace) h

theorem follows_emit {l : Nat} (hl : otherLine l) (ev : Event) : Follows (emit l ev) (emit l ev) :=
  .set' hl (fun _ _ h => visible_emit h ev) fun _ => ⟨rfl, id, rfl, rfl⟩

theorem follows_defer {l : Nat} (hl : otherLine l) (c : Callback) (ev : Event) :
    Follows (set l (·.defer c ev)) (set l (·.defer c ev)) :=
  .set' hl (fun s t h => visible_emit (s := { s with callbacks := s.callbacks ++ [c] })
    (t := { t with callbacks := t.callbacks ++ [c] })
    (show { core s with callbacks := (core s).callbacks ++ [c] } = { core t with callbacks := (core t).callbacks ++ [c] } by
      rw [h]) ev) fun _ => ⟨rfl, id, rfl, rfl⟩

theorem follows_readCv {l : Nat} (hd : Deaf e) (hl : otherLine l) (cv : BitVec 32) :
    Follows (Thread.readCv l e cv) (Thread.readCv l e cv) :=
  .call hl (fun s t h => by
    have : e.readCv s.trace cv = e.readCv t.trace cv := by rw [hd.readCv, visible_same h, ← hd.readCv]
    refine ⟨this, ?_⟩
    show core (s.emit (.readCv cv (e.readCv s.trace cv))) = core (t.emit (.readCv cv (e.readCv t.trace cv)))
    rw [this]
    exact visible_emit h _) fun _ => ⟨rfl, id, rfl, rfl⟩

theorem follows_readCvByte {l : Nat} (hd : Deaf e) (hl : otherLine l) (cv : BitVec 32) (byte : Byte) :
    Follows (Prog.call l fun s : Rx =>
        (e.readCvByte s.trace cv byte, s.emit (.readCvByte cv byte (e.readCvByte s.trace cv byte))))
      (Prog.call l fun s : Rx =>
        (e.readCvByte s.trace cv byte, s.emit (.readCvByte cv byte (e.readCvByte s.trace cv byte)))) :=
  .call hl (fun s t h => by
    have : e.readCvByte s.trace cv byte = e.readCvByte t.trace cv byte := by
      rw [hd.readCvByte, visible_same h, ← hd.readCvByte]
    refine ⟨this, ?_⟩
    dsimp only
    rw [this]
    exact visible_emit h _) fun _ => ⟨rfl, id, rfl, rfl⟩

theorem follows_readCvBit {l : Nat} (hd : Deaf e) (hl : otherLine l) (cv : BitVec 32) (bit : Bool) (pos : BitVec 32) :
    Follows (Prog.call l fun s : Rx =>
        (e.readCvBit s.trace cv bit pos, s.emit (.readCvBit cv bit pos (e.readCvBit s.trace cv bit pos))))
      (Prog.call l fun s : Rx =>
        (e.readCvBit s.trace cv bit pos, s.emit (.readCvBit cv bit pos (e.readCvBit s.trace cv bit pos)))) :=
  .call hl (fun s t h => by
    have : e.readCvBit s.trace cv bit pos = e.readCvBit t.trace cv bit pos := by
      rw [hd.readCvBit, visible_same h, ← hd.readCvBit]
    refine ⟨this, ?_⟩
    dsimp only
    rw [this]
    exact visible_emit h _) fun _ => ⟨rfl, id, rfl, rfl⟩

theorem write_byte (hd : Deaf e) {s t : Rx} (h : core s = core t) (cv : BitVec 32) (byte : Byte) :
    (s.writeCvByte e cv byte).1 = (t.writeCvByte e cv byte).1 ∧
      core (s.writeCvByte e cv byte).2 = core (t.writeCvByte e cv byte).2 := by
  have : e.writeCvByte s.trace cv byte = e.writeCvByte t.trace cv byte := by
    rw [hd.writeCvByte, visible_same h, ← hd.writeCvByte]
  refine ⟨this, ?_⟩
  show core (s.emit (.writeCvByte cv byte (e.writeCvByte s.trace cv byte))) =
    core (t.emit (.writeCvByte cv byte (e.writeCvByte t.trace cv byte)))
  rw [this]
  exact visible_emit h _

theorem write_bit (hd : Deaf e) {s t : Rx} (h : core s = core t) (cv : BitVec 32) (bit : Bool) (pos : BitVec 32) :
    (s.writeCvBit e cv bit pos).1 = (t.writeCvBit e cv bit pos).1 ∧
      core (s.writeCvBit e cv bit pos).2 = core (t.writeCvBit e cv bit pos).2 := by
  have : e.writeCvBit s.trace cv bit pos = e.writeCvBit t.trace cv bit pos := by
    rw [hd.writeCvBit, visible_same h, ← hd.writeCvBit]
  refine ⟨this, ?_⟩
  show core (s.emit (.writeCvBit cv bit pos (e.writeCvBit s.trace cv bit pos))) =
    core (t.emit (.writeCvBit cv bit pos (e.writeCvBit t.trace cv bit pos)))
  rw [this]
  exact visible_emit h _

theorem follows_writeCvByte {l : Nat} (hd : Deaf e) (hl : otherLine l) (cv : BitVec 32) (byte : Byte) :
    Follows (Prog.call l (·.writeCvByte e cv byte)) (Prog.call l (·.writeCvByte e cv byte)) :=
  .call hl (fun _ _ h => write_byte hd h cv byte) fun _ => ⟨rfl, id, rfl, rfl⟩

theorem follows_writeCvBit {l : Nat} (hd : Deaf e) (hl : otherLine l) (cv : BitVec 32) (bit : Bool) (pos : BitVec 32) :
    Follows (Prog.call l (·.writeCvBit e cv bit pos)) (Prog.call l (·.writeCvBit e cv bit pos)) :=
  .call hl (fun _ _ h => write_bit hd h cv bit pos) fun _ => ⟨rfl, id, rfl, rfl⟩

theorem follows_storeCv {l : Nat} (hd : Deaf e) (hl : otherLine l) (cv : BitVec 32) (byte : Byte) :
    Follows (Thread.storeCv l e cv byte) (Thread.storeCv l e cv byte) :=
  .set' hl (fun _ _ h => (write_byte hd h cv byte).2) fun _ => ⟨rfl, id, rfl, rfl⟩

theorem follows_storeBit {l : Nat} (hd : Deaf e) (hl : otherLine l) (cv : BitVec 32) (bit : Bool) (pos : BitVec 32) :
    Follows (set l fun s => (s.writeCvBit e cv bit pos).2) (set l fun s => (s.writeCvBit e cv bit pos).2) :=
  .set' hl (fun _ _ h => (write_bit hd h cv bit pos).2) fun _ => ⟨rfl, id, rfl, rfl⟩

/-- Steps through two programs; every function done adds a rule. -/
syntax "follow1" : tactic
macro_rules | `(tactic| follow1) => `(tactic| exact Follows.get (by decide) fun s => by with_unfolding_all rfl)
macro_rules | `(tactic| follow1) => `(tactic| exact Follows.lift (by decide) _)
macro_rules
  | `(tactic| follow1) => `(tactic| exact Follows.set (by decide) (fun s => by with_unfolding_all rfl) fun s => by with_unfolding_all exact ⟨rfl, id, rfl, rfl⟩)
macro_rules | `(tactic| follow1) => `(tactic| exact follows_emit (by decide) _)
macro_rules | `(tactic| follow1) => `(tactic| exact follows_defer (by decide) _ _)
macro_rules | `(tactic| follow1) => `(tactic| exact follows_readCv ‹_› (by decide) _)
macro_rules | `(tactic| follow1) => `(tactic| exact follows_readCvByte ‹_› (by decide) _ _)
macro_rules | `(tactic| follow1) => `(tactic| exact follows_readCvBit ‹_› (by decide) _ _ _)
macro_rules | `(tactic| follow1) => `(tactic| exact follows_writeCvByte ‹_› (by decide) _ _)
macro_rules | `(tactic| follow1) => `(tactic| exact follows_writeCvBit ‹_› (by decide) _ _ _)
macro_rules | `(tactic| follow1) => `(tactic| exact follows_storeCv ‹_› (by decide) _ _)
macro_rules | `(tactic| follow1) => `(tactic| exact follows_storeBit ‹_› (by decide) _ _ _)
macro_rules | `(tactic| follow1) => `(tactic| exact follows_pom _)
macro_rules | `(tactic| follow1) => `(tactic| exact follows_tipOffSearch _ _)
macro_rules | `(tactic| follow1) => `(tactic| exact Follows.pure _)

macro "follow" : tactic => `(tactic| repeat' first
  | with_reducible follow1
  | refine Follows.bind ?_ fun _ => ?_
  | split
  | dsimp only)

theorem follows_initPrimary (hd : Deaf e) (cv29 : Byte) :
    Follows (Thread.initPrimary e cv29) (Thread.initPrimary e cv29) := by
  unfold Thread.initPrimary
  follow

macro_rules | `(tactic| follow1) => `(tactic| exact follows_initPrimary ‹_› _)

theorem follows_initConsist (hd : Deaf e) :
    Follows (Thread.initConsist e) (Thread.initConsist e) := by
  unfold Thread.initConsist
  follow

macro_rules | `(tactic| follow1) => `(tactic| exact follows_initConsist ‹_›)

theorem follows_initLock (hd : Deaf e) (cv29 : Byte) :
    Follows (Thread.initLock e cv29) (Thread.initLock e cv29) := by
  unfold Thread.initLock
  follow

macro_rules | `(tactic| follow1) => `(tactic| exact follows_initLock ‹_› _)

theorem follows_initBidi (hd : Deaf e) (cv29 cv20 : Byte) :
    Follows (Thread.initBidi e cv29 cv20) (Thread.initBidi e cv29 cv20) := by
  unfold Thread.initBidi
  follow

macro_rules | `(tactic| follow1) => `(tactic| exact follows_initBidi ‹_› _ _)

theorem follows_initIds (hd : Deaf e) :
    Follows (Thread.initIds e) (Thread.initIds e) := by
  unfold Thread.initIds
  follow

macro_rules | `(tactic| follow1) => `(tactic| exact follows_initIds ‹_›)

theorem follows_init (hd : Deaf e) :
    Follows (Thread.init e) (Thread.init e) := by
  unfold Thread.init
  follow

macro_rules | `(tactic| follow1) => `(tactic| exact follows_init ‹_›)

theorem follows_storePrimary (hd : Deaf e) :
    Follows (Thread.storePrimary e) (Thread.storePrimary e) := by
  unfold Thread.storePrimary
  follow

macro_rules | `(tactic| follow1) => `(tactic| exact follows_storePrimary ‹_›)

theorem follows_storeTail (hd : Deaf e) :
    Follows (Thread.storeTail e) (Thread.storeTail e) := by
  unfold Thread.storeTail
  follow

macro_rules | `(tactic| follow1) => `(tactic| exact follows_storeTail ‹_›)

theorem follows_logonStore (hd : Deaf e) :
    Follows (Thread.logonStore e) (Thread.logonStore e) := by
  unfold Thread.logonStore
  follow

macro_rules | `(tactic| follow1) => `(tactic| exact follows_logonStore ‹_›)

theorem follows_callbackByte (b v : Byte) :
    Follows (Thread.callbackByte b v) (Thread.callbackByte b v) := by
  unfold Thread.callbackByte
  follow

macro_rules | `(tactic| follow1) => `(tactic| exact follows_callbackByte _ _)

theorem follows_callbackBit (b v : Bool) :
    Follows (Thread.callbackBit b v) (Thread.callbackBit b v) := by
  unfold Thread.callbackBit
  follow

macro_rules | `(tactic| follow1) => `(tactic| exact follows_callbackBit _ _)

theorem follows_cvVerifyByte (hd : Deaf e) (cv : BitVec 32) (b : Byte) :
    Follows (Thread.cvVerifyByte e cv b) (Thread.cvVerifyByte e cv b) := by
  unfold Thread.cvVerifyByte
  follow

macro_rules | `(tactic| follow1) => `(tactic| exact follows_cvVerifyByte ‹_› _ _)

theorem follows_cvVerifyBit (hd : Deaf e) (cv : BitVec 32) (b : Bool) (pos : BitVec 32) :
    Follows (Thread.cvVerifyBit e cv b pos) (Thread.cvVerifyBit e cv b pos) := by
  unfold Thread.cvVerifyBit
  follow

macro_rules | `(tactic| follow1) => `(tactic| exact follows_cvVerifyBit ‹_› _ _ _)

theorem follows_cvWriteImplByte (hd : Deaf e) (cv : BitVec 32) (b : Byte) :
    Follows (Thread.cvWriteImplByte e cv b) (Thread.cvWriteImplByte e cv b) := by
  unfold Thread.cvWriteImplByte
  follow

macro_rules | `(tactic| follow1) => `(tactic| exact follows_cvWriteImplByte ‹_› _ _)

theorem follows_cvWriteImplBit (hd : Deaf e) (cv : BitVec 32) (b : Bool) (pos : BitVec 32) :
    Follows (Thread.cvWriteImplBit e cv b pos) (Thread.cvWriteImplBit e cv b pos) := by
  unfold Thread.cvWriteImplBit
  follow

macro_rules | `(tactic| follow1) => `(tactic| exact follows_cvWriteImplBit ‹_› _ _ _)

theorem follows_cvWriteByte (hd : Deaf e) (cv : BitVec 32) (b : Byte) :
    Follows (Thread.cvWriteByte e cv b) (Thread.cvWriteByte e cv b) := by
  unfold Thread.cvWriteByte
  follow

macro_rules | `(tactic| follow1) => `(tactic| exact follows_cvWriteByte ‹_› _ _)

theorem follows_cvWriteBit (hd : Deaf e) (cv : BitVec 32) (b : Bool) (pos : BitVec 32) :
    Follows (Thread.cvWriteBit e cv b pos) (Thread.cvWriteBit e cv b pos) := by
  unfold Thread.cvWriteBit
  follow

macro_rules | `(tactic| follow1) => `(tactic| exact follows_cvWriteBit ‹_› _ _ _)

theorem follows_countOwnEqualCvPackets (p : Packet) :
    Follows (Thread.countOwnEqualCvPackets p) (Thread.countOwnEqualCvPackets p) := by
  unfold Thread.countOwnEqualCvPackets
  follow

macro_rules | `(tactic| follow1) => `(tactic| exact follows_countOwnEqualCvPackets _)

theorem follows_cvLongBody (hd : Deaf e) (bs : List Byte) :
    Follows (Thread.cvLongBody e bs) (Thread.cvLongBody e bs) := by
  unfold Thread.cvLongBody
  follow

macro_rules | `(tactic| follow1) => `(tactic| exact follows_cvLongBody ‹_› _)

theorem follows_cvLong (hd : Deaf e) (addr : BitVec 16) (p : Packet) (bs : List Byte) :
    Follows (Thread.cvLong e addr p bs) (Thread.cvLong e addr p bs) := by
  unfold Thread.cvLong
  follow

macro_rules | `(tactic| follow1) => `(tactic| exact follows_cvLong ‹_› _ _ _)

theorem follows_cvShortBody (hd : Deaf e) (bs : List Byte) :
    Follows (Thread.cvShortBody e bs) (Thread.cvShortBody e bs) := by
  unfold Thread.cvShortBody
  follow

macro_rules | `(tactic| follow1) => `(tactic| exact follows_cvShortBody ‹_› _)

theorem follows_cvShort (hd : Deaf e) (addr : BitVec 16) (p : Packet) (bs : List Byte) :
    Follows (Thread.cvShort e addr p bs) (Thread.cvShort e addr p bs) := by
  unfold Thread.cvShort
  follow

macro_rules | `(tactic| follow1) => `(tactic| exact follows_cvShort ‹_› _ _ _)

theorem follows_registerMode (hd : Deaf e) (bs : List Byte) :
    Follows (Thread.registerMode e bs) (Thread.registerMode e bs) := by
  unfold Thread.registerMode
  follow

macro_rules | `(tactic| follow1) => `(tactic| exact follows_registerMode ‹_› _)

theorem follows_setServiceMode (b : Bool) :
    Follows (Thread.setServiceMode b) (Thread.setServiceMode b) := by
  unfold Thread.setServiceMode
  follow

macro_rules | `(tactic| follow1) => `(tactic| exact follows_setServiceMode _)

theorem follows_directionSpeed (addr : BitVec 16) (dir : Bool) (speed : Int) :
    Follows (Thread.directionSpeed addr dir speed) (Thread.directionSpeed addr dir speed) := by
  unfold Thread.directionSpeed
  follow

macro_rules | `(tactic| follow1) => `(tactic| exact follows_directionSpeed _ _ _)

theorem follows_binaryState (xf : BitVec 32) (b : Bool) (rand rand' : Nat) :
    Follows (Thread.binaryState xf b rand) (Thread.binaryState xf b rand') := by
  unfold Thread.binaryState
  follow

macro_rules | `(tactic| follow1) => `(tactic| exact follows_binaryState _ _ _ _)

theorem follows_consistControl (hd : Deaf e) (bs : List Byte) :
    Follows (Thread.consistControl e bs) (Thread.consistControl e bs) := by
  unfold Thread.consistControl
  follow

macro_rules | `(tactic| follow1) => `(tactic| exact follows_consistControl ‹_› _)

theorem follows_optFunctions {l : Nat} (hl : otherLine l) (addr : BitVec 16) (bs : List Byte) (i : Nat)
    (mask : BitVec 32) (shift : Nat) :
    Follows (Thread.optFunctions l addr bs i mask shift) (Thread.optFunctions l addr bs i mask shift) := by
  unfold Thread.optFunctions
  split
  · exact .bind (.lift hl _) fun _ => follows_emit hl _
  · exact .pure _

macro_rules | `(tactic| follow1) => `(tactic| exact follows_optFunctions (by decide) _ _ _ _ _)

theorem follows_speedDirFunctions (addr : BitVec 16) (bs : List Byte) :
    Follows (Thread.speedDirFunctions addr bs) (Thread.speedDirFunctions addr bs) := by
  unfold Thread.speedDirFunctions
  follow

macro_rules | `(tactic| follow1) => `(tactic| exact follows_speedDirFunctions _ _)

theorem follows_speed126 (addr : BitVec 16) (b1 : Byte) :
    Follows (Thread.speed126 addr b1) (Thread.speed126 addr b1) := by
  unfold Thread.speed126
  follow

macro_rules | `(tactic| follow1) => `(tactic| exact follows_speed126 _ _)

theorem follows_specialOperatingModes (addr : BitVec 16) (b1 : Byte) :
    Follows (Thread.specialOperatingModes e addr b1) (Thread.specialOperatingModes e addr b1) := by
  unfold Thread.specialOperatingModes
  refine .bind (.set (by decide) (fun _ => rfl) fun _ => ⟨rfl, id, rfl, rfl⟩) fun _ => ?_
  refine .ite (fun _ => .ite (fun _ => ?_) fun _ => .ite (fun _ => ?_) fun _ => ?_) fun _ => .pure _
  all_goals exact follows_emit (by decide) _

macro_rules | `(tactic| follow1) => `(tactic| exact follows_specialOperatingModes _ _)

theorem follows_advancedOperations (addr : BitVec 16) (bs : List Byte) :
    Follows (Thread.advancedOperations e addr bs) (Thread.advancedOperations e addr bs) := by
  unfold Thread.advancedOperations
  follow

macro_rules | `(tactic| follow1) => `(tactic| exact follows_advancedOperations _ _)

theorem follows_speedAndDirection (addr : BitVec 16) (bs : List Byte) :
    Follows (Thread.speedAndDirection addr bs) (Thread.speedAndDirection addr bs) := by
  unfold Thread.speedAndDirection
  follow

macro_rules | `(tactic| follow1) => `(tactic| exact follows_speedAndDirection _ _)

theorem follows_functionGroup (addr : BitVec 16) (bs : List Byte) :
    Follows (Thread.functionGroup addr bs) (Thread.functionGroup addr bs) := by
  unfold Thread.functionGroup
  follow

macro_rules | `(tactic| follow1) => `(tactic| exact follows_functionGroup _ _)

theorem follows_featureExpansion (addr : BitVec 16) (bs : List Byte) (rand rand' : Nat) :
    Follows (Thread.featureExpansion addr bs rand) (Thread.featureExpansion addr bs rand') := by
  unfold Thread.featureExpansion
  follow

macro_rules | `(tactic| follow1) => `(tactic| exact follows_featureExpansion _ _ _ _)

theorem follows_effectiveAddress (a : Address) :
    Follows (Thread.effectiveAddress a) (Thread.effectiveAddress a) := by
  unfold Thread.effectiveAddress
  follow

macro_rules | `(tactic| follow1) => `(tactic| exact follows_effectiveAddress _)

theorem follows_executeInstruction (hd : Deaf e) (addr : BitVec 16) (p : Packet) (bs : List Byte) (rand rand' : Nat) :
    Follows (Thread.executeInstruction e addr p bs rand) (Thread.executeInstruction e addr p bs rand') := by
  unfold Thread.executeInstruction
  follow

macro_rules | `(tactic| follow1) => `(tactic| exact follows_executeInstruction ‹_› _ _ _ _ _)

theorem follows_executeOperationsAddressed (hd : Deaf e) (a : Address) (p : Packet) (bs : List Byte) (rand rand' : Nat) :
    Follows (Thread.executeOperationsAddressed e a p bs rand) (Thread.executeOperationsAddressed e a p bs rand') := by
  unfold Thread.executeOperationsAddressed
  follow

macro_rules | `(tactic| follow1) => `(tactic| exact follows_executeOperationsAddressed ‹_› _ _ _ _ _)

theorem follows_executeOperations (hd : Deaf e) (p : Packet) (rand rand' : Nat) :
    Follows (Thread.executeOperations e p rand) (Thread.executeOperations e p rand') := by
  unfold Thread.executeOperations
  follow

macro_rules | `(tactic| follow1) => `(tactic| exact follows_executeOperations ‹_› _ _ _)

theorem follows_executeService (hd : Deaf e) (p : Packet) :
    Follows (Thread.executeService e p) (Thread.executeService e p) := by
  unfold Thread.executeService
  follow

macro_rules | `(tactic| follow1) => `(tactic| exact follows_executeService ‹_› _)

theorem follows_enable :
    Follows (Thread.enable) (Thread.enable) := by
  unfold Thread.enable
  follow

macro_rules | `(tactic| follow1) => `(tactic| exact follows_enable)

theorem follows_disable :
    Follows (Thread.disable) (Thread.disable) := by
  unfold Thread.disable
  refine .bind (.get (by decide) fun _ => rfl) fun _ => ?_
  split
  · exact .pure _
  refine .bind (.set (by decide) (fun _ => rfl) fun _ => ⟨rfl, id, rfl, rfl⟩) fun _ => ?_
  refine .bind (.set' (by decide) (fun _ _ h => h) fun _ => ⟨rfl, id, rfl, rfl⟩) fun _ => ?_
  refine .bind (.set' (by decide) (fun _ _ h => h) fun _ => ⟨rfl, id, rfl, rfl⟩) fun _ => ?_
  refine .bind (.set' (by decide) (fun _ _ h => h) fun _ => ⟨rfl, id, rfl, rfl⟩) fun _ => ?_
  exact .set' (by decide) (fun _ _ h => h) fun _ => ⟨rfl, fun _ => rfl, rfl, rfl⟩

macro_rules | `(tactic| follow1) => `(tactic| exact follows_disable)

theorem idles_dyn (d x : Byte) : Idles (Thread.dyn e d x) := by
  unfold Thread.dyn
  repeat' first
    | exact idles_push (by decide) _ (·.q.dyn) (fun s q => { s with q := { s.q with dyn := q } }) _ fun _ _ => rfl
    | with_reducible idle1
    | refine Idles.bind ?_ fun _ => ?_
    | split
    | dsimp only

theorem idles_dyns (ds : List Dyn) : Idles (Thread.dyns e ds) := by
  induction ds with
  | nil => trivial
  | cons d ds ih => exact .bind (idles_dyn _ _) fun _ => ih

macro_rules | `(tactic| idle1) => `(tactic| exact idles_dyn _ _)
macro_rules | `(tactic| idle1) => `(tactic| exact idles_dyns _)

theorem idles_datagram (ds : List Dyn) : Idles (Thread.datagram e ds) := by
  unfold Thread.datagram
  idles

/-- The calls that are made in the same way without interrupts. -/
def RxOp.direct : RxOp → Bool
  | .init | .enable | .disable | .callbackByte _ _ | .callbackBit _ _ => true
  | _ => false

theorem follows_calls (hd : Deaf e) {op : RxOp} (h : op.direct = true) :
    Follows (Thread.calls e op) (Thread.calls e op) := by
  cases op <;> first | cases h | skip
  · exact follows_init hd
  · exact follows_enable
  · exact follows_disable
  all_goals
    refine .bind (.get (by decide) fun _ => rfl) fun x => ?_
    split
    · follow
    · exact .pure _

/-! ### execute -/

theorem core_core (s : Rx) : core (core s) = core s := by
  show ({ core s with trace := visible (visible s.trace) } : Rx) = core s
  rw [show visible (visible s.trace) = visible s.trace by unfold visible; rw [List.filter_filter]; simp]
  rfl

theorem coreRun_get {l : Nat} (hl : otherLine l) {f : Rx → β} {c : Rx} {L : List Packet} {c' : Rx} {b : β}
    (h : CoreRun (get l f) c L c' b) : L = [] ∧ c' = c := (Idles.get hl f).core h

theorem coreRun_front {l : Nat} (hl : l = 291 ∨ l = 315) {c : Rx} {L : List Packet} {c' : Rx} {p : Packet}
    (h : CoreRun (Thread.front l) c L c' p) : L = [p] ∧ c' = c := by
  obtain ⟨s, s', b, L', h1, h2, h3, h4, h5, h6⟩ := h
  dsimp only at h2
  split at h2
  · cases h2
  rename_i q rest hq
  cases h2
  subst h4 h5 h6
  refine ⟨?_, h1⟩
  rw [h3]
  unfold fetchedAt
  rw [if_pos hl, hq]
  rfl

/-- What is executed when a packet was fetched. -/
theorem follows_fetched (hd : Deaf e) (service : Bool) (p : Packet) (rand rand' : Nat) :
    Follows (if service then Thread.executeService e p else Thread.executeOperations e p rand)
      (if service then Thread.executeService e p else Thread.executeOperations e p rand') := by
  split
  · exact follows_executeService hd p
  · exact follows_executeOperations hd p rand rand'

/-- `execute` finds no packet, or fetches one and does what it does without interrupts when only this packet
waits. -/
theorem coreRun_execute (hd : Deaf e) {now : Int} {rand : Nat} {c : Rx} {L : List Packet} {c' : Rx} {a : Bool}
    (h : CoreRun (Thread.execute e now rand) c L c' a) :
    (L = [] ∧ c' = c) ∨ ∃ p, L = [p] ∧ ∀ t : Rx, core t = c → t.deque = [p] → t.packetEnd = false →
      t.lastPacketTp = 0 → t.tosTp = 0 →
      ∃ t', (Thread.execute e 0 0).run t = .ok (t', a) ∧ core t' = c' ∧ t'.deque = [] ∧
        (t.link.state = .preamble → t'.link.state = .preamble) ∧ t'.lastPacketTp = 0 ∧ t'.tosTp = 0 := by
  unfold Thread.execute at h
  obtain ⟨L1, M1, c1, b1, rfl, h1, h⟩ := h.bind
  obtain ⟨x, -, -, -, hx, -⟩ := id h1
  obtain ⟨rfl, rfl⟩ := coreRun_get (by decide) h1
  cases b1
  case true =>
    obtain ⟨rfl, rfl, rfl⟩ := h
    exact .inl ⟨rfl, rfl⟩
  obtain ⟨L2, M2, c2, b2, rfl, h2, h⟩ := CoreRun.bind h
  obtain ⟨rfl, rfl⟩ := coreRun_get (by decide) h2
  cases b2
  case true =>
    obtain ⟨rfl, rfl, rfl⟩ := h
    exact .inl ⟨rfl, rfl⟩
  obtain ⟨L3, M3, c3, b3, rfl, h3, h⟩ := CoreRun.bind h
  obtain ⟨L4, M4, c4, b4, rfl, h4, h⟩ := CoreRun.bind h
  obtain ⟨L5, M5, c5, b5, rfl, h5, h⟩ := CoreRun.bind h
  obtain ⟨L6, M6, c6, b6, rfl, h6, h⟩ := CoreRun.bind h
  obtain ⟨L7, M7, c7, b7, rfl, h7, h⟩ := CoreRun.bind h
  obtain ⟨L8, M8, c8, b8, rfl, h8, h⟩ := CoreRun.bind h
  obtain ⟨s0, s1, b9, L9, k1, k2, rfl, k3⟩ := h8
  cases k2
  obtain ⟨rfl, rfl, rfl⟩ := k3
  obtain ⟨rfl, rfl, rfl⟩ := h
  -- fetching the packet
  unfold Thread.executeFront at h7
  obtain ⟨N1, N2, d1, service, rfl, g1, h7⟩ := h7.bind
  have hfetch : ∃ K p, N2 = p :: K ∧
      CoreRun (if service then Thread.executeService e p else Thread.executeOperations e p rand) d1 K c7 a := by
    cases service
    · obtain ⟨K1, K2, d2, p, rfl, g2, g3⟩ := CoreRun.bind h7
      obtain ⟨rfl, rfl⟩ := coreRun_front (.inl rfl) g2
      exact ⟨K2, p, rfl, g3⟩
    · obtain ⟨K1, K2, d2, p, rfl, g2, g3⟩ := CoreRun.bind h7
      obtain ⟨rfl, rfl⟩ := coreRun_front (.inr rfl) g2
      exact ⟨K2, p, rfl, g3⟩
  obtain ⟨K, p, rfl, g3⟩ := hfetch
  have key : ∀ t : Rx, core t = c2 → t.lastPacketTp = 0 → t.tosTp = 0 →
      L3 = [] ∧ L4 = [] ∧ L5 = [] ∧ L6 = [] ∧ N1 = [] ∧ K = [] ∧ ∀ rest, t.deque = p :: rest → t.packetEnd = false →
      ∃ t', (Thread.execute e 0 0).run t = .ok (t', a) ∧ core t' = core s0 ∧ t'.deque = rest ∧
        (t.link.state = .preamble → t'.link.state = .preamble) ∧ t'.lastPacketTp = 0 ∧ t'.tosTp = 0 := by
    intro t ht z z'
    subst ht
    obtain ⟨rfl, t3, r3, rfl, q3⟩ := follows_adr t _ _ _ z z' h3
    have z3 := q3.last.trans z
    have z3' := q3.tos.trans z'
    obtain ⟨rfl, t4, r4, rfl, q4⟩ := follows_logonStore hd t3 _ _ _ z3 z3' h4
    have z4 := q4.last.trans z3
    have z4' := q4.tos.trans z3'
    obtain ⟨rfl, t5, r5, rfl, q5⟩ := follows_updateQos t4 _ _ _ z4 z4' h5
    have z5 := q5.last.trans z4
    have z5' := q5.tos.trans z4'
    obtain ⟨rfl, t6, r6, rfl, q6⟩ := follows_updateTimepoints now t5 _ _ _ z5 z5' h6
    have z6 := q6.last.trans z5
    have z6' := q6.tos.trans z5'
    obtain ⟨rfl, t7, r7, rfl, q7⟩ := Follows.get (l := 280) (by decide) (f := (·.serviceMode)) (fun _ => rfl)
      t6 _ _ _ z6 z6' g1
    have e7 : t6 = t7 := by cases r7; rfl
    subst e7
    obtain ⟨rfl, t8, r8, hc8, q8⟩ := follows_fetched hd service p rand 0 t6 _ _ _ z6 z6' g3
    refine ⟨rfl, rfl, rfl, rfl, rfl, rfl, fun rest hq hpe => ?_⟩
    have hq6 : t6.deque = p :: rest := by rw [q6.deque, q5.deque, q4.deque, q3.deque, hq]
    have hq8 : t8.deque = p :: rest := q8.deque.trans hq6
    refine ⟨t8.popFront, ?_, ?_, ?_, fun h => q8.state (q6.state (q5.state (q4.state (q3.state h)))),
      q8.last.trans z6, q8.tos.trans z6'⟩
    · unfold Thread.execute
      rw [run_bind, run_get, ok_bind, hpe]
      dsimp only
      rw [if_neg Bool.false_ne_true, run_bind, run_get, ok_bind, hq]
      dsimp only [List.isEmpty_cons]
      rw [if_neg Bool.false_ne_true, run_bind, r3, ok_bind, run_bind, r4, ok_bind, run_bind, r5, ok_bind, run_bind, r6,
        ok_bind, run_bind]
      have hx : (Thread.executeFront e 0).run t6 = .ok (t8, a) := by
        unfold Thread.executeFront
        rw [run_bind, r7, ok_bind]
        dsimp only
        cases service
        · rw [if_neg Bool.false_ne_true, run_bind]
          rw [show (Thread.front 291).run t6 = .ok (t6, p) by
            show (match t6.deque with | [] => .error .oob | q :: _ => .ok (t6, q) : R (Rx × Packet)) >>= _ = _
            rw [hq6]; rfl]
          exact r8
        · rw [if_pos rfl, run_bind]
          rw [show (Thread.front 315).run t6 = .ok (t6, p) by
            show (match t6.deque with | [] => .error .oob | q :: _ => .ok (t6, q) : R (Rx × Packet)) >>= _ = _
            rw [hq6]; rfl]
          exact r8
      rw [hx]
      rfl
    · exact (show core t8.popFront = core t8 from rfl).trans (hc8.trans k1.symm)
    · show t8.deque.drop 1 = rest
      rw [hq8]; rfl
  obtain ⟨rfl, rfl, rfl, rfl, rfl, rfl, -⟩ := key (core x) (by rw [core_core]; exact hx) rfl rfl
  exact .inr ⟨p, rfl, fun t ht hq hpe z z' => (key t ht z z').2.2.2.2.2.2 [] hq hpe⟩

end Dcc
