import Verif.Lemmas.RxThread
/-!
Which accesses of the thread change the CV answers waiting and the packet they belong to.
-/
namespace Dcc

/-- `_last_own_cv_packet` and `_pom_deque` are as before. -/
structure SamePom (s s' : Rx) : Prop where
  own : s'.lastOwnCvPacket = s.lastOwnCvPacket
  pom : s'.q.pom = s.q.pom

/-- `_pom_deque.clear()` in `countOwnEqualCvPackets`. -/
def clearPom (s : Rx) : R (Rx × Unit) := .ok ({ s with q := { s.q with pom := [] } }, ())

/-- What an access at a line does to the two, `p` being what follows it. -/
inductive Tidy {α : Type} (l : Nat) (s s' : Rx) (p : Prog α) : Prop
  | same (h : SamePom s s')
  | clear (own : s'.lastOwnCvPacket = s.lastOwnCvPacket) (pom : s'.q.pom = [])
  | push (d : List Byte) (hl : l = 895) (own : s'.lastOwnCvPacket = s.lastOwnCvPacket)
      (pom : s'.q.pom = s.q.pom ++ [d])
  | own (pom : s'.q.pom = s.q.pom) (k : Unit → Prog α) (h : p = .atom 865 clearPom k)

/-- Every access does one of these. -/
def Orderly {α : Type} : Prog α → Prop
  | .ret _ => True
  | .atom l f k => ∀ s s' b, f s = .ok (s', b) → Tidy l s s' (k b) ∧ Orderly (k b)

variable {e : Env} {α β : Type}

theorem Tidy.bind {l : Nat} {s s' : Rx} {p : Prog α} (h : Tidy l s s' p) (g : α → Prog β) :
    Tidy l s s' (p.bind g) := by
  cases h with
  | same h => exact .same h
  | clear h1 h2 => exact .clear h1 h2
  | push d hl h1 h2 => exact .push d hl h1 h2
  | own h1 k h => exact .own h1 (fun b => (k b).bind g) (by rw [h]; rfl)

theorem Orderly.then {p : Prog α} {g : α → Prog β} (h : Orderly p) (hg : ∀ a, Orderly (g a)) :
    Orderly (p >>= g) := by
  show Orderly (p.bind g)
  induction p with
  | ret a => exact hg a
  | atom l f k ih =>
    intro s s' b hb
    obtain ⟨h1, h2⟩ := h s s' b hb
    exact ⟨h1.bind g, ih b h2⟩

theorem tidy_pure (a : α) : Orderly (pure a : Prog α) := trivial

theorem tidy_get (l : Nat) (f : Rx → β) : Orderly (Prog.get l f) := fun s s' b hb => by
  cases hb
  exact ⟨.same ⟨rfl, rfl⟩, trivial⟩

theorem tidy_lift (l : Nat) (x : R β) : Orderly (Prog.lift l x) := fun s s' b hb => by
  simp only [bind_eq_ok, pure_eq_ok] at hb
  obtain ⟨a, ha, hb⟩ := hb
  cases hb
  exact ⟨.same ⟨rfl, rfl⟩, trivial⟩

theorem tidy_set (l : Nat) (f : Rx → Rx) (h : ∀ s, SamePom s (f s)) : Orderly (Prog.set l f) :=
  fun s s' b hb => by
    cases hb
    exact ⟨.same (h s), trivial⟩

theorem tidy_emit (l : Nat) (ev : Event) : Orderly (Prog.emit l ev) := tidy_set l _ fun _ => ⟨rfl, rfl⟩

theorem tidy_call (l : Nat) (f : Rx → β × Rx) (h : ∀ s, SamePom s (f s).2) : Orderly (Prog.call l f) :=
  fun s s' b hb => by
    cases hb
    exact ⟨.same (h s), trivial⟩

theorem tidy_act (l : Nat) (f : Rx → R Rx) (h : ∀ s s', f s = .ok s' → SamePom s s') :
    Orderly (Prog.act l f) := fun s s' b hb => by
  simp only [bind_eq_ok, pure_eq_ok] at hb
  obtain ⟨a, ha, hb⟩ := hb
  cases hb
  exact ⟨.same (h s _ ha), trivial⟩

/-- An access that adds to another queue. -/
theorem tidy_push (l n : Nat) (get : Rx → List (List Byte)) (put : Rx → List (List Byte) → Rx)
    (d : List Byte) (h : ∀ s q, SamePom s (put s q)) :
    Orderly (Prog.act l fun s => do return put s (← pushBack n (get s) d)) :=
  tidy_act l _ fun s s' hs => by
    simp only [bind_eq_ok, pure_eq_ok] at hs
    obtain ⟨q, hq, hs⟩ := hs
    cases hs
    exact h s q

/-- Steps through a program; every function done adds a rule. -/
syntax "tidy1" : tactic
macro_rules | `(tactic| tidy1) => `(tactic| exact tidy_get _ _)
macro_rules | `(tactic| tidy1) => `(tactic| exact tidy_lift _ _)
macro_rules | `(tactic| tidy1) => `(tactic| exact tidy_set _ _ fun s => by with_unfolding_all exact ⟨rfl, rfl⟩)
macro_rules | `(tactic| tidy1) => `(tactic| exact tidy_call _ _ fun s => by with_unfolding_all exact ⟨rfl, rfl⟩)
macro_rules | `(tactic| tidy1) => `(tactic| exact tidy_emit _ _)
macro_rules | `(tactic| tidy1) => `(tactic| exact tidy_pure _)

macro "tidy" : tactic => `(tactic| repeat' first
  | with_reducible tidy1
  | refine Orderly.then ?_ fun _ => ?_
  | split
  | dsimp only)

theorem tidy_readCv (l : Nat) (cv : BitVec 32) : Orderly (Thread.readCv l e cv) :=
  tidy_call l _ fun _ => ⟨rfl, rfl⟩

macro_rules | `(tactic| tidy1) => `(tactic| exact tidy_readCv _ _)

theorem tidy_initPrimary (cv29 : Byte) :
    Orderly (Thread.initPrimary e cv29) := by
  unfold Thread.initPrimary
  tidy

macro_rules | `(tactic| tidy1) => `(tactic| exact tidy_initPrimary _)

theorem tidy_initConsist :
    Orderly (Thread.initConsist e) := by
  unfold Thread.initConsist
  tidy

macro_rules | `(tactic| tidy1) => `(tactic| exact tidy_initConsist)

theorem tidy_initLock (cv29 : Byte) :
    Orderly (Thread.initLock e cv29) := by
  unfold Thread.initLock
  tidy

macro_rules | `(tactic| tidy1) => `(tactic| exact tidy_initLock _)

theorem tidy_initBidi (cv29 cv20 : Byte) :
    Orderly (Thread.initBidi e cv29 cv20) := by
  unfold Thread.initBidi
  tidy

macro_rules | `(tactic| tidy1) => `(tactic| exact tidy_initBidi _ _)

theorem tidy_initIds :
    Orderly (Thread.initIds e) := by
  unfold Thread.initIds
  tidy

macro_rules | `(tactic| tidy1) => `(tactic| exact tidy_initIds)

theorem tidy_init :
    Orderly (Thread.init e) := by
  unfold Thread.init
  tidy

macro_rules | `(tactic| tidy1) => `(tactic| exact tidy_init)

theorem tidy_adrHigh (a : Address) :
    Orderly (Thread.adrHigh a) := by
  unfold Thread.adrHigh
  tidy

macro_rules | `(tactic| tidy1) => `(tactic| exact tidy_adrHigh _)

theorem tidy_adrLow (a : Address) :
    Orderly (Thread.adrLow a) := by
  unfold Thread.adrLow
  tidy

macro_rules | `(tactic| tidy1) => `(tactic| exact tidy_adrLow _)

theorem tidy_pushAdr (l : Nat) (d : List Byte) : Orderly (Thread.pushAdr l d) := by
  unfold Thread.pushAdr
  exact tidy_push _ _ (·.q.adr) (fun s q => { s with q := { s.q with adr := q } }) _ fun _ _ => ⟨rfl, rfl⟩

macro_rules | `(tactic| tidy1) => `(tactic| exact tidy_pushAdr _ _)

theorem tidy_pushAdrs (l : Nat) (a : Rx → Address) : Orderly (Thread.pushAdrs l a) := by
  unfold Thread.pushAdrs
  tidy

macro_rules | `(tactic| tidy1) => `(tactic| exact tidy_pushAdrs _ _)

theorem tidy_adr : Orderly Thread.adr := by
  unfold Thread.adr
  tidy

macro_rules | `(tactic| tidy1) => `(tactic| exact tidy_adr)

theorem tidy_storeCv (l : Nat) (cv : BitVec 32) (b : Byte) :
    Orderly (Thread.storeCv l e cv b) := by
  unfold Thread.storeCv
  tidy

macro_rules | `(tactic| tidy1) => `(tactic| exact tidy_storeCv _ _ _)

theorem tidy_storePrimary :
    Orderly (Thread.storePrimary e) := by
  unfold Thread.storePrimary
  tidy

macro_rules | `(tactic| tidy1) => `(tactic| exact tidy_storePrimary)

theorem tidy_storeTail :
    Orderly (Thread.storeTail e) := by
  unfold Thread.storeTail
  tidy

macro_rules | `(tactic| tidy1) => `(tactic| exact tidy_storeTail)

theorem tidy_logonStore :
    Orderly (Thread.logonStore e) := by
  unfold Thread.logonStore
  tidy

macro_rules | `(tactic| tidy1) => `(tactic| exact tidy_logonStore)

theorem tidy_updateQos :
    Orderly (Thread.updateQos) := by
  unfold Thread.updateQos
  tidy

macro_rules | `(tactic| tidy1) => `(tactic| exact tidy_updateQos)

theorem tidy_updateTimepoints (now : Int) :
    Orderly (Thread.updateTimepoints now) := by
  unfold Thread.updateTimepoints
  tidy

macro_rules | `(tactic| tidy1) => `(tactic| exact tidy_updateTimepoints _)

theorem tidy_pom (v : Byte) : Orderly (Thread.pom v) := by
  unfold Thread.pom
  refine .then (tidy_get _ _) fun _ => ?_
  split
  · exact tidy_pure _
  refine .then (fun s s' b hb => by cases hb; exact ⟨.clear rfl rfl, trivial⟩) fun _ => ?_
  refine .then (tidy_lift _ _) fun d => ?_
  intro s s' b hb
  simp only [bind_eq_ok, pure_eq_ok] at hb
  obtain ⟨a, ⟨q, hq, ha⟩, hb⟩ := hb
  cases hb
  cases ha
  unfold pushBack at hq
  split at hq
  · cases hq; exact ⟨.push d rfl rfl rfl, trivial⟩
  · cases hq

macro_rules | `(tactic| tidy1) => `(tactic| exact tidy_pom _)

theorem tidy_callbackByte (b v : Byte) :
    Orderly (Thread.callbackByte b v) := by
  unfold Thread.callbackByte
  tidy

macro_rules | `(tactic| tidy1) => `(tactic| exact tidy_callbackByte _ _)

theorem tidy_callbackBit (b v : Bool) :
    Orderly (Thread.callbackBit b v) := by
  unfold Thread.callbackBit
  tidy

macro_rules | `(tactic| tidy1) => `(tactic| exact tidy_callbackBit _ _)

theorem tidy_cvVerifyByte (cv : BitVec 32) (b : Byte) :
    Orderly (Thread.cvVerifyByte e cv b) := by
  unfold Thread.cvVerifyByte
  tidy

macro_rules | `(tactic| tidy1) => `(tactic| exact tidy_cvVerifyByte _ _)

theorem tidy_cvVerifyBit (cv : BitVec 32) (b : Bool) (pos : BitVec 32) :
    Orderly (Thread.cvVerifyBit e cv b pos) := by
  unfold Thread.cvVerifyBit
  tidy

macro_rules | `(tactic| tidy1) => `(tactic| exact tidy_cvVerifyBit _ _ _)

theorem tidy_cvWriteImplByte (cv : BitVec 32) (b : Byte) :
    Orderly (Thread.cvWriteImplByte e cv b) := by
  unfold Thread.cvWriteImplByte
  tidy

macro_rules | `(tactic| tidy1) => `(tactic| exact tidy_cvWriteImplByte _ _)

theorem tidy_cvWriteImplBit (cv : BitVec 32) (b : Bool) (pos : BitVec 32) :
    Orderly (Thread.cvWriteImplBit e cv b pos) := by
  unfold Thread.cvWriteImplBit
  tidy

macro_rules | `(tactic| tidy1) => `(tactic| exact tidy_cvWriteImplBit _ _ _)

theorem tidy_cvWriteByte (cv : BitVec 32) (b : Byte) :
    Orderly (Thread.cvWriteByte e cv b) := by
  unfold Thread.cvWriteByte
  tidy

macro_rules | `(tactic| tidy1) => `(tactic| exact tidy_cvWriteByte _ _)

theorem tidy_cvWriteBit (cv : BitVec 32) (b : Bool) (pos : BitVec 32) :
    Orderly (Thread.cvWriteBit e cv b pos) := by
  unfold Thread.cvWriteBit
  tidy

macro_rules | `(tactic| tidy1) => `(tactic| exact tidy_cvWriteBit _ _ _)

theorem tidy_countOwnEqualCvPackets (p : Packet) : Orderly (Thread.countOwnEqualCvPackets p) := by
  unfold Thread.countOwnEqualCvPackets
  refine .then (tidy_get _ _) fun _ => ?_
  split
  · tidy
  refine .then (tidy_set _ _ fun s => ⟨rfl, rfl⟩) fun _ => ?_
  intro s s' b hb
  cases hb
  refine ⟨.own rfl _ rfl, fun s s' b hb => ?_⟩
  cases hb
  exact ⟨.clear rfl rfl, trivial⟩

macro_rules | `(tactic| tidy1) => `(tactic| exact tidy_countOwnEqualCvPackets _)

theorem tidy_cvLongBody (bs : List Byte) :
    Orderly (Thread.cvLongBody e bs) := by
  unfold Thread.cvLongBody
  tidy

macro_rules | `(tactic| tidy1) => `(tactic| exact tidy_cvLongBody _)

theorem tidy_cvLong (addr : BitVec 16) (p : Packet) (bs : List Byte) :
    Orderly (Thread.cvLong e addr p bs) := by
  unfold Thread.cvLong
  tidy

macro_rules | `(tactic| tidy1) => `(tactic| exact tidy_cvLong _ _ _)

theorem tidy_cvShortBody (bs : List Byte) :
    Orderly (Thread.cvShortBody e bs) := by
  unfold Thread.cvShortBody
  tidy

macro_rules | `(tactic| tidy1) => `(tactic| exact tidy_cvShortBody _)

theorem tidy_cvShort (addr : BitVec 16) (p : Packet) (bs : List Byte) :
    Orderly (Thread.cvShort e addr p bs) := by
  unfold Thread.cvShort
  tidy

macro_rules | `(tactic| tidy1) => `(tactic| exact tidy_cvShort _ _ _)

theorem tidy_registerMode (bs : List Byte) :
    Orderly (Thread.registerMode e bs) := by
  unfold Thread.registerMode
  tidy

macro_rules | `(tactic| tidy1) => `(tactic| exact tidy_registerMode _)

theorem tidy_setServiceMode (b : Bool) :
    Orderly (Thread.setServiceMode b) := by
  unfold Thread.setServiceMode
  tidy

macro_rules | `(tactic| tidy1) => `(tactic| exact tidy_setServiceMode _)

theorem tidy_directionSpeed (addr : BitVec 16) (dir : Bool) (speed : Int) :
    Orderly (Thread.directionSpeed addr dir speed) := by
  unfold Thread.directionSpeed
  tidy

macro_rules | `(tactic| tidy1) => `(tactic| exact tidy_directionSpeed _ _ _)

theorem tidy_tipOffSearch (rand : Nat) : Orderly (Thread.tipOffSearch rand) := by
  unfold Thread.tipOffSearch
  repeat' first
    | exact tidy_push _ _ (·.q.tos) (fun s q => { s with q := { s.q with tos := q } }) _ fun _ _ => ⟨rfl, rfl⟩
    | with_reducible tidy1
    | refine Orderly.then ?_ fun _ => ?_
    | split
    | dsimp only

macro_rules | `(tactic| tidy1) => `(tactic| exact tidy_tipOffSearch _)

theorem tidy_binaryState (xf : BitVec 32) (b : Bool) (rand : Nat) :
    Orderly (Thread.binaryState xf b rand) := by
  unfold Thread.binaryState
  tidy

macro_rules | `(tactic| tidy1) => `(tactic| exact tidy_binaryState _ _ _)

theorem tidy_consistControl (bs : List Byte) :
    Orderly (Thread.consistControl e bs) := by
  unfold Thread.consistControl
  tidy

macro_rules | `(tactic| tidy1) => `(tactic| exact tidy_consistControl _)

theorem tidy_optFunctions (l : Nat) (addr : BitVec 16) (bs : List Byte) (i : Nat) (mask : BitVec 32) (shift : Nat) :
    Orderly (Thread.optFunctions l addr bs i mask shift) := by
  unfold Thread.optFunctions
  tidy

macro_rules | `(tactic| tidy1) => `(tactic| exact tidy_optFunctions _ _ _ _ _ _)

theorem tidy_speedDirFunctions (addr : BitVec 16) (bs : List Byte) :
    Orderly (Thread.speedDirFunctions addr bs) := by
  unfold Thread.speedDirFunctions
  tidy

macro_rules | `(tactic| tidy1) => `(tactic| exact tidy_speedDirFunctions _ _)

theorem tidy_speed126 (addr : BitVec 16) (b1 : Byte) :
    Orderly (Thread.speed126 addr b1) := by
  unfold Thread.speed126
  tidy

macro_rules | `(tactic| tidy1) => `(tactic| exact tidy_speed126 _ _)

theorem tidy_specialOperatingModes (addr : BitVec 16) (b1 : Byte) :
    Orderly (Thread.specialOperatingModes e addr b1) := by
  unfold Thread.specialOperatingModes
  tidy

macro_rules | `(tactic| tidy1) => `(tactic| exact tidy_specialOperatingModes _ _)

theorem tidy_advancedOperations (addr : BitVec 16) (bs : List Byte) :
    Orderly (Thread.advancedOperations e addr bs) := by
  unfold Thread.advancedOperations
  tidy

macro_rules | `(tactic| tidy1) => `(tactic| exact tidy_advancedOperations _ _)

theorem tidy_speedAndDirection (addr : BitVec 16) (bs : List Byte) :
    Orderly (Thread.speedAndDirection addr bs) := by
  unfold Thread.speedAndDirection
  tidy

macro_rules | `(tactic| tidy1) => `(tactic| exact tidy_speedAndDirection _ _)

theorem tidy_functionGroup (addr : BitVec 16) (bs : List Byte) :
    Orderly (Thread.functionGroup addr bs) := by
  unfold Thread.functionGroup
  tidy

macro_rules | `(tactic| tidy1) => `(tactic| exact tidy_functionGroup _ _)

theorem tidy_featureExpansion (addr : BitVec 16) (bs : List Byte) (rand : Nat) :
    Orderly (Thread.featureExpansion addr bs rand) := by
  unfold Thread.featureExpansion
  tidy

macro_rules | `(tactic| tidy1) => `(tactic| exact tidy_featureExpansion _ _ _)

theorem tidy_effectiveAddress (a : Address) :
    Orderly (Thread.effectiveAddress a) := by
  unfold Thread.effectiveAddress
  tidy

macro_rules | `(tactic| tidy1) => `(tactic| exact tidy_effectiveAddress _)

theorem tidy_executeInstruction (addr : BitVec 16) (p : Packet) (bs : List Byte) (rand : Nat) :
    Orderly (Thread.executeInstruction e addr p bs rand) := by
  unfold Thread.executeInstruction
  tidy

macro_rules | `(tactic| tidy1) => `(tactic| exact tidy_executeInstruction _ _ _ _)

theorem tidy_executeOperationsAddressed (a : Address) (p : Packet) (bs : List Byte) (rand : Nat) :
    Orderly (Thread.executeOperationsAddressed e a p bs rand) := by
  unfold Thread.executeOperationsAddressed
  tidy

macro_rules | `(tactic| tidy1) => `(tactic| exact tidy_executeOperationsAddressed _ _ _ _)

theorem tidy_executeOperations (p : Packet) (rand : Nat) :
    Orderly (Thread.executeOperations e p rand) := by
  unfold Thread.executeOperations
  tidy

macro_rules | `(tactic| tidy1) => `(tactic| exact tidy_executeOperations _ _)

theorem tidy_executeService (p : Packet) :
    Orderly (Thread.executeService e p) := by
  unfold Thread.executeService
  tidy

macro_rules | `(tactic| tidy1) => `(tactic| exact tidy_executeService _)

theorem tidy_front (l : Nat) : Orderly (Thread.front l) := by
  intro s s' b hb
  dsimp only at hb
  split at hb
  · cases hb
  · cases hb; exact ⟨.same ⟨rfl, rfl⟩, trivial⟩

macro_rules | `(tactic| tidy1) => `(tactic| exact tidy_front _)

theorem tidy_executeFront (rand : Nat) :
    Orderly (Thread.executeFront e rand) := by
  unfold Thread.executeFront
  tidy

macro_rules | `(tactic| tidy1) => `(tactic| exact tidy_executeFront _)

theorem tidy_execute (now : Int) (rand : Nat) :
    Orderly (Thread.execute e now rand) := by
  unfold Thread.execute
  tidy

macro_rules | `(tactic| tidy1) => `(tactic| exact tidy_execute _ _)

theorem tidy_dyn (d x : Byte) : Orderly (Thread.dyn e d x) := by
  unfold Thread.dyn
  repeat' first
    | exact tidy_push _ _ (·.q.dyn) (fun s q => { s with q := { s.q with dyn := q } }) _ fun _ _ => ⟨rfl, rfl⟩
    | with_reducible tidy1
    | refine Orderly.then ?_ fun _ => ?_
    | split
    | dsimp only

macro_rules | `(tactic| tidy1) => `(tactic| exact tidy_dyn _ _)

theorem tidy_dyns (ds : List Dyn) : Orderly (Thread.dyns e ds) := by
  induction ds with
  | nil => trivial
  | cons d ds ih => exact .then (tidy_dyn _ _) fun _ => ih

macro_rules | `(tactic| tidy1) => `(tactic| exact tidy_dyns _)

theorem tidy_datagram (ds : List Dyn) :
    Orderly (Thread.datagram e ds) := by
  unfold Thread.datagram
  tidy

macro_rules | `(tactic| tidy1) => `(tactic| exact tidy_datagram _)

theorem tidy_enable :
    Orderly (Thread.enable) := by
  unfold Thread.enable
  tidy

macro_rules | `(tactic| tidy1) => `(tactic| exact tidy_enable)

theorem tidy_disable :
    Orderly (Thread.disable) := by
  unfold Thread.disable
  tidy

macro_rules | `(tactic| tidy1) => `(tactic| exact tidy_disable)

/-- Every call. -/
theorem tidy_thread (op : RxOp) : Orderly (Thread.calls e op) := by
  unfold Thread.calls
  tidy

end Dcc
