import Verif.Lemmas.RxEffect
/-!
No access of the thread overflows a queue, whatever interrupts do between two of them.
-/
namespace Dcc
open Spec

/-- What interrupts may do to the queues the thread adds to: take from them. -/
structure Calm (e : Env) (s s' : Rx) : Prop where
  adr : s'.q.adr.length ≤ s.q.adr.length
  pom : s'.q.pom.length ≤ s.q.pom.length
  tos : s'.q.tos.length ≤ s.q.tos.length
  dyn : s'.q.dyn.length ≤ s.q.dyn.length
  room : s'.q.dyn.length ≤ e.bidiDeque

theorem Calm.trans {e : Env} {a b c : Rx} (h1 : Calm e a b) (h2 : Calm e b c) : Calm e a c :=
  ⟨Nat.le_trans h2.adr h1.adr, Nat.le_trans h2.pom h1.pom, Nat.le_trans h2.tos h1.tos,
    Nat.le_trans h2.dyn h1.dyn, h2.room⟩

/-- No access overflows a queue when interrupts come between any two of them; `Q` holds for the result
and the state. -/
def Safe (e : Env) {α : Type} : Prog α → (α → Rx → Prop) → Rx → Prop
  | .ret a, Q, s => Q a s
  | .atom _ f k, Q, s => ∀ s1, Calm e s s1 →
    f s1 ≠ .error .overflow ∧ ∀ s2 b, f s1 = .ok (s2, b) → Safe e (k b) Q s2

variable {e : Env} {α β : Type}

theorem Safe.calm {p : Prog α} {s s' : Rx} (h : Safe e p (fun _ _ => True) s) (hc : Calm e s s') :
    Safe e p (fun _ _ => True) s' := by
  cases p with
  | ret a => trivial
  | atom l f k => exact fun s1 h1 => h s1 (hc.trans h1)

theorem Safe.bind {p : Prog α} {g : α → Prog β} {Q : β → Rx → Prop} {s : Rx}
    (h : Safe e p (fun a s => Safe e (g a) Q s) s) : Safe e (p >>= g) Q s := by
  show Safe e (p.bind g) Q s
  induction p generalizing s with
  | ret a => exact h
  | atom l f k ih => exact fun s1 h1 => ⟨(h s1 h1).1, fun s2 b hb => ih b ((h s1 h1).2 s2 b hb)⟩

theorem Safe.mono {p : Prog α} {Q Q' : α → Rx → Prop} {s : Rx} (h : Safe e p Q s)
    (hq : ∀ a s, Q a s → Q' a s) : Safe e p Q' s := by
  induction p generalizing s with
  | ret a => exact hq a s h
  | atom l f k ih => exact fun s1 h1 => ⟨(h s1 h1).1, fun s2 b hb => ih b ((h s1 h1).2 s2 b hb)⟩

/-- Safe in every state. -/
def Safe' (e : Env) {α : Type} (p : Prog α) : Prop := ∀ s, Safe e p (fun _ _ => True) s

theorem Safe.then {p : Prog α} {g : α → Prog β} (h : Safe' e p) (hg : ∀ a, Safe' e (g a)) :
    Safe' e (p >>= g) := fun s => .bind ((h s).mono fun a s1 _ => hg a s1)

theorem safe_pure (a : α) : Safe' e (pure a : Prog α) := fun _ => trivial

/-- A program that only reads. -/
def Reads (e : Env) {α : Type} (p : Prog α) : Prop :=
  ∀ (Q : α → Rx → Prop) (s : Rx), (∀ a s1, Calm e s s1 → Q a s1) → Safe e p Q s

theorem Safe.reads {p : Prog α} {Q : α → Rx → Prop} {s : Rx} (h : Reads e p)
    (hq : ∀ a s1, Calm e s s1 → Q a s1) : Safe e p Q s := h Q s hq

theorem Safe.got {l : Nat} {f : Rx → β} {Q : β → Rx → Prop} {s : Rx}
    (hq : ∀ s1, Calm e s s1 → Q (f s1) s1) : Safe e (Prog.get l f) Q s :=
  fun s1 h1 => ⟨nofun, fun s2 b hb => by cases hb; exact hq s1 h1⟩

theorem Reads.get (l : Nat) (f : Rx → β) : Reads e (Prog.get l f) :=
  fun _ _ hq => .got fun s1 h1 => hq _ s1 h1

theorem Reads.lift (l : Nat) (x : R β) (h : x ≠ .error .overflow) : Reads e (Prog.lift l x) := by
  intro Q s hq s1 h1
  cases x with
  | error f => exact ⟨fun hf => h (congrArg _ (Except.error.inj hf)), fun s2 c hb => by
    have hb : (Except.error f : R (Rx × β)) = .ok (s2, c) := hb
    cases hb⟩
  | ok b =>
    refine ⟨nofun, fun s2 c hb => ?_⟩
    have hb : (s1, b) = (s2, c) := Except.ok.inj hb
    obtain ⟨rfl, rfl⟩ := Prod.mk.inj hb
    exact hq _ _ h1

theorem Reads.bind {p : Prog α} {g : α → Prog β} (h : Reads e p) (hg : ∀ a, Reads e (g a)) :
    Reads e (p >>= g) :=
  fun _ _ hq => .bind (.reads h fun a _ h1 => .reads (hg a) fun b s2 h2 => hq b s2 (h1.trans h2))

theorem Reads.safe {p : Prog α} (h : Reads e p) : Safe' e p := fun _ => .reads h fun _ _ _ => trivial

theorem safe_get (l : Nat) (f : Rx → β) : Safe' e (Prog.get l f) := (Reads.get l f).safe

theorem safe_set (l : Nat) (f : Rx → Rx) : Safe' e (Prog.set l f) := fun _ _ _ => ⟨nofun, fun _ _ _ => by
  trivial⟩

theorem safe_emit (l : Nat) (ev : Event) : Safe' e (Prog.emit l ev) := safe_set l _

theorem safe_call (l : Nat) (f : Rx → β × Rx) : Safe' e (Prog.call l f) := fun _ _ _ =>
  ⟨nofun, fun _ _ _ => by trivial⟩

theorem byteAt_no_overflow (bs : List Byte) (i : Nat) : byteAt bs i ≠ .error .overflow := by
  unfold byteAt; split <;> nofun

theorem decodeAddress_no_overflow (bs : List Byte) : decodeAddress bs ≠ .error .overflow := by
  cases bs with
  | nil => nofun
  | cons b rest =>
    unfold decodeAddress
    repeat' split
    all_goals nofun

theorem decodeInstruction_no_overflow (bs : List Byte) : decodeInstruction bs ≠ .error .overflow := by
  unfold decodeInstruction
  have := byteAt_no_overflow bs 0
  cases h : byteAt bs 0 with
  | error f => rw [h] at this; exact fun h => this (by cases h; rfl)
  | ok b => nofun

theorem encodeDatagram_no_overflow (d : List Byte) : encodeDatagram d ≠ .error .overflow := by
  unfold encodeDatagram
  induction d with
  | nil => nofun
  | cons b d ih =>
    rw [List.mapM_cons]
    have hb : encodeSymbol b ≠ .error .overflow := by unfold encodeSymbol; split <;> nofun
    cases h : encodeSymbol b with
    | error f => exact fun hf => hb (h.trans (by cases hf; rfl))
    | ok c =>
      cases h : List.mapM encodeSymbol d with
      | error f => exact fun hf => ih (h.trans (by cases hf; rfl))
      | ok ds => nofun

theorem encodeId_no_overflow (i : Bits) (id data : Nat) : encodeId i id data ≠ .error .overflow := by
  unfold encodeId makeDatagramId
  split
  · exact encodeDatagram_no_overflow _
  · nofun

/-- Steps through a program; every function proved safe adds a rule. -/
syntax "safe1" : tactic
macro_rules | `(tactic| safe1) => `(tactic| exact safe_get _ _)
macro_rules | `(tactic| safe1) => `(tactic| exact safe_set _ _)
macro_rules | `(tactic| safe1) => `(tactic| exact safe_emit _ _)
macro_rules | `(tactic| safe1) => `(tactic| exact safe_call _ _)
macro_rules | `(tactic| safe1) => `(tactic| exact safe_pure _)
macro_rules | `(tactic| safe1) => `(tactic| exact Reads.safe (.lift _ _ (byteAt_no_overflow _ _)))
macro_rules | `(tactic| safe1) => `(tactic| exact Reads.safe (.lift _ _ (decodeAddress_no_overflow _)))
macro_rules | `(tactic| safe1) => `(tactic| exact Reads.safe (.lift _ _ (decodeInstruction_no_overflow _)))

macro "safe" : tactic => `(tactic| repeat' first
  | with_reducible safe1
  | refine Safe.then ?_ fun _ => ?_
  | split
  | dsimp only)

theorem safe_readCv (l : Nat) (cv : BitVec 32) : Safe' e (Thread.readCv l e cv) := safe_call l _

macro_rules | `(tactic| safe1) => `(tactic| exact safe_readCv _ _)

theorem safe_initPrimary (cv29 : Byte) :
    Safe' e (Thread.initPrimary e cv29) := by
  unfold Thread.initPrimary
  safe

macro_rules | `(tactic| safe1) => `(tactic| exact safe_initPrimary _)

theorem safe_initConsist :
    Safe' e (Thread.initConsist e) := by
  unfold Thread.initConsist
  safe

macro_rules | `(tactic| safe1) => `(tactic| exact safe_initConsist)

theorem safe_initLock (cv29 : Byte) :
    Safe' e (Thread.initLock e cv29) := by
  unfold Thread.initLock
  safe

macro_rules | `(tactic| safe1) => `(tactic| exact safe_initLock _)

theorem safe_initBidi (cv29 cv20 : Byte) :
    Safe' e (Thread.initBidi e cv29 cv20) := by
  unfold Thread.initBidi
  safe

macro_rules | `(tactic| safe1) => `(tactic| exact safe_initBidi _ _)

theorem safe_initIds :
    Safe' e (Thread.initIds e) := by
  unfold Thread.initIds
  safe

macro_rules | `(tactic| safe1) => `(tactic| exact safe_initIds)

theorem safe_init :
    Safe' e (Thread.init e) := by
  unfold Thread.init
  safe

macro_rules | `(tactic| safe1) => `(tactic| exact safe_init)

theorem reads_adrHigh (a : Address) : Reads e (Thread.adrHigh a) := by
  unfold Thread.adrHigh
  refine .bind (.get _ _) fun _ => ?_
  exact .lift _ _ (encodeId_no_overflow _ _ _)

theorem reads_adrLow (a : Address) : Reads e (Thread.adrLow a) := by
  unfold Thread.adrLow
  refine .bind (.get _ _) fun _ => ?_
  split
  · exact .bind (.get _ _) fun _ => .bind (.get _ _) fun _ => .lift _ _ (encodeId_no_overflow _ _ _)
  · exact .lift _ _ (encodeId_no_overflow _ _ _)

theorem Safe.push {l cap : Nat} {get : Rx → List (List Byte)} {put : Rx → List (List Byte) → Rx}
    {d : List Byte} {Q : Unit → Rx → Prop} {s : Rx}
    (h : ∀ s1, Calm e s s1 → (get s1).length < cap ∧ Q () (put s1 (get s1 ++ [d]))) :
    Safe e (Prog.act l fun s => do return put s (← pushBack cap (get s) d)) Q s := by
  intro s1 h1
  obtain ⟨h2, h3⟩ := h s1 h1
  have h4 : pushBack cap (get s1) d = .ok (get s1 ++ [d]) := by rw [pushBack, if_pos h2]
  refine ⟨fun hf => ?_, fun s2 b hb => ?_⟩
  · dsimp only at hf
    rw [h4] at hf
    cases hf
  · dsimp only at hb
    rw [h4] at hb
    cases hb
    exact h3

theorem safe_pushAdrs (l : Nat) (a : Rx → Address) {s : Rx} (h : s.q.adr.length = 0) :
    Safe e (Thread.pushAdrs l a) (fun _ _ => True) s := by
  unfold Thread.pushAdrs Thread.pushAdr
  refine .bind (.reads (.get _ _) fun a s1 c1 => .bind (.reads (reads_adrHigh a) fun d s2 c2 => .bind ?_))
  have h2 : s2.q.adr.length = 0 := by have := c1.adr; have := c2.adr; omega
  refine .push (get := (·.q.adr)) (put := fun s q => { s with q := { s.q with adr := q } }) fun s3 c3 => ?_
  have h3 : s3.q.adr.length = 0 := by have := c3.adr; omega
  refine ⟨by omega, ?_⟩
  refine .bind (.reads (.get _ _) fun a s5 c5 => .bind (.reads (reads_adrLow a) fun d' s6 c6 => ?_))
  refine .push (get := (·.q.adr)) (put := fun s q => { s with q := { s.q with adr := q } }) fun s7 c7 => ?_
  refine ⟨?_, trivial⟩
  have k5 : s5.q.adr.length ≤ (s3.q.adr ++ [d]).length := c5.adr
  rw [List.length_append, List.length_singleton] at k5
  have := c6.adr
  have := c7.adr
  omega

theorem safe_adr : Safe' e Thread.adr := by
  intro s
  unfold Thread.adr
  refine .bind (.reads (.get _ _) fun _ s1 c1 => ?_)
  split
  · exact safe_pure _ _
  refine .bind (.got fun s3 c3 => ?_)
  split
  · exact safe_pure _ _
  · rename_i h
    have h3 : s3.q.adr.length = 0 := by simpa using h
    have push : ∀ (l : Nat) (a : Rx → Address) (s4 : Rx), Calm e s3 s4 →
        Safe e (Thread.pushAdrs l a) (fun _ _ => True) s4 :=
      fun l a s4 c4 => safe_pushAdrs l a (by have := c4.adr; omega)
    refine .bind (.reads (.get _ _) fun _ s4 c4 => ?_)
    split
    · exact push _ _ _ c4
    refine .bind (.reads (.get _ _) fun _ s5 c5 => ?_)
    split
    · exact push _ _ _ (c4.trans c5)
    refine .bind (.reads (.get _ _) fun _ s6 c6 => ?_)
    split
    · refine .bind (.reads (.get _ _) fun _ s7 c7 => ?_)
      split
      · exact push _ _ _ (((c4.trans c5).trans c6).trans c7)
      · exact safe_pure _ _
    · exact safe_pure _ _

macro_rules | `(tactic| safe1) => `(tactic| exact safe_adr)

theorem safe_storeCv (l : Nat) (cv : BitVec 32) (b : Byte) :
    Safe' e (Thread.storeCv l e cv b) := by
  unfold Thread.storeCv
  safe

macro_rules | `(tactic| safe1) => `(tactic| exact safe_storeCv _ _ _)

theorem safe_storePrimary :
    Safe' e (Thread.storePrimary e) := by
  unfold Thread.storePrimary
  safe

macro_rules | `(tactic| safe1) => `(tactic| exact safe_storePrimary)

theorem safe_storeTail :
    Safe' e (Thread.storeTail e) := by
  unfold Thread.storeTail
  safe

macro_rules | `(tactic| safe1) => `(tactic| exact safe_storeTail)

theorem safe_logonStore :
    Safe' e (Thread.logonStore e) := by
  unfold Thread.logonStore
  safe

macro_rules | `(tactic| safe1) => `(tactic| exact safe_logonStore)

theorem safe_updateQos :
    Safe' e (Thread.updateQos) := by
  unfold Thread.updateQos
  safe

macro_rules | `(tactic| safe1) => `(tactic| exact safe_updateQos)

theorem safe_updateTimepoints (now : Int) :
    Safe' e (Thread.updateTimepoints now) := by
  unfold Thread.updateTimepoints
  safe

macro_rules | `(tactic| safe1) => `(tactic| exact safe_updateTimepoints _)

theorem safe_pom (v : Byte) : Safe' e (Thread.pom v) := by
  intro s
  unfold Thread.pom
  refine .bind (.reads (.get _ _) fun _ s1 c1 => ?_)
  split
  · exact safe_pure _ _
  refine .bind fun s2 c2 => ⟨nofun, fun s3 b hb => ?_⟩
  cases hb
  refine .bind (.reads (.lift _ _ (encodeId_no_overflow _ _ _)) fun d s5 c5 => ?_)
  refine .push (get := (·.q.pom)) (put := fun s q => { s with q := { s.q with pom := q } }) fun s6 c6 => ?_
  exact ⟨by have := (c5.trans c6).pom; exact Nat.lt_of_le_of_lt this (Nat.zero_lt_succ 1), trivial⟩

macro_rules | `(tactic| safe1) => `(tactic| exact safe_pom _)

theorem safe_callbackByte (b v : Byte) :
    Safe' e (Thread.callbackByte b v) := by
  unfold Thread.callbackByte
  safe

macro_rules | `(tactic| safe1) => `(tactic| exact safe_callbackByte _ _)

theorem safe_callbackBit (b v : Bool) :
    Safe' e (Thread.callbackBit b v) := by
  unfold Thread.callbackBit
  safe

macro_rules | `(tactic| safe1) => `(tactic| exact safe_callbackBit _ _)

theorem safe_cvVerifyByte (cv : BitVec 32) (b : Byte) :
    Safe' e (Thread.cvVerifyByte e cv b) := by
  unfold Thread.cvVerifyByte
  safe

macro_rules | `(tactic| safe1) => `(tactic| exact safe_cvVerifyByte _ _)

theorem safe_cvVerifyBit (cv : BitVec 32) (b : Bool) (pos : BitVec 32) :
    Safe' e (Thread.cvVerifyBit e cv b pos) := by
  unfold Thread.cvVerifyBit
  safe

macro_rules | `(tactic| safe1) => `(tactic| exact safe_cvVerifyBit _ _ _)

theorem safe_cvWriteImplByte (cv : BitVec 32) (b : Byte) :
    Safe' e (Thread.cvWriteImplByte e cv b) := by
  unfold Thread.cvWriteImplByte
  safe

macro_rules | `(tactic| safe1) => `(tactic| exact safe_cvWriteImplByte _ _)

theorem safe_cvWriteImplBit (cv : BitVec 32) (b : Bool) (pos : BitVec 32) :
    Safe' e (Thread.cvWriteImplBit e cv b pos) := by
  unfold Thread.cvWriteImplBit
  safe

macro_rules | `(tactic| safe1) => `(tactic| exact safe_cvWriteImplBit _ _ _)

theorem safe_cvWriteByte (cv : BitVec 32) (b : Byte) :
    Safe' e (Thread.cvWriteByte e cv b) := by
  unfold Thread.cvWriteByte
  safe

macro_rules | `(tactic| safe1) => `(tactic| exact safe_cvWriteByte _ _)

theorem safe_cvWriteBit (cv : BitVec 32) (b : Bool) (pos : BitVec 32) :
    Safe' e (Thread.cvWriteBit e cv b pos) := by
  unfold Thread.cvWriteBit
  safe

macro_rules | `(tactic| safe1) => `(tactic| exact safe_cvWriteBit _ _ _)

theorem safe_countOwnEqualCvPackets (p : Packet) :
    Safe' e (Thread.countOwnEqualCvPackets p) := by
  unfold Thread.countOwnEqualCvPackets
  safe

macro_rules | `(tactic| safe1) => `(tactic| exact safe_countOwnEqualCvPackets _)

theorem safe_cvLongBody (bs : List Byte) :
    Safe' e (Thread.cvLongBody e bs) := by
  unfold Thread.cvLongBody
  safe

macro_rules | `(tactic| safe1) => `(tactic| exact safe_cvLongBody _)

theorem safe_cvLong (addr : BitVec 16) (p : Packet) (bs : List Byte) :
    Safe' e (Thread.cvLong e addr p bs) := by
  unfold Thread.cvLong
  safe

macro_rules | `(tactic| safe1) => `(tactic| exact safe_cvLong _ _ _)

theorem safe_cvShortBody (bs : List Byte) :
    Safe' e (Thread.cvShortBody e bs) := by
  unfold Thread.cvShortBody
  safe

macro_rules | `(tactic| safe1) => `(tactic| exact safe_cvShortBody _)

theorem safe_cvShort (addr : BitVec 16) (p : Packet) (bs : List Byte) :
    Safe' e (Thread.cvShort e addr p bs) := by
  unfold Thread.cvShort
  safe

macro_rules | `(tactic| safe1) => `(tactic| exact safe_cvShort _ _ _)

theorem safe_registerMode (bs : List Byte) :
    Safe' e (Thread.registerMode e bs) := by
  unfold Thread.registerMode
  safe

macro_rules | `(tactic| safe1) => `(tactic| exact safe_registerMode _)

theorem safe_setServiceMode (b : Bool) :
    Safe' e (Thread.setServiceMode b) := by
  unfold Thread.setServiceMode
  safe

macro_rules | `(tactic| safe1) => `(tactic| exact safe_setServiceMode _)

theorem safe_directionSpeed (addr : BitVec 16) (dir : Bool) (speed : Int) :
    Safe' e (Thread.directionSpeed addr dir speed) := by
  unfold Thread.directionSpeed
  safe

macro_rules | `(tactic| safe1) => `(tactic| exact safe_directionSpeed _ _ _)

theorem safe_tipOffSearch (rand : Nat) : Safe' e (Thread.tipOffSearch rand) := by
  unfold Thread.tipOffSearch
  refine .then (safe_call _ _) fun _ s => ?_
  split
  · exact safe_pure _ _
  refine .bind (.got fun s3 c3 => ?_)
  split
  · exact safe_pure _ _
  rename_i h
  have h3 : s3.q.tos.length = 0 := by simpa using h
  refine .bind (.reads (.get _ _) fun _ s4 c4 => .bind (.reads (.get _ _) fun _ s5 c5 => ?_))
  dsimp only
  split
  · exact safe_pure _ _
  refine .bind (.reads (.get _ _) fun _ s6 c6 => .bind (.reads (reads_adrHigh _) fun _ s7 c7 => ?_))
  refine .bind (.reads (.get _ _) fun _ s8 c8 => .bind (.reads (reads_adrLow _) fun _ s9 c9 => ?_))
  refine .bind (.reads (.lift _ _ (encodeId_no_overflow _ _ _)) fun d s10 c10 => ?_)
  refine .push (get := (·.q.tos)) (put := fun s q => { s with q := { s.q with tos := q } }) fun s11 c11 => ?_
  have c := ((((((((c4.trans c5).trans c6).trans c7).trans c8).trans c9).trans c10)).trans c11).tos
  exact ⟨by omega, trivial⟩

macro_rules | `(tactic| safe1) => `(tactic| exact safe_tipOffSearch _)

theorem safe_binaryState (xf : BitVec 32) (b : Bool) (rand : Nat) :
    Safe' e (Thread.binaryState xf b rand) := by
  unfold Thread.binaryState
  safe

macro_rules | `(tactic| safe1) => `(tactic| exact safe_binaryState _ _ _)

theorem safe_consistControl (bs : List Byte) :
    Safe' e (Thread.consistControl e bs) := by
  unfold Thread.consistControl
  safe

macro_rules | `(tactic| safe1) => `(tactic| exact safe_consistControl _)

theorem safe_optFunctions (l : Nat) (addr : BitVec 16) (bs : List Byte) (i : Nat) (mask : BitVec 32) (shift : Nat) :
    Safe' e (Thread.optFunctions l addr bs i mask shift) := by
  unfold Thread.optFunctions
  safe

macro_rules | `(tactic| safe1) => `(tactic| exact safe_optFunctions _ _ _ _ _ _)

theorem safe_speedDirFunctions (addr : BitVec 16) (bs : List Byte) :
    Safe' e (Thread.speedDirFunctions addr bs) := by
  unfold Thread.speedDirFunctions
  safe

macro_rules | `(tactic| safe1) => `(tactic| exact safe_speedDirFunctions _ _)

theorem safe_speed126 (addr : BitVec 16) (b1 : Byte) :
    Safe' e (Thread.speed126 addr b1) := by
  unfold Thread.speed126
  safe

macro_rules | `(tactic| safe1) => `(tactic| exact safe_speed126 _ _)

theorem safe_specialOperatingModes (addr : BitVec 16) (b1 : Byte) :
    Safe' e (Thread.specialOperatingModes e addr b1) := by
  unfold Thread.specialOperatingModes
  safe

macro_rules | `(tactic| safe1) => `(tactic| exact safe_specialOperatingModes _ _)

theorem safe_advancedOperations (addr : BitVec 16) (bs : List Byte) :
    Safe' e (Thread.advancedOperations e addr bs) := by
  unfold Thread.advancedOperations
  safe

macro_rules | `(tactic| safe1) => `(tactic| exact safe_advancedOperations _ _)

theorem safe_speedAndDirection (addr : BitVec 16) (bs : List Byte) :
    Safe' e (Thread.speedAndDirection addr bs) := by
  unfold Thread.speedAndDirection
  safe

macro_rules | `(tactic| safe1) => `(tactic| exact safe_speedAndDirection _ _)

theorem safe_functionGroup (addr : BitVec 16) (bs : List Byte) :
    Safe' e (Thread.functionGroup addr bs) := by
  unfold Thread.functionGroup
  safe

macro_rules | `(tactic| safe1) => `(tactic| exact safe_functionGroup _ _)

theorem safe_featureExpansion (addr : BitVec 16) (bs : List Byte) (rand : Nat) :
    Safe' e (Thread.featureExpansion addr bs rand) := by
  unfold Thread.featureExpansion
  safe

macro_rules | `(tactic| safe1) => `(tactic| exact safe_featureExpansion _ _ _)

theorem safe_effectiveAddress (a : Address) :
    Safe' e (Thread.effectiveAddress a) := by
  unfold Thread.effectiveAddress
  safe

macro_rules | `(tactic| safe1) => `(tactic| exact safe_effectiveAddress _)

theorem safe_executeInstruction (addr : BitVec 16) (p : Packet) (bs : List Byte) (rand : Nat) :
    Safe' e (Thread.executeInstruction e addr p bs rand) := by
  unfold Thread.executeInstruction
  safe

macro_rules | `(tactic| safe1) => `(tactic| exact safe_executeInstruction _ _ _ _)

theorem safe_executeOperationsAddressed (a : Address) (p : Packet) (bs : List Byte) (rand : Nat) :
    Safe' e (Thread.executeOperationsAddressed e a p bs rand) := by
  unfold Thread.executeOperationsAddressed
  safe

macro_rules | `(tactic| safe1) => `(tactic| exact safe_executeOperationsAddressed _ _ _ _)

theorem safe_executeOperations (p : Packet) (rand : Nat) :
    Safe' e (Thread.executeOperations e p rand) := by
  unfold Thread.executeOperations
  safe

macro_rules | `(tactic| safe1) => `(tactic| exact safe_executeOperations _ _)

theorem safe_executeService (p : Packet) :
    Safe' e (Thread.executeService e p) := by
  unfold Thread.executeService
  safe

macro_rules | `(tactic| safe1) => `(tactic| exact safe_executeService _)

theorem safe_front (l : Nat) : Safe' e (Thread.front l) := by
  intro s s1 _
  refine ⟨?_, fun s2 b _ => trivial⟩
  dsimp only
  split <;> nofun

macro_rules | `(tactic| safe1) => `(tactic| exact safe_front _)

theorem safe_executeFront (rand : Nat) :
    Safe' e (Thread.executeFront e rand) := by
  unfold Thread.executeFront
  safe

macro_rules | `(tactic| safe1) => `(tactic| exact safe_executeFront _)

theorem safe_execute (now : Int) (rand : Nat) :
    Safe' e (Thread.execute e now rand) := by
  unfold Thread.execute
  safe

macro_rules | `(tactic| safe1) => `(tactic| exact safe_execute _ _)

theorem safe_dyn (d x : Byte) : Safe' e (Thread.dyn e d x) := by
  intro s
  unfold Thread.dyn
  refine .bind (.reads (.get _ _) fun _ s1 c1 => ?_)
  split
  · exact safe_pure _ _
  refine .bind (.got fun s2 c2 => ?_)
  split
  · exact safe_pure _ _
  rename_i h
  have h2 : s2.q.dyn.length ≠ e.bidiDeque := by simpa using h
  have := c2.room
  refine .bind (.reads (.lift _ _ (encodeId_no_overflow _ _ _)) fun d s4 c4 => ?_)
  refine .push (get := (·.q.dyn)) (put := fun s q => { s with q := { s.q with dyn := q } }) fun s5 c5 => ?_
  have := (c4.trans c5).dyn
  exact ⟨by omega, trivial⟩

macro_rules | `(tactic| safe1) => `(tactic| exact safe_dyn _ _)

theorem safe_dyns (ds : List Dyn) : Safe' e (Thread.dyns e ds) := by
  induction ds with
  | nil => exact safe_pure _
  | cons d ds ih => exact .then (safe_dyn _ _) fun _ => ih

macro_rules | `(tactic| safe1) => `(tactic| exact safe_dyns _)

theorem safe_datagram (ds : List Dyn) :
    Safe' e (Thread.datagram e ds) := by
  unfold Thread.datagram
  safe

macro_rules | `(tactic| safe1) => `(tactic| exact safe_datagram _)

theorem safe_enable :
    Safe' e (Thread.enable) := by
  unfold Thread.enable
  safe

macro_rules | `(tactic| safe1) => `(tactic| exact safe_enable)

theorem safe_disable :
    Safe' e (Thread.disable) := by
  unfold Thread.disable
  safe

macro_rules | `(tactic| safe1) => `(tactic| exact safe_disable)

/-- Every call. -/
theorem safe_thread (op : RxOp) : Safe' e (Thread.calls e op) := by
  unfold Thread.calls
  safe

end Dcc
