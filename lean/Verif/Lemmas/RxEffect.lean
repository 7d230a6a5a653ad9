import Verif.Lemmas.RxThread
import Verif.Lemmas.RxTos
import Verif.Lemmas.RxChan2
/-!
What a single access of the thread changes.
-/
namespace Dcc
open Spec

/-- The call is none of `transmitBiDi`. -/
def Event.silent : Event → Bool
  | .transmitBiDi _ => false
  | _ => true

/-- Members no access of the thread writes but few. -/
structure Quiet (s s' : Rx) : Prop where
  link : s'.link = s.link
  deque : s'.deque = s.deque
  own : s'.lastOwnCvPacket = s.lastOwnCvPacket
  received : s'.addrs.received = s.addrs.received
  logonAdr : s'.addrs.logon = s.addrs.logon
  selected : s'.logon.selected = s.logon.selected
  assigned : s'.logon.assigned = s.logon.assigned
  adr : s'.q.adr = s.q.adr
  pom : s'.q.pom = s.q.pom
  dyn : s'.q.dyn = s.q.dyn
  tos : s'.q.tos = s.q.tos
  logonQ : s'.q.logon = s.q.logon
  did : s'.cfg.did = s.cfg.did ∨ s'.cfg.did.length = 4
  trace : s'.trace = s.trace ∨ ∃ ev, s'.trace = s.trace ++ [ev] ∧ ev.silent = true

/-- A message of a given size with four one bits in every byte. -/
def GoodMsg (n : Nat) (m : List Byte) : Prop := m.length = n ∧ ∀ c ∈ m, popcount c = 4

/-- What an access changes. -/
inductive Effect (e : Env) (s : Rx) : Rx → Prop
  | quiet {s' : Rx} (h : Quiet s s') : Effect e s s'
  | own (p : Packet) : Effect e s { s with lastOwnCvPacket := p }
  | clear : Effect e s { s with q := { s.q with pom := [] } }
  | pom (d : List Byte) (h : GoodMsg 2 d) : Effect e s { s with q := { s.q with pom := s.q.pom ++ [d] } }
  | adr (d : List Byte) (h : GoodMsg 2 d) : Effect e s { s with q := { s.q with adr := s.q.adr ++ [d] } }
  | tos (d : List Byte) (h : GoodMsg 6 d) : Effect e s { s with q := { s.q with tos := s.q.tos ++ [d] } }
  | dyn (d : List Byte) (h : GoodMsg 3 d) (room : s.q.dyn.length < e.bidiDeque) :
      Effect e s { s with q := { s.q with dyn := s.q.dyn ++ [d] } }

/-- Other lines of include/dcc/rx/crtp_base.hpp than those where the packet to execute is fetched
(291, 315) and removed (281) and those of `reset` (871, 872). -/
def plainLine (l : Nat) : Prop := l ≠ 281 ∧ l ≠ 291 ∧ l ≠ 315 ∧ l ≠ 871 ∧ l ≠ 872

instance (l : Nat) : Decidable (plainLine l) := by unfold plainLine; infer_instance

/-- Every access is at such a line and has such an effect; `Q` holds for the result. -/
def Plain (e : Env) {α : Type} : Prog α → (α → Prop) → Prop
  | .ret a, Q => Q a
  | .atom l f k, Q =>
    plainLine l ∧ ∀ s s' b, f s = .ok (s', b) → Effect e s s' ∧ Plain e (k b) Q

variable {e : Env} {α β : Type}

theorem Plain.mono {p : Prog α} {Q Q' : α → Prop} (h : Plain e p Q) (hq : ∀ a, Q a → Q' a) :
    Plain e p Q' := by
  induction p with
  | ret a => exact hq a h
  | atom l f k ih => exact ⟨h.1, fun s s' b hb => ⟨(h.2 s s' b hb).1, ih b (h.2 s s' b hb).2⟩⟩

theorem Plain.bind {p : Prog α} {g : α → Prog β} {Q : β → Prop}
    (h : Plain e p fun a => Plain e (g a) Q) : Plain e (p >>= g) Q := by
  show Plain e (p.bind g) Q
  induction p with
  | ret a => exact h
  | atom l f k ih => exact ⟨h.1, fun s s' b hb => ⟨(h.2 s s' b hb).1, ih b (h.2 s s' b hb).2⟩⟩

theorem Plain.pure {a : α} {Q : α → Prop} (h : Q a) : Plain e (Pure.pure a) Q := h

/-- Nothing is known about the result. -/
abbrev Plain' (e : Env) (p : Prog α) : Prop := Plain e p fun _ => True

theorem Plain.then {p : Prog α} {g : α → Prog β} {Q : β → Prop} (h : Plain' e p)
    (hg : ∀ a, Plain e (g a) Q) : Plain e (p >>= g) Q := .bind (h.mono fun a _ => hg a)

theorem Quiet.refl (s : Rx) : Quiet s s :=
  ⟨rfl, rfl, rfl, rfl, rfl, rfl, rfl, rfl, rfl, rfl, rfl, rfl, .inl rfl, .inl rfl⟩

theorem plain_get (l : Nat) (f : Rx → β) (hl : plainLine l) : Plain' e (Prog.get l f) :=
  ⟨hl, fun s s' b h => by cases h; exact ⟨.quiet (.refl s), trivial⟩⟩

theorem plain_set (l : Nat) (f : Rx → Rx) (hl : plainLine l) (h : ∀ s, Effect e s (f s)) :
    Plain' e (Prog.set l f) :=
  ⟨hl, fun s s' b hb => by cases hb; exact ⟨h s, trivial⟩⟩

theorem plain_quiet (l : Nat) (f : Rx → Rx) (hl : plainLine l) (h : ∀ s, Quiet s (f s)) :
    Plain' e (Prog.set l f) := plain_set l f hl fun s => .quiet (h s)

theorem Quiet.emit (s : Rx) (ev : Event) (h : ev.silent = true) : Quiet s (s.emit ev) :=
  ⟨rfl, rfl, rfl, rfl, rfl, rfl, rfl, rfl, rfl, rfl, rfl, rfl, .inl rfl, .inr ⟨ev, rfl, h⟩⟩

theorem plain_emit (l : Nat) (ev : Event) (hl : plainLine l) (h : ev.silent = true) :
    Plain' e (Prog.emit l ev) := plain_quiet l _ hl fun s => .emit s ev h

theorem plain_call (l : Nat) (f : Rx → β × Rx) (hl : plainLine l) (h : ∀ s, Quiet s (f s).2) :
    Plain' e (Prog.call l f) :=
  ⟨hl, fun s s' b hb => by cases hb; exact ⟨.quiet (h s), trivial⟩⟩

theorem plain_lift (l : Nat) (x : R β) (hl : plainLine l) : Plain e (Prog.lift l x) fun b => x = .ok b :=
  ⟨hl, fun s s' b hb => by
    simp only [bind_eq_ok, pure_eq_ok] at hb
    obtain ⟨a, ha, hb⟩ := hb
    cases hb
    exact ⟨.quiet (.refl s), ha⟩⟩

theorem plain_act (l : Nat) (f : Rx → R Rx) (hl : plainLine l)
    (h : ∀ s s', f s = .ok s' → Effect e s s') : Plain' e (Prog.act l f) :=
  ⟨hl, fun s s' b hb => by
    simp only [bind_eq_ok, pure_eq_ok] at hb
    obtain ⟨a, ha, hb⟩ := hb
    cases hb
    exact ⟨h s _ ha, trivial⟩⟩

/-- Works through a program, up to what calls it. -/
macro "plain_steps" : tactic => `(tactic| repeat' first
  | exact trivial
  | assumption
  | refine plain_get _ _ (by decide)
  | refine plain_emit _ _ (by decide) rfl
  | refine (plain_lift _ _ (by decide)).mono fun _ _ => trivial
  | refine plain_quiet _ _ (by decide) fun s =>
      ⟨rfl, rfl, rfl, rfl, rfl, rfl, rfl, rfl, rfl, rfl, rfl, rfl, .inl rfl, .inl rfl⟩
  | refine Plain.then ?_ fun _ => ?_
  | split
  | dsimp only)

theorem plain_readCv (l : Nat) (cv : BitVec 32) (hl : plainLine l) : Plain' e (Thread.readCv l e cv) :=
  plain_call l _ hl fun s => .emit s _ rfl

macro "plain_cv" : tactic => `(tactic| repeat' first
  | exact plain_readCv _ _ (by decide)
  | refine plain_quiet _ _ (by decide) fun s =>
      ⟨rfl, rfl, rfl, rfl, rfl, rfl, rfl, rfl, rfl, rfl, rfl, rfl, .inl rfl, .inl rfl⟩
  | refine plain_quiet _ _ (by decide) fun s =>
      ⟨rfl, rfl, rfl, rfl, rfl, rfl, rfl, rfl, rfl, rfl, rfl, rfl, .inr rfl, .inl rfl⟩
  | refine (plain_lift _ _ (by decide)).mono fun _ _ => trivial
  | refine plain_emit _ _ (by decide) rfl
  | exact trivial
  | refine Plain.then ?_ fun _ => ?_
  | split
  | dsimp only)

theorem plain_initPrimary (cv29 : Byte) : Plain' e (Thread.initPrimary e cv29) := by
  unfold Thread.initPrimary; plain_cv

theorem plain_initConsist : Plain' e (Thread.initConsist e) := by
  unfold Thread.initConsist; plain_cv

theorem plain_initLock (cv29 : Byte) : Plain' e (Thread.initLock e cv29) := by
  unfold Thread.initLock; plain_cv

theorem plain_initBidi (cv29 cv20 : Byte) : Plain' e (Thread.initBidi e cv29 cv20) := by
  unfold Thread.initBidi; plain_cv

theorem plain_initIds : Plain' e (Thread.initIds e) := by
  unfold Thread.initIds; plain_cv

theorem plain_init : Plain' e (Thread.init e) :=
  (plain_readCv _ _ (by decide)).then fun _ => (plain_initPrimary _).then fun _ =>
    plain_initConsist.then fun _ => (plain_initLock _).then fun _ => (plain_initBidi _ _).then fun _ =>
      plain_initIds

/-- An encoded datagram of channel 1. -/
theorem good_b12 {id data : Nat} {d : List Byte} (hid : id < 16) (h : encodeId .b12 id data = .ok d) :
    GoodMsg 2 d := by
  obtain ⟨hd, rfl⟩ := encodeId_inv hid h
  obtain ⟨h1, h2, -⟩ := idBytes_spec .b12 id data hid hd
  exact ⟨h1, h2⟩

theorem plain_adrHigh (a : Address) : Plain e (Thread.adrHigh a) (GoodMsg 2) :=
  (plain_get _ _ (by decide)).then fun _ =>
    (plain_lift _ _ (by decide)).mono fun _ h => good_b12 (by decide) h

theorem plain_adrLow (a : Address) : Plain e (Thread.adrLow a) (GoodMsg 2) := by
  unfold Thread.adrLow
  refine .then (plain_get _ _ (by decide)) fun _ => ?_
  split
  · exact .then (plain_get _ _ (by decide)) fun _ => .then (plain_get _ _ (by decide)) fun _ =>
      (plain_lift _ _ (by decide)).mono fun _ h => good_b12 (by decide) h
  · exact (plain_lift _ _ (by decide)).mono fun _ h => good_b12 (by decide) h

theorem pushBack_ok {γ : Type} {cap : Nat} {q q' : List γ} {a : γ} (h : pushBack cap q a = .ok q') :
    q.length < cap ∧ q' = q ++ [a] := by
  unfold pushBack at h
  split at h
  · cases h; exact ⟨‹_›, rfl⟩
  · cases h

theorem plain_pushAdr (l : Nat) (d : List Byte) (hl : plainLine l) (hd : GoodMsg 2 d) :
    Plain' e (Thread.pushAdr l d) :=
  plain_act l _ hl fun s s' h => by
    simp only [bind_eq_ok, pure_eq_ok, Except.ok.injEq] at h
    obtain ⟨q, hq, rfl⟩ := h
    obtain ⟨-, rfl⟩ := pushBack_ok hq
    exact .adr d hd

theorem plain_pushAdrs (l : Nat) (a : Rx → Address) (hl : plainLine l) (hl' : plainLine (l + 1)) :
    Plain' e (Thread.pushAdrs l a) := by
  unfold Thread.pushAdrs
  refine .then (plain_get _ _ hl) fun a => .bind ((plain_adrHigh a).mono fun d hd => ?_)
  refine .then (plain_pushAdr _ d hl hd) fun _ => .then (plain_get _ _ hl') fun a =>
    .bind ((plain_adrLow a).mono fun d hd => ?_)
  exact plain_pushAdr _ d hl' hd

theorem plain_adr : Plain' e Thread.adr := by
  unfold Thread.adr
  repeat' first
    | exact plain_get _ _ (by decide)
    | exact plain_pushAdrs _ _ (by decide) (by decide)
    | exact trivial
    | refine Plain.then ?_ fun _ => ?_
    | split
    | dsimp only

theorem plain_storeCv (l : Nat) (cv : BitVec 32) (b : Byte) (hl : plainLine l) :
    Plain' e (Thread.storeCv l e cv b) := plain_quiet l _ hl fun s => .emit s _ rfl

theorem plain_storeBit (l : Nat) (cv : BitVec 32) (b : Bool) (pos : BitVec 32) (hl : plainLine l) :
    Plain' e (Prog.set l fun s => (s.writeCvBit e cv b pos).2) := plain_quiet l _ hl fun s => .emit s _ rfl

theorem plain_logonStore : Plain' e (Thread.logonStore e) := by
  unfold Thread.logonStore Thread.storePrimary Thread.storeTail
  repeat' first
    | exact plain_get _ _ (by decide)
    | exact plain_storeCv _ _ _ (by decide)
    | exact plain_storeBit _ _ _ _ (by decide)
    | refine plain_quiet _ _ (by decide) fun s =>
        ⟨rfl, rfl, rfl, rfl, rfl, rfl, rfl, rfl, rfl, rfl, rfl, rfl, .inl rfl, .inl rfl⟩
    | exact trivial
    | refine Plain.then ?_ fun _ => ?_
    | split
    | dsimp only

theorem plain_updateQos : Plain' e Thread.updateQos := by
  unfold Thread.updateQos; plain_steps

theorem plain_updateTimepoints (now : Int) : Plain' e (Thread.updateTimepoints now) := by
  unfold Thread.updateTimepoints; plain_steps

theorem plain_pom (v : Byte) : Plain' e (Thread.pom v) := by
  unfold Thread.pom
  refine .then (plain_get _ _ (by decide)) fun _ => ?_
  split
  · exact trivial
  refine .then (plain_set _ _ (by decide) fun s => .clear) fun _ => .bind
    ((plain_lift _ _ (by decide)).mono fun d hd => ?_)
  refine plain_act _ _ (by decide) fun s s' h => ?_
  simp only [bind_eq_ok, pure_eq_ok, Except.ok.injEq] at h
  obtain ⟨q, hq, rfl⟩ := h
  obtain ⟨-, rfl⟩ := pushBack_ok hq
  exact .pom d (good_b12 (by decide) hd)

theorem plain_callbackByte (b v : Byte) : Plain' e (Thread.callbackByte b v) := by
  unfold Thread.callbackByte
  have := plain_pom (e := e) v
  plain_steps

theorem plain_callbackBit (b v : Bool) : Plain' e (Thread.callbackBit b v) := by
  unfold Thread.callbackBit
  have := plain_pom (e := e) (if v then 1#8 else 0#8)
  refine .then (plain_get _ _ (by decide)) fun x => ?_
  cases x
  · exact this
  · rw [if_neg (by decide)]
    plain_steps

theorem Quiet.defer (s : Rx) (c : Callback) (ev : Event) (h : ev.silent = true) :
    Quiet s (s.defer c ev) :=
  ⟨rfl, rfl, rfl, rfl, rfl, rfl, rfl, rfl, rfl, rfl, rfl, rfl, .inl rfl, .inr ⟨ev, rfl, h⟩⟩

theorem plain_cvVerifyByte (cv : BitVec 32) (b : Byte) : Plain' e (Thread.cvVerifyByte e cv b) := by
  unfold Thread.cvVerifyByte
  repeat' first
    | exact plain_get _ _ (by decide)
    | exact plain_quiet _ _ (by decide) fun s => .defer s _ _ rfl
    | exact plain_call _ _ (by decide) fun s => .emit s _ rfl
    | exact plain_callbackByte _ _
    | exact trivial
    | refine Plain.then ?_ fun _ => ?_
    | split
    | dsimp only

theorem plain_cvVerifyBit (cv : BitVec 32) (b : Bool) (pos : BitVec 32) :
    Plain' e (Thread.cvVerifyBit e cv b pos) := by
  unfold Thread.cvVerifyBit
  repeat' first
    | exact plain_get _ _ (by decide)
    | exact plain_quiet _ _ (by decide) fun s => .defer s _ _ rfl
    | exact plain_call _ _ (by decide) fun s => .emit s _ rfl
    | exact plain_callbackBit _ _
    | exact trivial
    | refine Plain.then ?_ fun _ => ?_
    | split
    | dsimp only

theorem plain_cvWriteByte (cv : BitVec 32) (b : Byte) : Plain' e (Thread.cvWriteByte e cv b) := by
  unfold Thread.cvWriteByte Thread.cvWriteImplByte
  repeat' first
    | exact plain_get _ _ (by decide)
    | exact plain_quiet _ _ (by decide) fun s => .defer s _ _ rfl
    | exact plain_call _ _ (by decide) fun s => .emit s _ rfl
    | exact plain_callbackByte _ _
    | exact plain_init
    | exact trivial
    | refine Plain.then ?_ fun _ => ?_
    | split
    | dsimp only

theorem plain_cvWriteBit (cv : BitVec 32) (b : Bool) (pos : BitVec 32) :
    Plain' e (Thread.cvWriteBit e cv b pos) := by
  unfold Thread.cvWriteBit Thread.cvWriteImplBit
  repeat' first
    | exact plain_get _ _ (by decide)
    | exact plain_quiet _ _ (by decide) fun s => .defer s _ _ rfl
    | exact plain_call _ _ (by decide) fun s => .emit s _ rfl
    | exact plain_callbackBit _ _
    | exact plain_init
    | exact trivial
    | refine Plain.then ?_ fun _ => ?_
    | split
    | dsimp only

theorem plain_count (p : Packet) : Plain' e (Thread.countOwnEqualCvPackets p) := by
  unfold Thread.countOwnEqualCvPackets
  repeat' first
    | exact plain_get _ _ (by decide)
    | refine plain_quiet _ _ (by decide) fun s =>
        ⟨rfl, rfl, rfl, rfl, rfl, rfl, rfl, rfl, rfl, rfl, rfl, rfl, .inl rfl, .inl rfl⟩
    | exact plain_set _ _ (by decide) fun s => .own p
    | exact plain_set _ _ (by decide) fun s => .clear
    | exact trivial
    | refine Plain.then ?_ fun _ => ?_
    | split
    | dsimp only

macro "plain_calls" : tactic => `(tactic| repeat' first
  | exact plain_get _ _ (by decide)
  | refine plain_emit _ _ (by decide) rfl
  | refine (plain_lift _ _ (by decide)).mono fun _ _ => trivial
  | exact plain_cvVerifyByte _ _
  | exact plain_cvVerifyBit _ _ _
  | exact plain_cvWriteByte _ _
  | exact plain_cvWriteBit _ _ _
  | exact plain_count _
  | assumption
  | refine plain_quiet _ _ (by decide) fun s =>
      ⟨rfl, rfl, rfl, rfl, rfl, rfl, rfl, rfl, rfl, rfl, rfl, rfl, .inl rfl, .inl rfl⟩
  | exact trivial
  | refine Plain.then ?_ fun _ => ?_
  | split
  | dsimp only)

theorem plain_cvLongBody (bs : List Byte) : Plain' e (Thread.cvLongBody e bs) := by
  unfold Thread.cvLongBody; plain_calls

theorem plain_cvLong (addr : BitVec 16) (p : Packet) (bs : List Byte) :
    Plain' e (Thread.cvLong e addr p bs) := by
  unfold Thread.cvLong
  have := plain_cvLongBody (e := e) bs
  plain_calls

theorem plain_cvShort (addr : BitVec 16) (p : Packet) (bs : List Byte) :
    Plain' e (Thread.cvShort e addr p bs) := by
  unfold Thread.cvShort Thread.cvShortBody; plain_calls

theorem plain_registerMode (bs : List Byte) : Plain' e (Thread.registerMode e bs) := by
  unfold Thread.registerMode; plain_calls

theorem plain_setServiceMode (b : Bool) : Plain' e (Thread.setServiceMode b) := by
  unfold Thread.setServiceMode; plain_calls

theorem plain_directionSpeed (addr : BitVec 16) (dir : Bool) (speed : Int) :
    Plain' e (Thread.directionSpeed addr dir speed) := by
  unfold Thread.directionSpeed; plain_calls

theorem plain_tipOffSearch (rand : Nat) : Plain' e (Thread.tipOffSearch rand) := by
  unfold Thread.tipOffSearch
  refine .then (plain_call _ _ (by decide) fun s =>
    ⟨rfl, rfl, rfl, rfl, rfl, rfl, rfl, rfl, rfl, rfl, rfl, rfl, .inl rfl, .inl rfl⟩) fun _ => ?_
  split
  · exact trivial
  refine .then (plain_get _ _ (by decide)) fun _ => ?_
  split
  · exact trivial
  refine .then (plain_get _ _ (by decide)) fun _ => .then (plain_get _ _ (by decide)) fun _ => ?_
  dsimp only
  split
  · exact trivial
  refine .then (plain_get _ _ (by decide)) fun a => .bind ((plain_adrHigh a).mono fun d1 h1 => ?_)
  refine .then (plain_get _ _ (by decide)) fun a => .bind ((plain_adrLow a).mono fun d2 h2 => ?_)
  refine .bind ((plain_lift _ _ (by decide)).mono fun d3 h3 => ?_)
  refine plain_act _ _ (by decide) fun s s' h => ?_
  simp only [bind_eq_ok, pure_eq_ok, Except.ok.injEq] at h
  obtain ⟨q, hq, rfl⟩ := h
  obtain ⟨-, rfl⟩ := pushBack_ok hq
  have h3 := good_b12 (by decide) h3
  refine .tos _ ⟨by simp [h1.1, h2.1, h3.1], fun c hc => ?_⟩
  rw [List.mem_append, List.mem_append] at hc
  rcases hc with (hc | hc) | hc
  · exact h1.2 c hc
  · exact h2.2 c hc
  · exact h3.2 c hc

theorem plain_advancedOperations (addr : BitVec 16) (bs : List Byte) :
    Plain' e (Thread.advancedOperations e addr bs) := by
  unfold Thread.advancedOperations Thread.speedDirFunctions Thread.optFunctions Thread.speed126
    Thread.specialOperatingModes
  repeat' first
    | exact plain_directionSpeed _ _ _
    | exact plain_get _ _ (by decide)
    | refine plain_emit _ _ (by decide) rfl
    | refine (plain_lift _ _ (by decide)).mono fun _ _ => trivial
    | refine plain_quiet _ _ (by decide) fun s =>
        ⟨rfl, rfl, rfl, rfl, rfl, rfl, rfl, rfl, rfl, rfl, rfl, rfl, .inl rfl, .inl rfl⟩
    | exact trivial
    | refine Plain.then ?_ fun _ => ?_
    | split
    | dsimp only

theorem plain_speedAndDirection (addr : BitVec 16) (bs : List Byte) :
    Plain' e (Thread.speedAndDirection addr bs) := by
  unfold Thread.speedAndDirection
  repeat' first
    | exact plain_directionSpeed _ _ _
    | exact plain_get _ _ (by decide)
    | refine plain_emit _ _ (by decide) rfl
    | refine (plain_lift _ _ (by decide)).mono fun _ _ => trivial
    | exact trivial
    | refine Plain.then ?_ fun _ => ?_
    | split
    | dsimp only

theorem plain_functionGroup (addr : BitVec 16) (bs : List Byte) :
    Plain' e (Thread.functionGroup addr bs) := by
  unfold Thread.functionGroup; plain_calls

theorem plain_binaryState (xf : BitVec 32) (b : Bool) (rand : Nat) :
    Plain' e (Thread.binaryState xf b rand) := by
  unfold Thread.binaryState
  split
  · exact plain_tipOffSearch rand
  · exact trivial

theorem plain_featureExpansion (addr : BitVec 16) (bs : List Byte) (rand : Nat) :
    Plain' e (Thread.featureExpansion addr bs rand) := by
  unfold Thread.featureExpansion
  repeat' first
    | exact plain_binaryState _ _ _
    | refine plain_emit _ _ (by decide) rfl
    | refine (plain_lift _ _ (by decide)).mono fun _ _ => trivial
    | exact trivial
    | refine Plain.then ?_ fun _ => ?_
    | split
    | dsimp only

theorem plain_effectiveAddress (a : Address) : Plain' e (Thread.effectiveAddress a) := by
  unfold Thread.effectiveAddress; plain_calls

theorem plain_executeInstruction (addr : BitVec 16) (p : Packet) (bs : List Byte) (rand : Nat) :
    Plain' e (Thread.executeInstruction e addr p bs rand) := by
  unfold Thread.executeInstruction Thread.consistControl
  repeat' first
    | exact plain_setServiceMode _
    | exact plain_cvWriteByte _ _
    | exact plain_advancedOperations _ _
    | exact plain_speedAndDirection _ _
    | exact plain_functionGroup _ _
    | exact plain_featureExpansion _ _ _
    | exact plain_cvLong _ _ _
    | exact plain_cvShort _ _ _
    | refine (plain_lift _ _ (by decide)).mono fun _ _ => trivial
    | exact trivial
    | refine Plain.then ?_ fun _ => ?_
    | split
    | dsimp only

theorem plain_executeOperationsAddressed (a : Address) (p : Packet) (bs : List Byte) (rand : Nat) :
    Plain' e (Thread.executeOperationsAddressed e a p bs rand) := by
  unfold Thread.executeOperationsAddressed
  refine .then (plain_effectiveAddress a) fun _ => ?_
  split
  · exact trivial
  · exact .then (plain_executeInstruction _ _ _ _) fun _ => trivial

theorem plain_executeOperations (p : Packet) (rand : Nat) :
    Plain' e (Thread.executeOperations e p rand) := by
  unfold Thread.executeOperations
  refine .bind ((plain_lift _ _ (by decide)).mono fun _ _ => ?_)
  split
  all_goals first | exact plain_executeOperationsAddressed _ _ _ _ | exact trivial

theorem plain_executeService (p : Packet) : Plain' e (Thread.executeService e p) := by
  unfold Thread.executeService
  repeat' first
    | exact plain_setServiceMode _
    | exact plain_registerMode _
    | exact plain_cvLong _ _ _
    | refine (plain_lift _ _ (by decide)).mono fun _ _ => trivial
    | exact trivial
    | refine Plain.then ?_ fun _ => ?_
    | split
    | dsimp only

theorem plain_dyn (d x : Byte) : Plain' e (Thread.dyn e d x) := by
  unfold Thread.dyn
  refine .then (plain_get _ _ (by decide)) fun _ => ?_
  split
  · exact trivial
  refine .then (plain_get _ _ (by decide)) fun _ => ?_
  split
  · exact trivial
  refine .bind ((plain_lift _ _ (by decide)).mono fun g hg => ?_)
  refine plain_act _ _ (by decide) fun s s' h => ?_
  simp only [bind_eq_ok, pure_eq_ok, Except.ok.injEq] at h
  obtain ⟨q, hq, rfl⟩ := h
  obtain ⟨h1, rfl⟩ := pushBack_ok hq
  obtain ⟨hd, rfl⟩ := encodeId_inv (by decide) hg
  have h2 := idBytes_spec .b18 7 _ (by decide) hd
  exact .dyn _ ⟨h2.1, h2.2.1⟩ h1

theorem plain_dyns (ds : List Dyn) : Plain' e (Thread.dyns e ds) := by
  induction ds with
  | nil => exact trivial
  | cons d ds ih => exact .then (plain_dyn _ _) fun _ => ih

theorem plain_datagram (ds : List Dyn) : Plain' e (Thread.datagram e ds) := by
  unfold Thread.datagram
  repeat' first
    | exact plain_dyn _ _
    | exact plain_dyns _
    | exact plain_get _ _ (by decide)
    | refine plain_quiet _ _ (by decide) fun s =>
        ⟨rfl, rfl, rfl, rfl, rfl, rfl, rfl, rfl, rfl, rfl, rfl, rfl, .inl rfl, .inl rfl⟩
    | exact trivial
    | refine Plain.then ?_ fun _ => ?_
    | split
    | dsimp only

theorem plain_enable : Plain' e Thread.enable := by
  unfold Thread.enable; plain_calls

/-- Every call but `execute` and `disable`. -/
theorem plain_thread (op : RxOp) (h1 : op.isExecute = false) (h2 : op ≠ .disable) :
    Plain' e (Thread.calls e op) := by
  cases op with
  | init => exact plain_init
  | enable => exact plain_enable
  | disable => exact absurd rfl h2
  | execute now rand => cases h1
  | datagram ds => exact plain_datagram ds
  | callbackByte i v =>
    refine .then (plain_get _ _ (by decide)) fun _ => ?_
    split
    · exact plain_callbackByte _ _
    · exact trivial
  | callbackBit i v =>
    refine .then (plain_get _ _ (by decide)) fun _ => ?_
    split
    · exact plain_callbackBit _ _
    · exact trivial
  | receive t r => exact trivial
  | biDiChannel1 => exact trivial
  | biDiChannel2 => exact trivial

end Dcc
