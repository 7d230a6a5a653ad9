import Verif.Lemmas.Post
import Verif.Model.RxThread
/-! Without interrupts the programs of the thread are the methods of the model. -/
namespace Dcc
open Prog

theorem Prog.run_bind {α β : Type} (p : Prog α) (g : α → Prog β) : ∀ s : Rx,
    (p >>= g).run s = (p.run s >>= fun r => (g r.2).run r.1) := by
  show ∀ s, (p.bind g).run s = _
  induction p with
  | ret a => intro s; rfl
  | atom l f k ih =>
    intro s
    show (f s >>= fun r => ((k r.2).bind g).run r.1) =
      ((f s >>= fun r => (k r.2).run r.1) >>= fun r => (g r.2).run r.1)
    cases f s with
    | error _ => rfl
    | ok r => exact ih _ _

@[simp] theorem Prog.run_pure {α : Type} (a : α) (s : Rx) : (pure a : Prog α).run s = .ok (s, a) := rfl

@[simp] theorem Prog.run_get {β : Type} (l : Nat) (f : Rx → β) (s : Rx) :
    (get l f).run s = .ok (s, f s) := rfl

@[simp] theorem Prog.run_set (l : Nat) (f : Rx → Rx) (s : Rx) :
    (set l f).run s = .ok (f s, ()) := rfl

@[simp] theorem Prog.run_emit (l : Nat) (ev : Event) (s : Rx) :
    (emit l ev).run s = .ok (s.emit ev, ()) := rfl

@[simp] theorem Prog.run_call {β : Type} (l : Nat) (f : Rx → β × Rx) (s : Rx) :
    (call l f).run s = .ok ((f s).2, (f s).1) := rfl

@[simp] theorem Prog.run_act (l : Nat) (f : Rx → R Rx) (s : Rx) :
    (act l f).run s = (f s >>= fun s => .ok (s, ())) := by
  show ((f s >>= fun s => .ok (s, ())) >>= fun r => .ok (r.1, r.2)) = _
  cases f s <;> rfl

@[simp] theorem Prog.run_lift {β : Type} (l : Nat) (x : R β) (s : Rx) :
    (lift l x).run s = (x >>= fun b => .ok (s, b)) := by
  show ((x >>= fun b => .ok (s, b)) >>= fun r => .ok (r.1, r.2)) = _
  cases x <;> rfl

theorem Prog.run_ite {α : Type} (c : Prop) [Decidable c] (p q : Prog α) (s : Rx) :
    (if c then p else q).run s = if c then p.run s else q.run s := by split <;> rfl

/-- The result of a method that returns nothing. -/
def unit (x : R Rx) : R (Rx × Unit) := x >>= fun s => .ok (s, ())

@[simp] theorem unit_ok (s : Rx) : unit (.ok s) = .ok (s, ()) := rfl
@[simp] theorem unit_error (f : Fault) : unit (.error f) = .error f := rfl

theorem unit_bind {β} (x : R Rx) (f : Rx × Unit → R β) : (unit x >>= f) = (x >>= fun s => f (s, ())) := by
  cases x <;> rfl

theorem run_pushAdr (l : Nat) (d : List Byte) (s : Rx) : (Thread.pushAdr l d).run s =
    unit (do let q ← pushBack 2 s.q.adr d; return { s with q := { s.q with adr := q } }) := by
  unfold Thread.pushAdr
  rw [run_act]
  rfl

theorem run_adrHigh (a : Address) (s : Rx) :
    (Thread.adrHigh a).run s = (s.adrHigh a >>= fun d => .ok (s, d)) := by
  unfold Thread.adrHigh Rx.adrHigh
  simp only [run_bind, run_get, ok_bind, run_lift]

theorem run_adrLow (a : Address) (s : Rx) :
    (Thread.adrLow a).run s = (s.adrLow a >>= fun d => .ok (s, d)) := by
  unfold Thread.adrLow Rx.adrLow
  simp only [run_bind, run_get, ok_bind]
  split <;> simp only [run_bind, run_get, ok_bind, run_lift]

theorem run_pushAdrs (l : Nat) (a : Rx → Address) (s : Rx)
    (h : ∀ (s : Rx) q, a { s with q := q } = a s) :
    (Thread.pushAdrs l a).run s = unit (s.pushAdr (a s)) := by
  unfold Thread.pushAdrs Rx.pushAdr
  simp only [run_bind, run_get, ok_bind, run_adrHigh, run_adrLow, run_pushAdr]
  cases s.adrHigh (a s) with
  | error _ => rfl
  | ok d =>
    simp only [ok_bind, pure_eq_ok]
    cases hq : pushBack 2 s.q.adr d with
    | error _ => rfl
    | ok q =>
      simp only [ok_bind, unit_ok, h]
      have : Rx.adrLow { s with q := { s.q with adr := q } } (a s) = s.adrLow (a s) := rfl
      rw [this]
      cases s.adrLow (a s) with
      | error _ => rfl
      | ok d' => rfl

theorem run_adr (s : Rx) : Thread.adr.run s = unit s.adr := by
  unfold Thread.adr Rx.adr
  simp only [run_bind, run_get, ok_bind]
  cases h1 : s.cfg.ch1AddrEnabled with
  | false => simp
  | true =>
    simp only [Bool.not_true, Bool.false_eq_true, if_false, run_bind, run_get, ok_bind,
      Bool.false_or]
    cases h2 : s.q.adr.isEmpty with
    | false => simp
    | true =>
      simp only [Bool.not_true, Bool.false_eq_true, if_false, run_bind, run_get, ok_bind]
      by_cases h3 : s.addrs.logon.value ≠ 0#16
      · rw [if_pos h3, if_pos h3, run_pushAdrs _ _ _ (fun _ _ => rfl)]
      rw [if_neg h3, if_neg h3]
      simp only [run_bind, run_get, ok_bind]
      by_cases h4 : s.addrs.consist.value = 0#16
      · rw [if_pos h4, if_pos h4, run_pushAdrs _ _ _ (fun _ _ => rfl)]
      rw [if_neg h4, if_neg h4]
      simp only [run_bind, run_get, ok_bind]
      by_cases h5 : 0#16 < s.addrs.consist.value
      · rw [if_pos h5]
        simp only [run_bind, run_get, ok_bind]
        by_cases h6 : s.addrs.consist.value < 128#16
        · rw [if_pos h6, if_pos ⟨h5, h6⟩, run_pushAdrs _ _ _ (fun _ _ => rfl)]
        · rw [if_neg h6, if_neg (fun h => h6 h.2)]; rfl
      · rw [if_neg h5, if_neg (fun h => h5 h.1)]; rfl

@[simp] theorem run_readCv (l : Nat) (e : Env) (cv : BitVec 32) (s : Rx) :
    (Thread.readCv l e cv).run s = .ok ((s.readCv e cv).2, (s.readCv e cv).1) := rfl

@[simp] theorem run_storeCv (l : Nat) (e : Env) (cv : BitVec 32) (b : Byte) (s : Rx) :
    (Thread.storeCv l e cv b).run s = .ok ((s.writeCvByte e cv b).2, ()) := rfl

theorem run_storePrimary (e : Env) (s : Rx) :
    (Thread.storePrimary e).run s = .ok (s.storePrimary e, ()) := rfl

theorem run_storeTail (e : Env) (s : Rx) :
    (Thread.storeTail e).run s = .ok (s.storeTail e, ()) := rfl

theorem run_logonStore (e : Env) (s : Rx) :
    (Thread.logonStore e).run s = .ok (s.logonStore e, ()) := by
  unfold Thread.logonStore Rx.logonStore
  simp only [run_bind, run_get, ok_bind]
  split
  · rfl
  · simp only [run_bind, run_set, run_get, ok_bind]
    split
    · simp only [run_bind, run_storePrimary, ok_bind, run_storeTail]
    · simp only [run_storeTail]

theorem run_updateQos (s : Rx) : Thread.updateQos.run s = .ok (s.updateQos, ()) := by
  unfold Thread.updateQos Rx.updateQos
  simp only [run_bind, run_get, ok_bind]
  split <;> rfl

theorem run_updateTimepoints (now : Int) (s : Rx) :
    (Thread.updateTimepoints now).run s = .ok (s.updateTimepoints now, ()) := by
  unfold Thread.updateTimepoints Rx.updateTimepoints
  simp only [run_bind, run_get, ok_bind]
  split <;> rfl

theorem run_pom (v : Byte) (s : Rx) : (Thread.pom v).run s = unit (s.pom v) := by
  unfold Thread.pom Rx.pom
  simp only [run_bind, run_get, ok_bind]
  split
  · rfl
  · simp only [run_bind, run_set, run_lift, ok_bind, run_act]
    cases encodeId .b12 0 v.toNat <;> rfl

theorem run_callbackByte (b r : Byte) (s : Rx) :
    (Thread.callbackByte b r).run s = unit (s.callbackByte b r) := by
  unfold Thread.callbackByte Rx.callbackByte
  simp only [run_bind, run_get, ok_bind]
  split
  · exact run_pom r s
  · split <;> rfl

theorem run_callbackBit (b r : Bool) (s : Rx) :
    (Thread.callbackBit b r).run s = unit (s.callbackBit b r) := by
  unfold Thread.callbackBit Rx.callbackBit
  simp only [run_bind, run_get, ok_bind]
  split
  · exact run_pom _ s
  · split <;> rfl

theorem run_cvVerifyByte (e : Env) (cv : BitVec 32) (b : Byte) (s : Rx) :
    (Thread.cvVerifyByte e cv b).run s = unit (s.cvVerifyByte e cv b) := by
  unfold Thread.cvVerifyByte Rx.cvVerifyByte
  simp only [run_bind, run_get, ok_bind]
  split
  · rfl
  · rw [run_ite]
    split
    · rfl
    · simp only [run_bind, run_call, ok_bind, run_callbackByte]

theorem run_cvVerifyBit (e : Env) (cv : BitVec 32) (b : Bool) (pos : BitVec 32) (s : Rx) :
    (Thread.cvVerifyBit e cv b pos).run s = unit (s.cvVerifyBit e cv b pos) := by
  unfold Thread.cvVerifyBit Rx.cvVerifyBit
  simp only [run_bind, run_get, ok_bind]
  split
  · rfl
  · rw [run_ite]
    split
    · rfl
    · simp only [run_bind, run_call, ok_bind, run_callbackBit]

theorem run_cvWriteImplByte (e : Env) (cv : BitVec 32) (b : Byte) (s : Rx) :
    (Thread.cvWriteImplByte e cv b).run s = unit (s.cvWriteImplByte e cv b) := by
  unfold Thread.cvWriteImplByte Rx.cvWriteImplByte
  rw [run_ite]
  split
  · rfl
  · simp only [run_bind, run_call, ok_bind, run_callbackByte]

theorem run_cvWriteImplBit (e : Env) (cv : BitVec 32) (b : Bool) (pos : BitVec 32) (s : Rx) :
    (Thread.cvWriteImplBit e cv b pos).run s = unit (s.cvWriteImplBit e cv b pos) := by
  unfold Thread.cvWriteImplBit Rx.cvWriteImplBit
  rw [run_ite]
  split
  · rfl
  · simp only [run_bind, run_call, ok_bind, run_callbackBit]

/-- What a read of a CV returns, and the calls made after it. -/
@[irreducible] def readVal (e : Env) (t : List Event) (cv : BitVec 32) : Byte := e.readCv t cv
@[irreducible] def readTrace (e : Env) (t : List Event) (cv : BitVec 32) : List Event :=
  t ++ [.readCv cv (e.readCv t cv)]

private theorem run_readCv_eq (e : Env) (s : Rx) (cv : BitVec 32) :
    s.readCv e cv = (readVal e s.trace cv, { s with trace := readTrace e s.trace cv }) := by
  unfold readVal readTrace
  rfl

theorem run_initPrimary (e : Env) (cv29 : Byte) (s : Rx) :
    (Thread.initPrimary e cv29).run s = unit (s.initPrimary e cv29) := by
  unfold Thread.initPrimary Rx.initPrimary
  split
  · simp only [run_bind, run_readCv, run_lift, run_set, ok_bind]
    cases decodeAddress [(s.readCv e 16#32).1, ((s.readCv e 16#32).2.readCv e 17#32).1] <;> rfl
  · simp only [run_bind, run_readCv, run_lift, run_set, ok_bind]
    cases decodeAddress [(s.readCv e 0#32).1] <;> rfl

theorem run_initRest (e : Env) (cv29 : Byte) (s : Rx) :
    (do
      let cv20 ← Thread.initConsist e
      Thread.initLock e cv29
      Thread.initBidi e cv29 cv20
      Thread.initIds e : Prog Unit).run s = .ok (s.initRest e cv29, ()) := by
  unfold Thread.initConsist Thread.initLock Thread.initBidi Thread.initIds Rx.initRest
  cases e.highCurrent with
  | false =>
    simp only [run_bind, run_readCv, run_set, run_pure, ok_bind, run_readCv_eq, Bool.false_eq_true,
      if_false, consistOf]
  | true =>
    simp only [run_bind, run_readCv, run_set, run_emit, ok_bind, run_pure, run_readCv_eq, if_true, consistOf,
      Rx.emit]

theorem run_init (e : Env) (s : Rx) : (Thread.init e).run s = unit (s.init e) := by
  unfold Thread.init Rx.init
  rw [run_bind, run_readCv, ok_bind, run_bind, run_initPrimary]
  dsimp only
  cases Rx.initPrimary e (s.readCv e 28#32).2 (s.readCv e 28#32).1 with
  | error _ => rfl
  | ok s1 =>
    rw [unit_ok, ok_bind, ok_bind, run_initRest]
    rfl

theorem run_cvWriteByte (e : Env) (cv : BitVec 32) (b : Byte) (s : Rx) :
    (Thread.cvWriteByte e cv b).run s = unit (s.cvWriteByte e cv b) := by
  unfold Thread.cvWriteByte Rx.cvWriteByte Rx.initIfNeeded
  simp only [run_bind, run_get, ok_bind]
  split
  · rfl
  · simp only [run_bind, run_cvWriteImplByte]
    cases s.cvWriteImplByte e cv b with
    | error _ => rfl
    | ok s1 =>
      simp only [unit_ok, ok_bind]
      split
      · exact run_init e s1
      · rfl

theorem run_cvWriteBit (e : Env) (cv : BitVec 32) (b : Bool) (pos : BitVec 32) (s : Rx) :
    (Thread.cvWriteBit e cv b pos).run s = unit (s.cvWriteBit e cv b pos) := by
  unfold Thread.cvWriteBit Rx.cvWriteBit Rx.initIfNeeded
  simp only [run_bind, run_get, ok_bind]
  split
  · rfl
  · simp only [run_bind, run_cvWriteImplBit]
    cases s.cvWriteImplBit e cv b pos with
    | error _ => rfl
    | ok s1 =>
      simp only [unit_ok, ok_bind]
      split
      · exact run_init e s1
      · rfl

theorem run_countOwn (p : Packet) (s : Rx) :
    (Thread.countOwnEqualCvPackets p).run s = .ok (s.countOwnEqualCvPackets p, ()) := by
  unfold Thread.countOwnEqualCvPackets Rx.countOwnEqualCvPackets
  simp only [run_bind, run_get, ok_bind]
  split <;> rfl

theorem run_cvLongBody (e : Env) (bs : List Byte) (s : Rx) :
    (Thread.cvLongBody e bs).run s = unit (s.cvLongBody e bs) := by
  unfold Thread.cvLongBody Rx.cvLongBody
  simp only [run_bind, run_lift]
  cases byteAt bs 0 with
  | error _ => rfl
  | ok b0 =>
    cases byteAt bs 1 with
    | error _ => rfl
    | ok b1 =>
      simp only [ok_bind]
      split
      · rfl
      split
      · simp only [run_bind, run_lift, run_cvVerifyByte]
        cases byteAt bs 2 <;> rfl
      split
      · simp only [run_bind, run_get, ok_bind]
        split
        · rfl
        simp only [run_bind, run_get, ok_bind]
        split
        · simp only [run_bind, run_lift, run_cvWriteByte]
          cases byteAt bs 2 <;> rfl
        · simp only [run_bind, run_lift, run_cvVerifyByte]
          cases byteAt bs 2 <;> rfl
      · simp only [run_bind, run_lift]
        cases byteAt bs 2 with
        | error _ => rfl
        | ok b2 =>
          simp only [ok_bind]
          split
          · exact run_cvVerifyBit e _ _ _ s
          simp only [run_bind, run_get, ok_bind]
          split
          · exact run_cvWriteBit e _ _ _ s
          · rfl

theorem run_cvLong (e : Env) (a : BitVec 16) (p : Packet) (bs : List Byte) (s : Rx) :
    (Thread.cvLong e a p bs).run s = unit (s.cvLong e a p bs) := by
  have tail : ∀ s : Rx, (do
      Thread.countOwnEqualCvPackets p
      if (← get 646 (·.serviceMode)) then
        if (← get 646 (·.ownEqualCvPackets)) ≠ 2 then return
      Thread.cvLongBody e bs : Prog Unit).run s =
      unit (if (s.countOwnEqualCvPackets p).serviceMode = true ∧
        (s.countOwnEqualCvPackets p).ownEqualCvPackets ≠ 2 then .ok (s.countOwnEqualCvPackets p)
      else (s.countOwnEqualCvPackets p).cvLongBody e bs) := by
    intro s
    rw [run_bind, run_countOwn, ok_bind, run_bind, run_get, ok_bind]
    dsimp only
    by_cases h1 : (s.countOwnEqualCvPackets p).serviceMode = true
    · rw [if_pos h1, run_bind, run_get, ok_bind]
      dsimp only
      by_cases h2 : (s.countOwnEqualCvPackets p).ownEqualCvPackets ≠ 2
      · rw [if_pos h2, if_pos ⟨h1, h2⟩]; rfl
      · rw [if_neg h2, if_neg (fun h => h2 h.2)]; exact run_cvLongBody e bs _
    · rw [if_neg h1, if_neg (fun h => h1 h.1)]; exact run_cvLongBody e bs _
  unfold Thread.cvLong Rx.cvLong
  by_cases h0 : a ≠ 0#16
  · rw [if_pos h0, run_bind, run_get, ok_bind]
    dsimp only
    by_cases h1 : a = s.addrs.consist.value
    · rw [if_pos h1, if_pos ⟨h0, h1⟩]; rfl
    · rw [if_neg h1, if_neg (fun h => h1 h.2)]
      exact tail s
  · rw [if_neg h0, if_neg (fun h => h0 h.1)]
    exact tail s

theorem run_cvShortBody (e : Env) (bs : List Byte) (s : Rx) :
    (Thread.cvShortBody e bs).run s = unit (s.cvShortBody e bs) := by
  unfold Thread.cvShortBody Rx.cvShortBody
  simp only [run_bind, run_lift]
  cases byteAt bs 0 with
  | error _ => rfl
  | ok b0 =>
    simp only [ok_bind]
    split
    · simp only [run_bind, run_lift, run_cvWriteByte]
      cases byteAt bs 1 <;> rfl
    split
    · simp only [run_bind, run_lift, run_cvWriteByte]
      cases byteAt bs 1 <;> rfl
    split
    · simp only [run_bind, run_get, ok_bind]
      split
      · rfl
      simp only [run_bind, run_lift, run_cvWriteByte]
      cases byteAt bs 1 with
      | error _ => rfl
      | ok b1 =>
        simp only [ok_bind, unit_bind]
        cases s.cvWriteByte e 16#32 (0xC0#8 ||| b1) with
        | error _ => rfl
        | ok s1 =>
          simp only [ok_bind]
          cases byteAt bs 2 with
          | error _ => rfl
          | ok b2 =>
            simp only [ok_bind]
            cases s1.cvWriteByte e 17#32 b2 with
            | error _ => rfl
            | ok s2 => exact run_cvWriteBit e _ _ _ s2
    split
    · simp only [run_bind, run_get, ok_bind]
      split
      · rfl
      simp only [run_bind, run_lift, run_cvWriteByte]
      cases byteAt bs 1 with
      | error _ => rfl
      | ok b1 =>
        simp only [ok_bind, unit_bind]
        cases s.cvWriteByte e 30#32 b1 with
        | error _ => rfl
        | ok s1 =>
          simp only [ok_bind]
          cases byteAt bs 2 <;> rfl
    · rfl

theorem run_cvShort (e : Env) (a : BitVec 16) (p : Packet) (bs : List Byte) (s : Rx) :
    (Thread.cvShort e a p bs).run s = unit (s.cvShort e a p bs) := by
  have tail : (do Thread.countOwnEqualCvPackets p; Thread.cvShortBody e bs : Prog Unit).run s =
      unit ((s.countOwnEqualCvPackets p).cvShortBody e bs) := by
    rw [run_bind, run_countOwn, ok_bind, run_cvShortBody]
  unfold Thread.cvShort Rx.cvShort
  by_cases h0 : a ≠ 0#16
  · rw [if_pos h0, run_bind, run_get, ok_bind]
    dsimp only
    by_cases h1 : a = s.addrs.consist.value
    · rw [if_pos h1, if_pos ⟨h0, h1⟩]; rfl
    · rw [if_neg h1, if_neg (fun h => h1 h.2)]
      exact tail
  · rw [if_neg h0, if_neg (fun h => h0 h.1)]
    exact tail

theorem run_registerMode (e : Env) (bs : List Byte) (s : Rx) :
    (Thread.registerMode e bs).run s = unit (s.registerMode e bs) := by
  unfold Thread.registerMode Rx.registerMode
  simp only [run_bind, run_lift]
  cases byteAt bs 0 with
  | error _ => rfl
  | ok b0 =>
    cases byteAt bs 1 with
    | error _ => rfl
    | ok b1 =>
      simp only [ok_bind]
      split
      · simp only [run_bind, run_get, ok_bind]
        split
        · exact run_cvWriteByte e _ _ s
        · exact run_cvVerifyByte e _ _ s
      split
      · split
        · exact run_cvWriteByte e _ _ s
        · exact run_cvVerifyByte e _ _ s
      split
      · split
        · rfl
        · simp only [run_bind, run_get, ok_bind]
          split <;> rfl
      · split
        · exact run_cvWriteByte e _ _ s
        · exact run_cvVerifyByte e _ _ s

theorem run_setServiceMode (b : Bool) (s : Rx) :
    (Thread.setServiceMode b).run s = .ok (s.setServiceMode b, ()) := rfl

theorem run_directionSpeed (a : BitVec 16) (d : Bool) (v : Int) (s : Rx) :
    (Thread.directionSpeed a d v).run s = .ok (s.directionSpeed a d v, ()) := by
  unfold Thread.directionSpeed Rx.directionSpeed
  simp only [run_bind, run_get, ok_bind]
  split <;> rfl

theorem run_tipOffSearch (r : Nat) (s : Rx) :
    (Thread.tipOffSearch r).run s = unit (s.tipOffSearch r) := by
  unfold Thread.tipOffSearch Rx.tipOffSearch
  simp only [run_bind, run_call, ok_bind]
  cases hb : (s.tosBackoff.query r).2 with
  | true => simp
  | false =>
    simp only [Bool.false_eq_true, if_false, run_bind, run_get, ok_bind, Bool.false_or]
    split
    · rfl
    simp only [run_bind, run_get, ok_bind]
    split
    · rfl
    simp only [run_bind, run_get, ok_bind, run_adrHigh, run_adrLow, run_lift, run_act]
    generalize Rx.adrHigh _ _ = x
    cases x with
    | error _ => rfl
    | ok d =>
      simp only [ok_bind]
      generalize Rx.adrLow _ _ = x
      cases x with
      | error _ => rfl
      | ok d =>
        simp only [ok_bind]
        generalize encodeId .b12 14 _ = x
        cases x <;> rfl

theorem run_binaryState (xf : BitVec 32) (b : Bool) (r : Nat) (s : Rx) :
    (Thread.binaryState xf b r).run s = unit (s.binaryState xf b r) := by
  unfold Thread.binaryState Rx.binaryState
  split
  · exact run_tipOffSearch r s
  · rfl

theorem run_consistControl (e : Env) (bs : List Byte) (s : Rx) :
    (Thread.consistControl e bs).run s = unit (s.consistControl e bs) := by
  unfold Thread.consistControl Rx.consistControl
  simp only [run_bind, run_lift, run_cvWriteByte]
  cases byteAt bs 0 with
  | error _ => rfl
  | ok b0 => cases byteAt bs 1 <;> rfl

theorem run_optFunctions (l : Nat) (a : BitVec 16) (bs : List Byte) (i : Nat) (m : BitVec 32)
    (sh : Nat) (s : Rx) :
    (Thread.optFunctions l a bs i m sh).run s = unit (s.optFunctions a bs i m sh) := by
  unfold Thread.optFunctions Rx.optFunctions
  split
  · simp only [run_bind, run_lift]
    cases byteAt bs i <;> rfl
  · rfl

theorem run_speedDirFunctions (a : BitVec 16) (bs : List Byte) (s : Rx) :
    (Thread.speedDirFunctions a bs).run s = unit (s.speedDirFunctions a bs) := by
  unfold Thread.speedDirFunctions Rx.speedDirFunctions
  simp only [run_bind, run_optFunctions, unit_bind]
  cases s.optFunctions a bs 2 0xFF#32 0 with
  | error _ => rfl
  | ok s =>
    simp only [ok_bind]
    cases s.optFunctions a bs 3 0xFF00#32 8 with
    | error _ => rfl
    | ok s =>
      simp only [ok_bind]
      cases s.optFunctions a bs 4 0xFF0000#32 16 <;> rfl

theorem run_speed126 (a : BitVec 16) (b : Byte) (s : Rx) :
    (Thread.speed126 a b).run s = .ok (s.speed126 a b, ()) := by
  unfold Thread.speed126 Rx.speed126
  dsimp only
  split
  · exact run_directionSpeed a _ _ s
  split
  · rfl
  · exact run_directionSpeed a _ _ s

theorem run_specialOperatingModes (e : Env) (a : BitVec 16) (b : Byte) (s : Rx) :
    (Thread.specialOperatingModes e a b).run s = .ok (s.specialOperatingModes e a b, ()) := by
  unfold Thread.specialOperatingModes Rx.specialOperatingModes
  rw [run_bind, run_set, ok_bind]
  split
  · split
    · rfl
    split <;> rfl
  · rfl

theorem run_advancedOperations (e : Env) (a : BitVec 16) (bs : List Byte) (s : Rx) :
    (Thread.advancedOperations e a bs).run s = unit (s.advancedOperations e a bs) := by
  unfold Thread.advancedOperations Rx.advancedOperations
  simp only [run_bind, run_lift]
  cases byteAt bs 0 with
  | error _ => rfl
  | ok b0 =>
    simp only [ok_bind]
    split
    · simp only [run_bind, run_lift, run_speedDirFunctions, unit_bind]
      cases s.speedDirFunctions a bs with
      | error _ => rfl
      | ok s =>
        simp only [ok_bind]
        cases byteAt bs 1 with
        | error _ => rfl
        | ok b => exact run_speed126 a b s
    split
    · simp only [run_bind, run_lift]
      cases byteAt bs 1 with
      | error _ => rfl
      | ok b => exact run_speed126 a b s
    split
    · simp only [run_bind, run_lift]
      cases byteAt bs 1 with
      | error _ => rfl
      | ok b => exact run_specialOperatingModes e a b s
    · rfl

theorem run_speedAndDirection (a : BitVec 16) (bs : List Byte) (s : Rx) :
    (Thread.speedAndDirection a bs).run s = unit (s.speedAndDirection a bs) := by
  unfold Thread.speedAndDirection Rx.speedAndDirection
  simp only [run_bind, run_lift]
  cases byteAt bs 0 with
  | error _ => rfl
  | ok b0 =>
    simp only [ok_bind]
    split
    · rfl
    · simp only [run_bind, run_get, ok_bind]
      split
      · simp only [run_bind, run_emit, ok_bind, run_directionSpeed]; rfl
      · simp only [run_directionSpeed]; rfl

theorem run_functionGroup (a : BitVec 16) (bs : List Byte) (s : Rx) :
    (Thread.functionGroup a bs).run s = unit (s.functionGroup a bs) := by
  unfold Thread.functionGroup Rx.functionGroup
  simp only [run_bind, run_lift]
  cases byteAt bs 0 with
  | error _ => rfl
  | ok b0 =>
    simp only [ok_bind]
    split
    · rfl
    split
    · rfl
    split <;> rfl

theorem run_featureExpansion (a : BitVec 16) (bs : List Byte) (r : Nat) (s : Rx) :
    (Thread.featureExpansion a bs r).run s = unit (s.featureExpansion a bs r) := by
  unfold Thread.featureExpansion Rx.featureExpansion
  simp only [run_bind, run_lift]
  cases byteAt bs 0 with
  | error _ => rfl
  | ok b0 =>
    simp only [ok_bind]
    split
    · simp only [run_bind, run_lift]
      cases byteAt bs 2 with
      | error _ => rfl
      | ok b2 =>
        cases byteAt bs 1 with
        | error _ => rfl
        | ok b1 => exact run_binaryState _ _ r s
    split
    · simp only [run_bind, run_lift]
      cases byteAt bs 1 with
      | error _ => rfl
      | ok b1 => exact run_binaryState _ _ r s
    split
    · simp only [run_bind, run_lift]
      cases byteAt bs 1 <;> rfl
    split
    · simp only [run_bind, run_lift]
      cases byteAt bs 1 <;> rfl
    · rfl

theorem run_effectiveAddress (a : Address) (s : Rx) :
    (Thread.effectiveAddress a).run s = .ok (s, s.effectiveAddress a) := by
  unfold Thread.effectiveAddress Rx.effectiveAddress
  split
  · rfl
  simp only [run_bind, run_get, ok_bind]
  cases h1 : a.eq s.addrs.primary <;> cases h2 : a.eq s.addrs.consist <;>
    by_cases h3 : s.addrs.logon.value = 0#16 <;> cases h4 : a.eq s.addrs.logon <;>
    simp [run_bind, h2, h3, h4]

theorem run_executeInstruction (e : Env) (a : BitVec 16) (p : Packet) (bs : List Byte) (r : Nat)
    (s : Rx) :
    (Thread.executeInstruction e a p bs r).run s = unit (s.executeInstruction e a p bs r) := by
  unfold Thread.executeInstruction Rx.executeInstruction
  simp only [run_bind, run_lift]
  cases decodeInstruction bs with
  | error _ => rfl
  | ok i =>
    simp only [ok_bind]
    cases i with
    | unknownService => rfl
    | logon => rfl
    | decoderControl =>
      dsimp only
      split
      · simp only [run_bind, run_lift]
        cases byteAt bs 0 with
        | error _ => rfl
        | ok b =>
          simp only [ok_bind]
          split <;> rfl
      · rfl
    | consistControl => exact run_consistControl e bs s
    | advancedOperations => exact run_advancedOperations e a bs s
    | speedDirection => exact run_speedAndDirection a bs s
    | functionGroup => exact run_functionGroup a bs s
    | featureExpansion => exact run_featureExpansion a bs r s
    | cvLong => exact run_cvLong e a p bs s
    | cvShort => exact run_cvShort e a p bs s

theorem run_executeOperationsAddressed (e : Env) (a : Address) (p : Packet) (bs : List Byte) (r : Nat)
    (s : Rx) : (Thread.executeOperationsAddressed e a p bs r).run s =
      s.executeOperationsAddressed e a p bs r := by
  unfold Thread.executeOperationsAddressed Rx.executeOperationsAddressed
  rw [run_bind, run_effectiveAddress, ok_bind]
  cases s.effectiveAddress a with
  | none => rfl
  | some a =>
    simp only [run_bind, run_executeInstruction, unit_bind]
    rfl

theorem run_executeOperations (e : Env) (p : Packet) (r : Nat) (s : Rx) :
    (Thread.executeOperations e p r).run s = s.executeOperations e p r := by
  unfold Thread.executeOperations Rx.executeOperations
  rw [run_bind, run_lift]
  cases decodeAddress p with
  | error _ => rfl
  | ok a =>
    simp only [ok_bind]
    cases a.type <;> first
      | rfl
      | exact run_executeOperationsAddressed e a p _ r s

theorem run_executeService (e : Env) (p : Packet) (s : Rx) :
    (Thread.executeService e p).run s = s.executeService e p := by
  unfold Thread.executeService Rx.executeService
  rw [run_bind, run_lift]
  cases byteAt p 0 with
  | error _ => rfl
  | ok b =>
    simp only [ok_bind]
    split
    · rfl
    split
    · rfl
    split
    · simp only [run_bind, run_registerMode, unit_bind]; rfl
    split
    · simp only [run_bind, run_cvLong, unit_bind]; rfl
    · rfl

theorem run_executeFront (e : Env) (r : Nat) (s : Rx) :
    (Thread.executeFront e r).run s = s.executeFront e r := by
  unfold Thread.executeFront Rx.executeFront
  rw [run_bind, run_get, ok_bind]
  cases hd : s.deque with
  | nil => dsimp only; split <;> (rw [run_bind]; simp only [Thread.front, Prog.run, hd]; rfl)
  | cons p rest =>
    dsimp only
    split
    · rw [run_bind]
      simp only [Thread.front, Prog.run, hd, ok_bind]
      exact run_executeService e p s
    · rw [run_bind]
      simp only [Thread.front, Prog.run, hd, ok_bind]
      exact run_executeOperations e p r s

theorem run_execute (e : Env) (now : Int) (r : Nat) (s : Rx) :
    (Thread.execute e now r).run s = s.execute e now r := by
  unfold Thread.execute Rx.execute
  simp only [run_bind, run_get, ok_bind]
  cases s.packetEnd with
  | true => rfl
  | false =>
    simp only [Bool.false_eq_true, if_false, run_bind, run_get, ok_bind, Bool.false_or]
    split
    · rfl
    simp only [run_bind, run_adr, unit_bind, run_logonStore, run_updateQos, run_updateTimepoints,
      ok_bind, run_executeFront]
    rfl

theorem run_dyn (e : Env) (d x : Byte) (s : Rx) : (Thread.dyn e d x).run s = unit (s.dyn e d x) := by
  unfold Thread.dyn Rx.dyn
  simp only [run_bind, run_get, ok_bind]
  cases s.cfg.ch2DataEnabled with
  | false => rfl
  | true =>
    simp only [Bool.not_true, Bool.false_eq_true, if_false, run_bind, run_get, ok_bind, Bool.false_or]
    split
    · rfl
    simp only [run_bind, run_lift, run_act]
    generalize encodeId .b18 7 _ = x
    cases x <;> rfl

theorem run_dyns (e : Env) (ds : List Dyn) : ∀ s : Rx, (Thread.dyns e ds).run s = unit (s.dyns e ds) := by
  induction ds with
  | nil => intro s; rfl
  | cons d ds ih =>
    intro s
    rw [Thread.dyns, Rx.dyns, run_bind, run_dyn, unit_bind]
    cases s.dyn e d.convert.1 d.convert.2 with
    | error _ => rfl
    | ok s => exact ih s

theorem run_datagram (e : Env) (ds : List Dyn) (s : Rx) :
    (Thread.datagram e ds).run s = unit (s.datagram e ds) := by
  have tail : ∀ s : Rx, (do if !(← get 221 (·.q.blockDyn)) then Thread.dyns e ds : Prog Unit).run s =
      unit (if !s.q.blockDyn then s.dyns e ds else .ok s) := by
    intro s
    rw [run_bind, run_get, ok_bind]
    dsimp only
    split
    · exact run_dyns e ds s
    · rfl
  unfold Thread.datagram Rx.datagram Rx.datagramStart
  simp only [run_bind, run_get, ok_bind]
  by_cases h1 : s.q.dyn.length = e.bidiDeque
  · rw [if_pos h1]
    simp only [h1, decide_true, if_true]
    rw [run_bind, run_set, ok_bind, ok_bind]
    exact tail _
  · rw [if_neg h1]
    simp only [h1, decide_false, Bool.false_eq_true, if_false]
    rw [run_bind, run_get, ok_bind]
    dsimp only
    split
    · rw [run_bind, run_set, ok_bind, run_bind, run_get, ok_bind, run_bind, run_dyn, unit_bind]
      dsimp only
      generalize Rx.dyn e _ _ _ = x
      cases x with
      | error _ => rfl
      | ok s => exact tail s
    · exact tail s

theorem run_enable (s : Rx) : Thread.enable.run s = .ok (s.enable, ()) := by
  unfold Thread.enable Rx.enable
  rw [run_bind, run_get, ok_bind]
  dsimp only
  split <;> rfl

theorem run_disable (s : Rx) : Thread.disable.run s = .ok (s.disable, ()) := by
  unfold Thread.disable Rx.disable
  rw [run_bind, run_get, ok_bind]
  dsimp only
  split <;> rfl

/-- A method called in the thread, not in interrupts. -/
def RxOp.inThread : RxOp → Bool
  | .receive _ _ | .biDiChannel1 | .biDiChannel2 => false
  | _ => true

theorem run_calls (e : Env) (op : RxOp) (s : Rx) (h : op.inThread = true) :
    (Thread.calls e op).run s = unit (s.step e op) := by
  cases op with
  | init => exact run_init e s
  | enable => exact run_enable s
  | disable => exact run_disable s
  | execute now r =>
    rw [Thread.calls, Rx.step, run_bind, run_execute]
    cases s.execute e now r <;> rfl
  | datagram ds => exact run_datagram e ds s
  | callbackByte i v =>
    rw [Thread.calls, Rx.step, run_bind, run_get, ok_bind]
    cases s.callbacks[i]? with
    | none => rfl
    | some c =>
      cases c with
      | byte b => exact run_callbackByte b v s
      | bit b => rfl
  | callbackBit i v =>
    rw [Thread.calls, Rx.step, run_bind, run_get, ok_bind]
    cases s.callbacks[i]? with
    | none => rfl
    | some c =>
      cases c with
      | byte b => rfl
      | bit b => exact run_callbackBit b v s
  | receive t r => cases h
  | biDiChannel1 => cases h
  | biDiChannel2 => cases h

end Dcc
