import Verif.Lemmas.RxEngine
import Verif.Lemmas.RxFaultExec
import Verif.Lemmas.RxRegister
import Verif.Lemmas.RxTos
import Verif.Spec.Decoder
/-! A receiver that did not log on is the abstract decoder. -/
namespace Dcc
open Spec

/-! ### Agreement -/

/-- The receiver agrees with the decoder, except that it may have to read its configuration. -/
structure Like (m : BitVec 32 → Byte) (d : Decoder) (s : Rx) : Prop where
  cvs : mem m s.trace = d.cvs
  service : s.serviceMode = d.service
  page : s.indexReg = d.page
  last : s.lastOwnCvPacket = d.last
  count : s.ownEqualCvPackets = d.count
  pom : s.q.pom = d.waiting.toList.map pomBytes
  logon : s.addrs.logon.value = 0#16
  callbacks : s.callbacks = []

/-- The receiver agrees with the decoder. -/
structure Is (m : BitVec 32 → Byte) (d : Decoder) (s : Rx) : Prop extends Like m d s where
  reflects : Reflects d.cvs s

/-- What the receiver does is what the decoder does. -/
def Meets (m : BitVec 32 → Byte) (s : Rx) : R Rx → Outcome → Prop
  | .ok s', some x => Is m x.1 s' ∧ ∃ tr, s'.trace = s.trace ++ tr ∧ tr.filter Event.isSession = x.2
  | .error f, none => f = .oob
  | _, _ => False

theorem Meets.same {m : BitVec 32 → Byte} {s : Rx} {d : Decoder} (h : Is m d s) :
    Meets m s (.ok s) (some (d, [])) := ⟨h, [], (List.append_nil _).symm, rfl⟩

theorem Meets.bind {m : BitVec 32 → Byte} {s : Rx} {x : R Rx} {y : Outcome} {f : Rx → R Rx}
    {g : Decoder → Outcome} (h : Meets m s x y) (hg : ∀ s1 d1, Is m d1 s1 → Meets m s1 (f s1) (g d1)) :
    Meets m s (x >>= f) (y.andThen g) := by
  cases x with
  | error e => cases y with
    | none => exact h
    | some y => exact h.elim
  | ok s1 => cases y with
    | none => exact h.elim
    | some y =>
      obtain ⟨h1, tr, h2, h3⟩ := h
      have h4 := hg s1 y.1 h1
      rw [ok_bind]
      show Meets m s (f s1) ((g y.1).map fun z => (z.1, y.2 ++ z.2))
      cases hf : f s1 with
      | error e =>
        rw [hf] at h4
        cases hy : g y.1 with
        | none => rw [hy] at h4; exact h4
        | some z => rw [hy] at h4; exact h4.elim
      | ok s2 =>
        rw [hf] at h4
        cases hy : g y.1 with
        | none => rw [hy] at h4; exact h4.elim
        | some z =>
          rw [hy] at h4
          obtain ⟨h5, tr', h6, h7⟩ := h4
          exact ⟨h5, tr ++ tr', by rw [h6, h2, List.append_assoc], by rw [List.filter_append, h3, h7]⟩

/-- Starting from another state with the same calls. -/
theorem Meets.from {m : BitVec 32 → Byte} {s s0 : Rx} {x : R Rx} {y : Outcome} (h : Meets m s x y)
    (ht : s.trace = s0.trace) : Meets m s0 x y := by
  unfold Meets at h ⊢
  rw [← ht]
  exact h

theorem Meets.fails {m : BitVec 32 → Byte} {s : Rx} {x : R Rx} {y : Outcome} (h : Meets m s x y) :
    Meets m s (x >>= fun _ => .error .oob) none := by
  cases x with
  | error e => cases y with
    | none => exact h
    | some y => exact h.elim
  | ok s1 => exact rfl

/-- Calls that do not store anything. -/
theorem Meets.calls {m : BitVec 32 → Byte} {s : Rx} {d : Decoder} (h : Is m d s) {evs : List Event} (man : Bool)
    (he : ∀ ev ∈ evs, ev.stores = false ∧ Event.isSession ev = true) :
    Meets m s (.ok { s with trace := s.trace ++ evs, man := man }) (d.calls evs) := by
  refine ⟨⟨⟨?_, h.service, h.page, h.last, h.count, h.pom, h.logon, h.callbacks⟩,
    h.reflects.congr (fun _ _ => rfl) rfl rfl rfl⟩, evs, rfl, List.filter_eq_self.mpr fun ev hev => (he ev hev).2⟩
  exact (mem_append_quiet _ _ _ fun ev hev => (he ev hev).1).trans h.cvs

theorem Meets.drive {m : BitVec 32 → Byte} {s : Rx} {d : Decoder} (h : Is m d s) {evs : List Event}
    {a : BitVec 16} (man : Bool) (he : ∀ ev ∈ evs, ev.locoAddr = some a) :
    Meets m s (.ok { s with trace := s.trace ++ evs, man := man }) (d.calls evs) :=
  .calls h man fun ev hev => ⟨stores_of_loco ev (he ev hev), by
    have := he ev hev
    cases ev <;> first | rfl | cases this⟩

/-! ### CV accesses -/

/-- The access is to an existing bit. -/
def Fits : Access → Prop
  | .byte cv _ => cv < 2 ^ 32
  | .bit cv _ pos => cv < 2 ^ 32 ∧ pos < 8

theorem Fits.cv {a : Access} (h : Fits a) : a.cv < 2 ^ 32 := by
  cases a with
  | byte => exact h
  | bit => exact h.1

/-- The function called for an access. -/
def Rx.accessed (e : Env) (s : Rx) : Kind → Access → R Rx
  | .verify, .byte cv b => s.cvVerifyByte e (BitVec.ofNat 32 cv) b
  | .verify, .bit cv b pos => s.cvVerifyBit e (BitVec.ofNat 32 cv) b (BitVec.ofNat 32 pos)
  | .write, .byte cv b => s.cvWriteByte e (BitVec.ofNat 32 cv) b
  | .write, .bit cv b pos => s.cvWriteBit e (BitVec.ofNat 32 cv) b (BitVec.ofNat 32 pos)

/-- The state after a permitted access, before the configuration is read. -/
def Rx.performs (e : Env) (s : Rx) : Kind → Access → Rx
  | .verify, .byte cv b => s.verifiedByte e (BitVec.ofNat 32 cv) b
  | .verify, .bit cv b pos => s.verifiedBit e (BitVec.ofNat 32 cv) b (BitVec.ofNat 32 pos)
  | .write, .byte cv b => s.wroteByte e (BitVec.ofNat 32 cv) b
  | .write, .bit cv b pos => s.wroteBit e (BitVec.ofNat 32 cv) b (BitVec.ofNat 32 pos)

theorem accessed_eq (e : Env) (s : Rx) (k : Kind) (a : Access) (ha : Fits a) :
    s.accessed e k a = if permitted s.cfg.cvsLocked k a then
        if k = .write then (s.performs e k a).initIfNeeded e (BitVec.ofNat 32 a.cv) else .ok (s.performs e k a)
      else .ok s := by
  have h14 := ofNat14 a.cv ha.cv
  unfold permitted
  cases a with
  | byte cv b =>
    have h14 : BitVec.ofNat 32 cv = 14#32 ↔ cv = 14 := h14
    cases k with
    | verify =>
      show s.cvVerifyByte e _ b = _
      rw [cvVerifyByte_eq]
      cases s.cfg.cvsLocked <;> rfl
    | write =>
      show s.cvWriteByte e _ b = _
      rw [cvWriteByte_eq]
      by_cases h : cv = 14 <;> cases s.cfg.cvsLocked <;> simp [h, h14, Access.cv, Rx.performs]
  | bit cv b pos =>
    have h14 : BitVec.ofNat 32 cv = 14#32 ↔ cv = 14 := h14
    cases k with
    | verify =>
      show s.cvVerifyBit e _ b _ = _
      rw [cvVerifyBit_eq]
      cases s.cfg.cvsLocked <;> rfl
    | write =>
      show s.cvWriteBit e _ b _ = _
      rw [cvWriteBit_eq]
      by_cases h : cv = 14 <;> cases s.cfg.cvsLocked <;> simp [h, h14, Access.cv, Rx.performs]

theorem performs_trace (e : Env) (s : Rx) (k : Kind) (a : Access) :
    (s.performs e k a).trace = s.trace ++ accessCalls e s.trace s.serviceMode k a := by
  cases a <;> cases k
  · exact verifiedByte_trace ..
  · exact wroteByte_trace ..
  · exact verifiedBit_trace ..
  · exact wroteBit_trace ..

theorem performs_frame (e : Env) (s : Rx) (k : Kind) (a : Access) : CvFrame s (s.performs e k a) := by
  cases a <;> cases k
  · exact .verifiedByte ..
  · exact .wroteByte ..
  · exact .verifiedBit ..
  · exact .wroteBit ..

private theorem answerByte_rest (s : Rx) (a b : Byte) : (s.answerByte a b).callbacks = s.callbacks ∧
    (s.answerByte a b).q.pom = if !s.serviceMode && s.cfg.ch2DataEnabled then [pomBytes b] else s.q.pom := by
  unfold Rx.answerByte
  cases s.serviceMode
  · exact ⟨rfl, rfl⟩
  · by_cases h : a = b <;> simp [h, Rx.emit]

private theorem answerBit_rest (s : Rx) (a b : Bool) : (s.answerBit a b).callbacks = s.callbacks ∧
    (s.answerBit a b).q.pom = if !s.serviceMode && s.cfg.ch2DataEnabled then
      [pomBytes (if b then 1#8 else 0#8)] else s.q.pom := by
  unfold Rx.answerBit
  cases s.serviceMode
  · exact ⟨rfl, rfl⟩
  · by_cases h : a = b <;> simp [h, Rx.emit]

theorem performs_same {e : Env} (h1 : e.asyncWritable = false) (h2 : e.asyncReadable = false) (s : Rx) (k : Kind)
    (a : Access) : (s.performs e k a).addrs = s.addrs ∧ (s.performs e k a).cfg = s.cfg ∧
      (s.performs e k a).callbacks = s.callbacks ∧ (s.performs e k a).q.pom =
        if !s.serviceMode && s.cfg.ch2DataEnabled then [pomBytes (resultOf e s.trace k a)] else s.q.pom := by
  cases a <;> cases k <;>
    simp only [Rx.performs, Rx.verifiedByte, Rx.verifiedBit, Rx.wroteByte, Rx.wroteBit, h1, h2,
      Bool.false_eq_true, if_false]
  · exact ⟨(answerByte_same ..).1, (answerByte_same ..).2, (answerByte_rest ..).1, (answerByte_rest ..).2⟩
  · exact ⟨(answerByte_same ..).1, (answerByte_same ..).2, (answerByte_rest ..).1, (answerByte_rest ..).2⟩
  · exact ⟨(answerBit_same ..).1, (answerBit_same ..).2, (answerBit_rest ..).1, (answerBit_rest ..).2⟩
  · exact ⟨(answerBit_same ..).1, (answerBit_same ..).2, (answerBit_rest ..).1, (answerBit_rest ..).2⟩

private theorem small {pos : Nat} (h : pos < 8) : (BitVec.ofNat 32 pos).toNat = pos := by
  rw [BitVec.toNat_ofNat, Nat.mod_eq_of_lt (by omega)]

theorem access_calls {e : Env} {m : BitVec 32 → Byte} (hm : Memory e m) (tr : List Event) (sv : Bool) (k : Kind)
    (a : Access) (ha : Fits a) : accessCalls e tr sv k a = accessCall (mem m tr) k a ::
      (if sv && acknowledged (mem m tr) k a then [.serviceAck] else []) := by
  cases a with
  | byte cv b =>
    cases k <;> simp only [accessCalls, hm.sync, hm.syncRead, Bool.false_eq_true, if_false, hm.readByte,
      hm.writeByte, accessCall, ack, acknowledged, decide_true] <;> rfl
  | bit cv b pos =>
    have := small ha.2
    cases k <;> simp only [accessCalls, hm.sync, hm.syncRead, Bool.false_eq_true, if_false, hm.readBit,
      hm.writeBit, accessCall, ack, acknowledged, decide_true, this] <;> rfl

theorem access_result {e : Env} {m : BitVec 32 → Byte} (hm : Memory e m) (tr : List Event) (k : Kind)
    (a : Access) (ha : Fits a) : resultOf e tr k a = valueIn (stored (mem m tr) k a) a := by
  have hset : ∀ (v : Byte) (pos : Fin 8) (b : Bool), (setBit v (BitVec.ofNat 32 pos) b).getLsbD pos = b := by
    decide +kernel
  cases a with
  | byte cv b =>
    cases k with
    | verify => exact hm.readByte ..
    | write => simp [resultOf, hm.writeByte, valueIn, stored, applyWrite]
  | bit cv b pos =>
    cases k with
    | verify => simp only [resultOf, hm.readBit, small ha.2]; rfl
    | write =>
      have := hset (mem m tr (BitVec.ofNat 32 cv)) ⟨pos, ha.2⟩ b
      dsimp only at this
      simp [resultOf, hm.writeBit, valueIn, stored, applyWrite, this]

theorem access_stored (e : Env) (m : BitVec 32 → Byte) (tr : List Event) (sv : Bool) (k : Kind) (a : Access) :
    mem m (accessCalls e tr sv k a) = stored m k a := by
  cases k with
  | write => exact mem_accessCalls e tr sv a m
  | verify =>
    refine mem_quiet _ _ fun ev hev => ?_
    cases a <;> simp only [accessCalls] at hev <;> split at hev
    · simp only [List.mem_singleton] at hev; subst hev; rfl
    · rcases List.mem_cons.mp hev with rfl | hev
      · rfl
      · exact stores_ack _ _ ev hev
    · simp only [List.mem_singleton] at hev; subst hev; rfl
    · rcases List.mem_cons.mp hev with rfl | hev
      · rfl
      · exact stores_ack _ _ ev hev

private theorem session_call (c : BitVec 32 → Byte) (k : Kind) (a : Access) (x : Bool) :
    (accessCall c k a :: if x then [Event.serviceAck] else []).filter Event.isSession =
      accessCall c k a :: if x then [.serviceAck] else [] := by
  cases k <;> cases a <;> cases x <;> rfl

private theorem applyWrite_other (c : BitVec 32 → Byte) (a : Access) (x : BitVec 32)
    (h : x ≠ BitVec.ofNat 32 a.cv) : applyWrite c a x = c x := by
  cases a <;> exact if_neg h

/-- A CV access. -/
theorem meets_access {e : Env} {m : BitVec 32 → Byte} (hm : Memory e m) {s : Rx} {d : Decoder} (hs : Is m d s)
    (k : Kind) (a : Access) (ha : Fits a) : Meets m s (s.accessed e k a) (d.access k a) := by
  rw [accessed_eq e s k a ha, reflects_locks hs.reflects]
  unfold Decoder.access
  cases hp : permitted (locks d.cvs) k a with
  | false => exact .same hs
  | true =>
    rw [if_pos rfl, if_pos rfl]
    obtain ⟨p1, p2, p3, p4⟩ := performs_same hm.sync hm.syncRead s k a
    have pt := performs_trace e s k a
    have pf := performs_frame e s k a
    have hans : s.cfg.ch2DataEnabled = answering d.cvs := hs.reflects.channel2
    rw [access_result hm _ _ _ ha, hs.service, hans, hs.cvs] at p4
    have hcv : mem m (s.performs e k a).trace = stored d.cvs k a := by
      rw [pt, mem_append, access_stored, hs.cvs]
    rw [access_calls hm _ _ _ _ ha, hs.service, hs.cvs] at pt
    generalize s.performs e k a = s1 at *
    have hL : Like m { d with
        cvs := stored d.cvs k a
        waiting := if !d.service && answering d.cvs then some (valueIn (stored d.cvs k a) a) else d.waiting } s1 := by
      refine ⟨hcv, ?_, pf.indexReg.trans hs.page, pf.last.trans hs.last, pf.count.trans hs.count, ?_, by rw [p1]; exact hs.logon,
        p3.trans hs.callbacks⟩
      · have := hs.service
        unfold Rx.serviceMode at this ⊢
        rw [pf.mode]
        exact this
      · rw [p4]
        dsimp only
        split
        · rfl
        · exact hs.pom
    by_cases hk : k = .write
    · subst hk
      rw [if_pos rfl]
      unfold Rx.initIfNeeded
      by_cases hc : BitVec.ofNat 32 a.cv ∈ initCvs
      · rw [if_pos hc]
        by_cases had : HasAddress (stored d.cvs .write a)
        · rw [if_neg fun h => h.2.2 had]
          obtain ⟨s2, h2⟩ := init_total hm.toMemoryLike s1 (by rw [hcv]; exact had)
          rw [h2]
          obtain ⟨h3, h4⟩ := init_reflects hm.toMemoryLike h2
          have g := (cv_init e s1).out _ h2
          obtain ⟨cv29, prim, x, v, evs, -, -, -, -, hq, rfl⟩ := init_ok e s1 s2 h2
          rw [h4, hcv] at h3
          refine ⟨⟨⟨h4.trans hcv, hL.service, hL.page, hL.last, hL.count, hL.pom, hL.logon, hL.callbacks⟩, h3⟩,
            (accessCall d.cvs .write a :: if d.service && acknowledged d.cvs .write a then [.serviceAck] else []) ++
              evs, ?_, ?_⟩
          · show s1.trace ++ evs = _
            rw [pt, List.append_assoc]
          · rw [List.filter_append, session_quiet hq, List.append_nil]
            exact session_call ..
        · rw [if_pos ⟨rfl, hc, had⟩]
          cases h2 : s1.init e with
          | error f => exact (init_fault h2).1
          | ok s2 =>
            obtain ⟨h3, h4⟩ := init_reflects hm.toMemoryLike h2
            rw [h4, hcv] at h3
            exact had h3.address
      · rw [if_neg hc, if_neg fun h => hc h.2.1]
        refine ⟨⟨hL, ?_⟩, _, pt, session_call ..⟩
        refine hs.reflects.congr (fun cv hcv => ?_) (by rw [p1]) (by rw [p1]) p2
        exact applyWrite_other _ _ _ fun h => hc (h ▸ hcv)
    · rw [if_neg hk, if_neg fun h => hk h.1]
      refine ⟨⟨hL, ?_⟩, _, pt, session_call ..⟩
      refine hs.reflects.congr (fun cv hcv => ?_) (by rw [p1]) (by rw [p1]) p2
      cases k with
      | verify => rfl
      | write => exact (hk rfl).elim

/-- Counting a packet. -/
theorem is_counted {m : BitVec 32 → Byte} {s : Rx} {d : Decoder} (hs : Is m d s) (p : Packet) :
    Is m (d.counted p) (s.countOwnEqualCvPackets p) ∧ (s.countOwnEqualCvPackets p).trace = s.trace := by
  unfold Rx.countOwnEqualCvPackets Decoder.counted
  rw [hs.last]
  by_cases h : d.last = p
  · rw [if_pos h, if_pos h, if_pos h]
    exact ⟨⟨⟨hs.cvs, hs.service, hs.page, h, congrArg (· + 1) hs.count, hs.pom, hs.logon, hs.callbacks⟩,
      hs.reflects.congr (fun _ _ => rfl) rfl rfl rfl⟩, rfl⟩
  · rw [if_neg h, if_neg h, if_neg h]
    exact ⟨⟨⟨hs.cvs, hs.service, hs.page, rfl, rfl, rfl, hs.logon, hs.callbacks⟩,
      hs.reflects.congr (fun _ _ => rfl) rfl rfl rfl⟩, rfl⟩

/-- The long form. -/
theorem meets_longBody {e : Env} {m : BitVec 32 → Byte} (hm : Memory e m) {s : Rx} {d : Decoder} (hs : Is m d s)
    (bs : List Byte) : Meets m s (s.cvLongBody e bs) (d.long bs) := by
  have key : ∀ b : Byte, ((b >>> 2) &&& 3#8).toNat = b.toNat / 4 % 4 := by decide +kernel
  have hop : ∀ b k : Byte, ((b >>> 2) &&& 3#8 = k ↔ b.toNat / 4 % 4 = k.toNat) := by
    intro b k
    rw [← key]
    exact ⟨fun h => by rw [h], fun h => BitVec.eq_of_toNat_eq h⟩
  unfold Rx.cvLongBody
  obtain _ | ⟨b0, _ | ⟨b1, _ | ⟨b2, rest⟩⟩⟩ := bs
  · exact rfl
  · exact rfl
  · simp only [byteAt_zero, byteAt_succ, ok_bind, hop, hs.count]
    have hx : byteAt [] 0 = .error .oob := rfl
    have h4 : b0.toNat / 4 % 4 = 0 ∨ b0.toNat / 4 % 4 = 1 ∨ b0.toNat / 4 % 4 = 2 ∨
      b0.toNat / 4 % 4 = 3 := by omega
    simp only [hx, error_bind, Decoder.long]
    rcases h4 with h | h | h | h <;> rw [h]
    · exact .same hs
    · exact rfl
    · exact rfl
    · simp only [BitVec.toNat_ofNat, Nat.reducePow, Nat.reduceMod, Nat.reduceEqDiff, if_false, if_true]
      by_cases h1 : d.count < 2
      · rw [if_pos h1]
        simp only [h1, and_true, or_true, if_true]
        exact .same hs
      · rw [if_neg h1]
        simp only [h1, and_false, or_false, if_false]
        split <;> exact rfl
  have hb1 := b1.isLt
  simp only [byteAt_zero, byteAt_succ, ok_bind, hop, cvAddrOf_eq, pos_eq, hs.count]
  simp only [Decoder.long, longAction, longRequest]
  have h4 : b0.toNat / 4 % 4 = 0 ∨ b0.toNat / 4 % 4 = 1 ∨ b0.toNat / 4 % 4 = 2 ∨
    b0.toNat / 4 % 4 = 3 := by omega
  have hcv : b0.toNat % 4 * 256 + b1.toNat < 2 ^ 32 := by omega
  have hpos : b2.toNat % 8 < 8 := by omega
  rcases h4 with h | h | h | h <;> rw [h]
  · exact .same hs
  · exact meets_access hm hs .verify (.byte _ b2) hcv
  · simp only [BitVec.toNat_ofNat, Nat.reducePow, Nat.reduceMod, Nat.reduceEqDiff, if_false, if_true]
    cases b2.getLsbD 4
    · exact meets_access hm hs .verify (.bit _ _ _) ⟨hcv, hpos⟩
    · simp only [Bool.not_true, Bool.false_eq_true, if_false, if_true]
      split
      · exact meets_access hm hs .write (.bit _ _ _) ⟨hcv, hpos⟩
      · exact .same hs
  · simp only [BitVec.toNat_ofNat, Nat.reducePow, Nat.reduceMod, Nat.reduceEqDiff, if_false, if_true]
    by_cases h1 : d.count < 2
    · rw [if_pos h1, if_neg (by omega), if_pos h1]
      exact .same hs
    · by_cases h2 : d.count = 2
      · rw [if_neg h1, if_pos h2, if_pos h2]
        exact meets_access hm hs .write (.byte _ _) hcv
      · rw [if_neg h1, if_neg h2, if_neg h2, if_neg h1]
        exact meets_access hm hs .verify (.byte _ _) hcv

theorem decoder_writes_cons (d : Decoder) (a b : Access) (as : List Access) :
    d.writes (a :: b :: as) = (d.access .write a).andThen fun d => d.writes (b :: as) := rfl

theorem decoder_writes_one (d : Decoder) (a : Access) : d.writes [a] = d.access .write a := by
  show (d.access .write a).andThen (fun d => some (d, [])) = _
  cases d.access .write a with
  | none => rfl
  | some x => simp [Outcome.andThen]

/-- The short form. -/
theorem meets_shortBody {e : Env} {m : BitVec 32 → Byte} (hm : Memory e m) {s : Rx} {d : Decoder} (hs : Is m d s)
    (bs : List Byte) : Meets m s (s.cvShortBody e bs) ((shortWrites d.count bs).bind fun ws => d.writes ws) := by
  have key : ∀ b : Byte, (b &&& 0x0F#8).toNat = b.toNat % 16 := by decide +kernel
  have hop : ∀ b k : Byte, (b &&& 0x0F#8 = k ↔ b.toNat % 16 = k.toNat) := by
    intro b k
    rw [← key]
    exact ⟨fun h => by rw [h], fun h => BitVec.eq_of_toNat_eq h⟩
  obtain _ | ⟨b0, rest⟩ := bs
  · exact rfl
  unfold Rx.cvShortBody shortWrites
  simp only [byteAt_zero, byteAt_succ, ok_bind, hop, hs.count, BitVec.toNat_ofNat, Nat.reducePow, Nat.reduceMod]
  have hx : byteAt [] 0 = .error .oob := rfl
  by_cases h2 : b0.toNat % 16 = 2
  · rw [if_pos h2, if_pos h2]
    obtain _ | ⟨b1, rest⟩ := rest
    · exact rfl
    · rw [byteAt_zero, ok_bind]
      show Meets m s _ (d.writes [.byte 22 b1])
      rw [decoder_writes_one]
      exact meets_access hm hs .write (.byte 22 b1) (show 22 < 2 ^ 32 by decide)
  rw [if_neg h2, if_neg h2]
  by_cases h3 : b0.toNat % 16 = 3
  · rw [if_pos h3, if_pos h3]
    obtain _ | ⟨b1, rest⟩ := rest
    · exact rfl
    · rw [byteAt_zero, ok_bind]
      show Meets m s _ (d.writes [.byte 23 b1])
      rw [decoder_writes_one]
      exact meets_access hm hs .write (.byte 23 b1) (show 23 < 2 ^ 32 by decide)
  rw [if_neg h3, if_neg h3]
  by_cases h4 : b0.toNat % 16 = 4
  · rw [if_pos h4, if_pos h4]
    by_cases hc : d.count = 2
    · rw [if_neg fun h => h hc, if_neg fun h => h hc]
      obtain _ | ⟨b1, _ | ⟨b2, rest⟩⟩ := rest
      · exact rfl
      · simp only [byteAt_zero, ok_bind, byteAt_succ, hx, error_bind]
        exact (meets_access hm hs .write (.byte 16 (0xC0#8 ||| b1)) (show 16 < 2 ^ 32 by decide)).fails
      · simp only [byteAt_zero, ok_bind, byteAt_succ]
        show Meets m s _ (d.writes [.byte 16 (0xC0#8 ||| b1), .byte 17 b2, .bit 28 true 5])
        rw [decoder_writes_cons]
        refine (meets_access hm hs .write (.byte 16 (0xC0#8 ||| b1)) (show 16 < 2 ^ 32 by decide)).bind fun s1 d1 g1 => ?_
        rw [decoder_writes_cons]
        refine (meets_access hm g1 .write (.byte 17 b2) (show 17 < 2 ^ 32 by decide)).bind fun s2 d2 g2 => ?_
        rw [decoder_writes_one]
        exact meets_access hm g2 .write (.bit 28 true 5) ⟨by decide, by decide⟩
    · rw [if_pos hc, if_pos hc]
      exact .same hs
  rw [if_neg h4, if_neg h4]
  by_cases h5 : b0.toNat % 16 = 5
  · rw [if_pos h5, if_pos h5]
    by_cases hc : d.count = 2
    · rw [if_neg fun h => h hc, if_neg fun h => h hc]
      obtain _ | ⟨b1, _ | ⟨b2, rest⟩⟩ := rest
      · exact rfl
      · simp only [byteAt_zero, ok_bind, byteAt_succ, hx, error_bind]
        exact (meets_access hm hs .write (.byte 30 b1) (show 30 < 2 ^ 32 by decide)).fails
      · simp only [byteAt_zero, ok_bind, byteAt_succ]
        show Meets m s _ (d.writes [.byte 30 b1, .byte 31 b2])
        rw [decoder_writes_cons]
        refine (meets_access hm hs .write (.byte 30 b1) (show 30 < 2 ^ 32 by decide)).bind fun s1 d1 g1 => ?_
        rw [decoder_writes_one]
        exact meets_access hm g1 .write (.byte 31 b2) (show 31 < 2 ^ 32 by decide)
    · rw [if_pos hc, if_pos hc]
      exact .same hs
  rw [if_neg h5, if_neg h5]
  exact .same hs

/-! ### Service mode -/

private theorem ofNat_mod (x : Nat) : BitVec.ofNat 32 (x % 2 ^ 32) = BitVec.ofNat 32 x := by
  apply BitVec.eq_of_toNat_eq
  rw [BitVec.toNat_ofNat, BitVec.toNat_ofNat, Nat.mod_mod]

/-- Register and page mode. -/
theorem meets_register {e : Env} {m : BitVec 32 → Byte} (hm : Memory e m) {s : Rx} {d : Decoder} (hs : Is m d s)
    (b v c : Byte) : Meets m s (s.registerMode e [b, v, c]) (d.register (b.getLsbD 3) (b.toNat % 8) v) := by
  have acc : ∀ (w : Bool) (cv : Nat), cv < 2 ^ 32 →
      Meets m s (if w then s.cvWriteByte e (BitVec.ofNat 32 cv) v else s.cvVerifyByte e (BitVec.ofNat 32 cv) v)
        (d.access (if w then .write else .verify) (.byte cv v)) := by
    intro w cv h
    cases w
    · exact meets_access hm hs .verify (.byte cv v) h
    · exact meets_access hm hs .write (.byte cv v) h
  rw [registerMode_eq, hs.page]
  unfold Decoder.register
  dsimp only
  by_cases h4 : b.toNat % 8 < 4
  · rw [if_pos h4, if_pos h4]
    have := acc (b.getLsbD 3) (pageCv d.page (b.toNat % 8)) (by unfold pageCv; omega)
    unfold pageCv at this ⊢
    rw [ofNat_mod] at this
    exact this
  rw [if_neg h4, if_neg h4]
  by_cases h5 : b.toNat % 8 = 4
  · rw [if_pos h5, if_pos h5]
    exact acc _ 28 (by decide)
  rw [if_neg h5, if_neg h5]
  by_cases h6 : b.toNat % 8 = 5
  · rw [if_pos h6, if_pos h6]
    cases b.getLsbD 3
    · simp only [Bool.false_eq_true, if_false]
      by_cases hv : d.page = v
      · rw [if_pos hv, if_pos hv]
        exact .calls (man := s.man) hs (evs := [.serviceAck]) (by simp [Event.stores, Spec.Event.isSession])
      · rw [if_neg hv, if_neg hv]
        exact .same hs
    · simp only [if_true]
      exact ⟨⟨⟨hs.cvs, hs.service, rfl, hs.last, hs.count, hs.pom, hs.logon, hs.callbacks⟩,
        hs.reflects.congr (fun _ _ => rfl) rfl rfl rfl⟩, [], (List.append_nil _).symm, rfl⟩
  · rw [if_neg h6, if_neg h6]
    exact acc _ _ (by omega)

/-- Entering and leaving service mode. -/
theorem meets_mode {m : BitVec 32 → Byte} {s : Rx} {d : Decoder} (hs : Is m d s) (x : Bool) :
    Meets m s (.ok (s.setServiceMode x)) (some ({ d with service := x }, [.serviceModeHook x])) := by
  refine ⟨⟨⟨?_, ?_, hs.page, hs.last, hs.count, hs.pom, hs.logon, hs.callbacks⟩,
    hs.reflects.congr (fun _ _ => rfl) rfl rfl rfl⟩, [.serviceModeHook x], rfl, rfl⟩
  · exact (mem_append_quiet _ _ [_] (by simp [Event.stores])).trans hs.cvs
  · cases x <;> rfl

/-- A packet in service mode. -/
theorem meets_serve {e : Env} {m : BitVec 32 → Byte} (hm : Memory e m) {s : Rx} {d : Decoder} (hs : Is m d s)
    (hd : d.service = true) (p : Packet) :
    Meets m s ((s.executeService e p).map Prod.fst) (d.serve p) := by
  have key : ∀ b : Byte, b &&& 0xF0#8 = 0x70#8 ↔ b.toNat / 16 = 7 := by decide +kernel
  have hmap : ∀ x : R Rx, (x >>= fun y => (.ok (y, true) : R (Rx × Bool))).map Prod.fst = x := by
    intro x; cases x <;> rfl
  unfold Rx.executeService
  obtain _ | ⟨b, rest⟩ := p
  · exact rfl
  simp only [byteAt_zero, ok_bind, pure_eq_ok, Decoder.serve, ne_eq, key]
  by_cases h0 : b = 0#8
  · rw [if_pos h0, if_pos h0]
    exact .same hs
  rw [if_neg h0, if_neg h0]
  by_cases h7 : b.toNat / 16 = 7
  · rw [if_neg (not_not_intro h7), if_neg (not_not_intro h7)]
    obtain _ | ⟨v, _ | ⟨c, _ | ⟨x, _ | ⟨y, rest⟩⟩⟩⟩ := rest
    · exact .same hs
    · exact .same hs
    · rw [if_pos (show [b, v, c].length = 3 from rfl), hmap]
      exact meets_register hm hs b v c
    · rw [if_neg (by simp), if_pos (show [b, v, c, x].length = 4 from rfl), hmap]
      obtain ⟨g1, g2⟩ := is_counted hs [b, v, c, x]
      unfold Rx.cvLong
      rw [if_neg fun h => h.1 rfl]
      dsimp only
      have hsm := g1.service
      have hct := g1.count
      have hsv : (d.counted [b, v, c, x]).service = true := hd
      rw [hsv] at hsm
      rw [hsm, hct]
      by_cases h2 : (d.counted [b, v, c, x]).count = 2
      · rw [if_neg fun h => h.2 h2, if_pos h2]
        exact (meets_longBody hm g1 _).from g2
      · rw [if_pos ⟨rfl, h2⟩, if_neg h2]
        exact (Meets.same g1).from g2
    · rw [if_neg (by simp), if_neg (by simp)]
      exact .same hs
  · rw [if_pos h7, if_pos h7]
    exact meets_mode hs false

/-! ### Instructions -/

theorem functionCalls_eq (s : Rx) (a : BitVec 16) (b v : Byte) (groups : List Byte) :
    s.speedDirFunctions a (b :: v :: groups) =
      .ok { s with trace := s.trace ++ functionCalls a groups.dropLast } := by
  have step : ∀ (x : Rx) (i : Nat) (mask : BitVec 32) (sh : Nat), x.optFunctions a (b :: v :: groups) (i + 2) mask sh =
      .ok { x with trace := x.trace ++ (match groups.dropLast[i]? with
        | some c => [.function a mask (c.setWidth 32 <<< sh)]
        | none => []) } := by
    intro x i mask sh
    unfold Rx.optFunctions
    simp only [List.length_cons, byteAt_succ]
    by_cases h : i + 1 < groups.length
    · rw [if_pos (by omega)]
      have h1 : groups.dropLast[i]? = some groups[i] := by
        rw [List.getElem?_dropLast, if_pos (by omega), List.getElem?_eq_getElem (by omega)]
      have h2 : byteAt groups i = .ok groups[i] := by
        unfold byteAt
        rw [List.getElem?_eq_getElem (by omega)]
      rw [h1, h2]
      rfl
    · rw [if_neg (by omega)]
      have h1 : groups.dropLast[i]? = none := by
        rw [List.getElem?_eq_none]
        rw [List.length_dropLast]
        omega
      rw [h1, List.append_nil]
  unfold Rx.speedDirFunctions
  rw [step s 0, ok_bind, step _ 1, ok_bind, step _ 2, ok_bind, step _ 3]
  simp only [List.append_assoc]
  congr 3
  unfold functionCalls
  obtain _ | ⟨g1, _ | ⟨g2, _ | ⟨g3, _ | ⟨g4, gs⟩⟩⟩⟩ := groups.dropLast <;> rfl

theorem speedAndDirection_eq (x : Rx) (addr : BitVec 16) (b : Byte) (rest : List Byte) :
    x.speedAndDirection addr (b :: rest) =
      .ok { x with trace := x.trace ++
        if x.cfg.f0Exception then speed14Calls addr (reversedAt x addr) b
        else speed28Calls addr (reversedAt x addr) b } := by
  have key : ∀ b : Byte, (b &&& 0x0F#8 = 0#8 ↔ b.toNat % 16 = 0) ∧
      (b &&& 0x0E#8 = 0#8 ↔ b.toNat % 16 ≤ 1) ∧ (b &&& 0x0F#8).toNat = b.toNat % 16 := by decide +kernel
  obtain ⟨k1, k2, k3⟩ := key b
  unfold Rx.speedAndDirection
  simp only [byteAt_zero, ok_bind]
  rw [k3]
  unfold speed14Calls speed28Calls
  dsimp only
  by_cases h1 : b.toNat % 16 = 1
  · rw [if_pos ⟨fun h => by rw [k1] at h; omega, k2.mpr (by omega)⟩, if_pos h1, if_pos h1]
    cases x.cfg.f0Exception <;> rfl
  · rw [if_neg (fun ⟨h2, h3⟩ => by rw [Ne, k1] at h2; rw [k2] at h3; omega), if_neg h1, if_neg h1]
    have hs : (if b &&& 0x0F#8 = 0#8 then 0 else ((b.toNat % 16 : Nat) : Int) - 1) =
        ((b.toNat % 16 - 1 : Nat) : Int) := by
      by_cases h0 : b.toNat % 16 = 0
      · rw [if_pos (k1.mpr h0), h0]; rfl
      · rw [if_neg (fun h => h0 (k1.mp h))]; omega
    rw [hs]
    cases hf : x.cfg.f0Exception
    · simp only [Bool.false_eq_true, if_false, pure_eq_ok]
      rw [directionSpeed_eq]
      have h28 : (if ((b.toNat % 16 - 1 : Nat) : Int) * 2 ≠ 0 ∧ (!b.getLsbD 4) = true then
          ((b.toNat % 16 - 1 : Nat) : Int) * 2 - 1 else ((b.toNat % 16 - 1 : Nat) : Int) * 2) =
          ((if b.toNat % 16 = 0 then 0 else 2 * (b.toNat % 16) - 3 +
            (if b.getLsbD 4 then 1 else 0) : Nat) : Int) := by
        by_cases h0 : b.toNat % 16 = 0
        · rw [if_neg (by simp [h0]), if_pos h0, h0]; rfl
        · cases b.getLsbD 4
          · rw [if_pos ⟨by omega, rfl⟩, if_neg h0, if_neg Bool.false_ne_true]; omega
          · rw [if_neg (by simp), if_neg h0, if_pos rfl]; omega
      rw [h28, scaled28 _ (by split <;> (try split) <;> omega)]
    · simp only [if_true, pure_eq_ok]
      rw [directionSpeed_eq, scaled14 _ (by omega)]
      simp [Rx.emit, reversedAt]

theorem functionGroup_eq (x : Rx) (addr : BitVec 16) (b : Byte) (rest : List Byte) (h1 : 128 ≤ b.toNat)
    (h2 : b.toNat < 192) {c : BitVec 32 → Byte} (hc : x.cfg.f0Exception = !(c 28#32).getLsbD 1) :
    x.functionGroup addr (b :: rest) = .ok { x with trace := x.trace ++ groupCalls c addr b } := by
  have key : ∀ b : Byte, 128 ≤ b.toNat → b.toNat < 192 →
      ((b &&& 0xF0#8 = 0x80#8 ∨ b &&& 0xF0#8 = 0x90#8) ↔ b.toNat < 160) ∧
      (b &&& 0xF0#8 = 0xB0#8 ↔ 176 ≤ b.toNat) ∧
      (b &&& 0xF0#8 = 0xA0#8 ↔ 160 ≤ b.toNat ∧ b.toNat < 176) := by decide +kernel
  have low : ∀ b : Byte, (b &&& 0x0F#8).setWidth 32 = BitVec.ofNat 32 (b.toNat % 16) := by decide +kernel
  have bit : ∀ b : Byte, ((b &&& 0x10#8).setWidth 32 : BitVec 32) >>> 4 = if b.getLsbD 4 then 1#32 else 0#32 := by
    decide +kernel
  obtain ⟨k1, k2, k3⟩ := key b h1 h2
  unfold Rx.functionGroup groupCalls
  simp only [byteAt_zero, ok_bind, pure_eq_ok]
  rw [low, bit, hc]
  by_cases h : b.toNat < 160
  · rw [if_pos (k1.mpr h), if_pos h]
    cases (c 28#32).getLsbD 1 <;> rfl
  rw [if_neg (fun h' => h (k1.mp h')), if_neg h]
  by_cases h' : b.toNat < 176
  · rw [if_neg (fun h'' => by have := k2.mp h''; omega), if_pos (k3.mpr ⟨by omega, h'⟩), if_pos h']
    rfl
  · rw [if_pos (k2.mpr (by omega)), if_neg h']
    rfl

theorem loco_speed126 {a : BitVec 16} {r : Bool} {b : Byte} : ∀ ev ∈ speed126Calls a r b, ev.locoAddr = some a := by
  intro ev hev
  unfold speed126Calls estopCalls driveCalls at hev
  dsimp only at hev
  split at hev <;> simp at hev
  · subst hev; rfl
  · rcases hev with rfl | rfl <;> rfl

theorem loco_speed28 {a : BitVec 16} {r : Bool} {b : Byte} : ∀ ev ∈ speed28Calls a r b, ev.locoAddr = some a := by
  intro ev hev
  unfold speed28Calls estopCalls driveCalls at hev
  dsimp only at hev
  split at hev <;> simp at hev
  · subst hev; rfl
  · rcases hev with rfl | rfl <;> rfl

theorem loco_speed14 {a : BitVec 16} {r : Bool} {b : Byte} : ∀ ev ∈ speed14Calls a r b, ev.locoAddr = some a := by
  intro ev hev
  unfold speed14Calls estopCalls driveCalls at hev
  dsimp only at hev
  split at hev <;> simp at hev
  · subst hev; rfl
  · rcases hev with rfl | rfl | rfl <;> rfl

theorem loco_group {a : BitVec 16} {c : BitVec 32 → Byte} {b : Byte} : ∀ ev ∈ groupCalls c a b, ev.locoAddr = some a := by
  intro ev hev
  unfold groupCalls at hev
  dsimp only at hev
  split at hev
  · simp at hev; subst hev; rfl
  · split at hev <;> simp at hev <;> subst hev <;> rfl

theorem loco_functions {a : BitVec 16} {gs : List Byte} : ∀ ev ∈ functionCalls a gs, ev.locoAddr = some a := by
  intro ev hev
  unfold functionCalls at hev
  obtain _ | ⟨g1, _ | ⟨g2, _ | ⟨g3, _ | ⟨g4, gs⟩⟩⟩⟩ := gs <;> simp at hev
  · subst hev; rfl
  · rcases hev with rfl | rfl <;> rfl
  · rcases hev with rfl | rfl | rfl <;> rfl
  · rcases hev with rfl | rfl | rfl | rfl <;> rfl

/-- Binary states: nothing, or a fault of the search for a lost locomotive. -/
theorem meets_binary {m : BitVec 32 → Byte} {s : Rx} {d : Decoder} (hs : Is m d s) (xf : BitVec 32) (st : Bool)
    (rand : Nat) : (s.binaryState xf st rand = .error .assertion ∧ s.lastPacketTp + 1000000000 ≤ s.tosTp) ∨
      Meets m s (s.binaryState xf st rand) (some (d, [])) := by
  unfold Rx.binaryState
  split
  · cases h : s.tipOffSearch rand with
    | error f => exact .inl ⟨by rw [(tipOffSearch_fault h).1], (tipOffSearch_fault h).2⟩
    | ok s' =>
      obtain ⟨b, q, rfl⟩ := (searches_tipOffSearch s rand).out _ h
      exact .inr ⟨⟨⟨hs.cvs, hs.service, hs.page, hs.last, hs.count, hs.pom, hs.logon, hs.callbacks⟩,
        hs.reflects.congr (fun _ _ => rfl) rfl rfl rfl⟩, [], (List.append_nil _).symm, rfl⟩
  · exact .inr (.same hs)

private theorem classes : ∀ b : Byte,
    (b.toNat < 16 → decodeInstructionByte b = .decoderControl) ∧
    (16 ≤ b.toNat → b.toNat < 32 → decodeInstructionByte b = .consistControl) ∧
    (32 ≤ b.toNat → b.toNat < 64 → decodeInstructionByte b = .advancedOperations) ∧
    (64 ≤ b.toNat → b.toNat < 128 → decodeInstructionByte b = .speedDirection) ∧
    (128 ≤ b.toNat → b.toNat < 192 → decodeInstructionByte b = .functionGroup) ∧
    (192 ≤ b.toNat → b.toNat < 224 → decodeInstructionByte b = .featureExpansion) ∧
    (224 ≤ b.toNat → b.toNat < 240 → decodeInstructionByte b = .cvLong) ∧
    (240 ≤ b.toNat → decodeInstructionByte b = .cvShort) := by decide +kernel

private theorem byte_eq (b : Byte) (n : Nat) (h : n < 256) : b = BitVec.ofNat 8 n ↔ b.toNat = n := by
  rw [← BitVec.toNat_inj, BitVec.toNat_ofNat, Nat.mod_eq_of_lt h]

/-- An instruction. -/
theorem meets_instruct {e : Env} {m : BitVec 32 → Byte} (hm : Memory e m) {s : Rx} {d : Decoder} (hs : Is m d s)
    (hd : d.service = false) {n : Nat} (hn : n < 10240) (p : Packet) (bs : List Byte) (rand : Nat) :
    (s.executeInstruction e (BitVec.ofNat 16 n) p bs rand = .error .assertion ∧
      s.lastPacketTp + 1000000000 ≤ s.tosTp) ∨
      Meets m s (s.executeInstruction e (BitVec.ofNat 16 n) p bs rand) (d.instruct e.eastWest n p bs) := by
  have hz := number_zero hn
  have ht := turned_eq hs.reflects hn
  have hk : (BitVec.ofNat 16 n = s.addrs.consist.value) ↔ n = consistNumber d.cvs := by
    rw [← BitVec.toNat_inj, BitVec.toNat_ofNat, Nat.mod_eq_of_lt (by omega), hs.reflects.consistValue]; rfl
  have hx : byteAt [] 0 = .error .oob := rfl
  unfold Rx.executeInstruction decodeInstruction
  obtain _ | ⟨b, rest⟩ := bs
  · exact .inr rfl
  obtain ⟨c1, c2, c3, c4, c5, c6, c7, c8⟩ := classes b
  have hb := b.isLt
  simp only [byteAt_zero, ok_bind, pure_eq_ok, Decoder.instruct]
  by_cases h1 : b.toNat < 16
  · rw [if_pos h1, c1 h1]
    refine .inr ?_
    dsimp only
    by_cases h0 : n = 0
    · rw [if_pos (hz.mpr h0)]
      by_cases hb0 : b = 0#8
      · rw [if_pos hb0, if_pos ⟨h0, hb0⟩]
        exact meets_mode hs true
      · rw [if_neg hb0, if_neg fun h => hb0 h.2]
        exact .same hs
    · rw [if_neg fun h => h0 (hz.mp h), if_neg fun h => h0 h.1]
      exact .same hs
  rw [if_neg h1]
  by_cases h2 : b.toNat < 32
  · rw [if_pos h2, c2 (by omega) h2]
    refine .inr ?_
    dsimp only
    unfold Rx.consistControl
    obtain _ | ⟨v, rest⟩ := rest
    · exact rfl
    · simp only [byteAt_zero, byteAt_succ, ok_bind]
      exact meets_access hm hs .write (.byte 18 _) (show 18 < 2 ^ 32 by decide)
  rw [if_neg h2]
  by_cases h3 : b.toNat < 64
  · rw [if_pos h3, c3 (by omega) h3]
    refine .inr ?_
    dsimp only
    unfold Rx.advancedOperations
    simp only [byteAt_zero, byteAt_succ, ok_bind, byte_eq b 0x3C (by decide), byte_eq b 0x3F (by decide),
      byte_eq b 0x3E (by decide)]
    by_cases g1 : b.toNat = 0x3C
    · rw [if_pos g1, if_pos g1]
      obtain _ | ⟨v, groups⟩ := rest
      · have : s.speedDirFunctions (BitVec.ofNat 16 n) [b] = .ok s := rfl
        rw [this, ok_bind, hx]
        exact rfl
      · rw [functionCalls_eq, ok_bind, byteAt_zero, ok_bind]
        dsimp only
        rw [speed126_eq, ht]
        have := Meets.drive (evs := functionCalls (BitVec.ofNat 16 n) groups.dropLast ++
          speed126Calls (BitVec.ofNat 16 n) (reversedAt s (BitVec.ofNat 16 n)) v) (a := BitVec.ofNat 16 n) hs s.man
          (fun ev hev => (List.mem_append.mp hev).elim (loco_functions ev) (loco_speed126 ev))
        rw [← List.append_assoc] at this
        exact this
    rw [if_neg g1, if_neg g1]
    by_cases g2 : b.toNat = 0x3E
    · rw [if_neg (by omega), if_pos g2, if_pos g2]
      obtain _ | ⟨v, rest⟩ := rest
      · rw [hx]; exact rfl
      · rw [byteAt_zero, ok_bind]
        unfold Rx.specialOperatingModes
        cases e.eastWest
        · have := Meets.calls (evs := []) hs (v.getLsbD 7) (by simp)
          rw [List.append_nil] at this
          exact this
        · have := Meets.calls (evs := [.eastWestDirection (BitVec.ofNat 16 n) (some (v.getLsbD 6))]) hs (v.getLsbD 7)
            (by simp [Event.stores, Spec.Event.isSession])
          dsimp only
          rw [if_pos rfl, if_pos rfl]
          cases hv : v.getLsbD 6 <;> rw [hv] at this <;> exact this
    rw [if_neg g2, if_neg g2]
    by_cases g3 : b.toNat = 0x3F
    · rw [if_pos g3, if_pos g3]
      obtain _ | ⟨v, rest⟩ := rest
      · rw [hx]; exact rfl
      · rw [byteAt_zero, ok_bind]
        dsimp only
        rw [speed126_eq, ht]
        exact .drive hs s.man loco_speed126
    · rw [if_neg g3, if_neg g3]
      exact .same hs
  rw [if_neg h3]
  by_cases h4 : b.toNat < 128
  · rw [if_pos h4, c4 (by omega) h4]
    refine .inr ?_
    dsimp only
    rw [speedAndDirection_eq, hs.reflects.f0Exception, ht]
    cases (d.cvs 28#32).getLsbD 1
    · exact .drive hs s.man loco_speed14
    · exact .drive hs s.man loco_speed28
  rw [if_neg h4]
  by_cases h5 : b.toNat < 192
  · rw [if_pos h5, c5 (by omega) h5]
    refine .inr ?_
    dsimp only
    rw [functionGroup_eq s _ b rest (by omega) h5 hs.reflects.f0Exception]
    exact .drive hs s.man loco_group
  rw [if_neg h5]
  by_cases h6 : b.toNat < 224
  · rw [if_pos h6, c6 (by omega) h6]
    dsimp only
    unfold Rx.featureExpansion
    simp only [byteAt_zero, byteAt_succ, ok_bind, byte_eq b 0xC0 (by decide), byte_eq b 0xDD (by decide),
      byte_eq b 0xDE (by decide), byte_eq b 0xDF (by decide)]
    by_cases g1 : b.toNat = 0xC0
    · rw [if_pos g1, if_pos g1]
      obtain _ | ⟨v, _ | ⟨w, rest⟩⟩ := rest
      · exact .inr rfl
      · exact .inr rfl
      · rw [if_pos (by simp)]
        simp only [byteAt_zero, byteAt_succ, ok_bind]
        exact meets_binary hs ..
    rw [if_neg g1, if_neg g1]
    by_cases g2 : b.toNat = 0xDD
    · rw [if_pos g2, if_pos g2]
      obtain _ | ⟨v, rest⟩ := rest
      · exact .inr rfl
      · rw [if_pos (by simp)]
        simp only [byteAt_zero, ok_bind]
        exact meets_binary hs ..
    rw [if_neg g2, if_neg g2]
    refine .inr ?_
    by_cases g3 : b.toNat = 0xDE
    · rw [if_pos g3, if_pos g3]
      obtain _ | ⟨v, rest⟩ := rest
      · exact rfl
      · rw [byteAt_zero, ok_bind]
        exact .drive (a := BitVec.ofNat 16 n) hs s.man (by simp [Event.locoAddr])
    rw [if_neg g3, if_neg g3]
    by_cases g4 : b.toNat = 0xDF
    · rw [if_pos g4, if_pos g4]
      obtain _ | ⟨v, rest⟩ := rest
      · exact rfl
      · rw [byteAt_zero, ok_bind]
        exact .drive (a := BitVec.ofNat 16 n) hs s.man (by simp [Event.locoAddr])
    rw [if_neg g4, if_neg g4]
    exact .same hs
  rw [if_neg h6]
  refine .inr ?_
  obtain ⟨g1, g2⟩ := is_counted hs p
  have hcond : (BitVec.ofNat 16 n ≠ 0#16 ∧ BitVec.ofNat 16 n = s.addrs.consist.value) ↔
      (n ≠ 0 ∧ n = consistNumber d.cvs) := by rw [Ne, hz, hk]
  by_cases hc : n ≠ 0 ∧ n = consistNumber d.cvs
  · rw [if_pos hc]
    by_cases h7 : b.toNat < 240
    · rw [c7 (by omega) h7]
      dsimp only
      unfold Rx.cvLong
      rw [if_pos (hcond.mpr hc)]
      exact .same hs
    · rw [c8 (by omega)]
      dsimp only
      unfold Rx.cvShort
      rw [if_pos (hcond.mpr hc)]
      exact .same hs
  · rw [if_neg hc]
    by_cases h7 : b.toNat < 240
    · rw [c7 (by omega) h7, if_pos h7]
      dsimp only
      unfold Rx.cvLong
      rw [if_neg fun h => hc (hcond.mp h)]
      dsimp only
      have hsm := g1.service
      have : (d.counted p).service = false := hd
      rw [this] at hsm
      rw [if_neg (by rw [hsm]; exact fun h => Bool.false_ne_true h.1)]
      exact (meets_longBody hm g1 _).from g2
    · rw [c8 (by omega), if_neg h7]
      dsimp only
      unfold Rx.cvShort
      rw [if_neg fun h => hc (hcond.mp h)]
      exact (meets_shortBody hm g1 _).from g2

/-! ### Packets -/

theorem Is.congr {m : BitVec 32 → Byte} {d : Decoder} {s s' : Rx} (h : Is m d s) (h1 : s'.trace = s.trace)
    (h2 : s'.mode = s.mode) (h3 : s'.indexReg = s.indexReg) (h4 : s'.lastOwnCvPacket = s.lastOwnCvPacket)
    (h5 : s'.ownEqualCvPackets = s.ownEqualCvPackets) (h6 : s'.q.pom = s.q.pom)
    (h7 : s'.addrs.logon = s.addrs.logon) (h8 : s'.callbacks = s.callbacks)
    (h9 : s'.addrs.primary = s.addrs.primary) (h10 : s'.addrs.consist = s.addrs.consist) (h11 : s'.cfg = s.cfg) :
    Is m d s' :=
  ⟨⟨by rw [h1]; exact h.cvs, by have := h.service; unfold Rx.serviceMode at this ⊢; rw [h2]; exact this,
    h3.trans h.page, h4.trans h.last, h5.trans h.count, h6.trans h.pom, by rw [h7]; exact h.logon,
    h8.trans h.callbacks⟩, h.reflects.congr (fun _ _ => rfl) h9 h10 h11⟩

private theorem meets_pop {m : BitVec 32 → Byte} {s : Rx} {x : R (Rx × Bool)} {y : Outcome}
    (h : Meets m s (x.map Prod.fst) y) :
    Meets m s ((x >>= fun r => (.ok (r.1.popFront, r.2) : R (Rx × Bool))).map Prod.fst) y := by
  cases x with
  | error f => exact h
  | ok r =>
    cases y with
    | none => exact h.elim
    | some y =>
      obtain ⟨h1, h2⟩ := h
      exact ⟨h1.congr rfl rfl rfl rfl rfl rfl rfl rfl rfl rfl rfl, h2⟩

/-- Executing a packet. -/
theorem meets_execute {e : Env} {m : BitVec 32 → Byte} (hm : Memory e m) {s : Rx} {d : Decoder} (hs : Is m d s)
    (hst : s.logon.store = false) (hv : ∀ p ∈ s.deque, 2 ≤ p.length) {p : Packet} (hf : front s = some p) (now : Int) (rand : Nat) :
    (s.execute e now rand = .error .assertion ∧ now + 1000000000 ≤ s.tosTp) ∨
      Meets m s ((s.execute e now rand).map Prod.fst) (d.execute e.eastWest p) := by
  obtain ⟨hpe, rest, hdq⟩ := front_eq.mp hf
  have f := (prepare_total e s now).2
  have ht := (f.noStore hst).1
  have hp : Is m d (s.prepared e now) :=
    hs.congr ht f.mode f.indexReg f.lastOwnCvPacket f.ownEqualCvPackets f.qpom (by rw [f.addrs]) f.callbacks
      (by rw [f.addrs]) (by rw [f.addrs]) f.cfg
  unfold Decoder.execute
  cases hd : d.service with
  | true =>
    rw [if_pos rfl, execute_front e s now rand p rest hpe hdq, hs.service, hd, if_pos rfl]
    exact .inr (Meets.from (meets_pop (meets_serve hm hp hd p)) ht)
  | false =>
    rw [if_neg Bool.false_ne_true]
    have hmode : s.serviceMode = false := hs.service.trans hd
    have foreign : ¬ ForDecoder s p → (s.execute e now rand = .error .assertion ∧ now + 1000000000 ≤ s.tosTp) ∨
        Meets m s ((s.execute e now rand).map Prod.fst) (some (d, [])) := by
      intro hfd
      rw [execute_foreign e s now rand p rest hpe hdq hmode (hv p (by simp [hdq])) hfd]
      exact .inr (Meets.from (Meets.same (hp.congr rfl rfl rfl rfl rfl rfl rfl rfl rfl rfl rfl)) ht)
    cases hn : locoNumber p with
    | none => exact foreign (by rintro ⟨n, h, -⟩; rw [hn] at h; cases h)
    | some n =>
      dsimp only
      have hh := hearing_iff hs.reflects hs.logon n
      cases hx : hearing d.cvs n with
      | false =>
        rw [if_neg Bool.false_ne_true]
        refine foreign ?_
        rintro ⟨n', h, h'⟩
        rw [hn] at h
        cases h
        rw [hh.mpr h'] at hx
        cases hx
      | true =>
        rw [if_pos rfl, execute_for e s now rand n p rest hpe hdq hmode hn (hh.mp hx), target_number hs.logon]
        rcases meets_instruct hm hp hd (locoNumber_lt hn) p (afterAddress p) rand with h | h
        · rw [h.1]
          refine .inl ⟨rfl, ?_⟩
          have h2 := h.2
          obtain ⟨g1, g2⟩ := prepared_times e s now
          rw [g1, g2] at h2
          split at h2
          · omega
          · exact h2
        · refine .inr (Meets.from ?_ ht)
          cases hx : (s.prepared e now).executeInstruction e (BitVec.ofNat 16 n) p (afterAddress p) rand with
          | error f => rw [hx] at h; exact h
          | ok s2 =>
            rw [hx] at h
            exact meets_pop (x := .ok (s2, true)) h

end Dcc
