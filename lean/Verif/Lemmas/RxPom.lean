import Verif.Lemmas.RxChan2
import Verif.Lemmas.RxCvExec
/-!
What happens to the answer of a CV access waiting for channel 2.
-/
namespace Dcc
open Spec

/-- The answer waiting is the one from before, or the value just returned for the access. -/
structure PomFrame (a : Access) (s s' : Rx) : Prop where
  pom : s'.q.pom = s.q.pom ∨ (s.serviceMode = false ∧
    ∃ ev ∈ newCalls s s', ∃ v, accessResult ev = some (a, v) ∧ s'.q.pom = [pomBytes v])

/-- The answer waiting is the one from before, or some value. -/
structure PomAny (s s' : Rx) : Prop where
  mode : s'.mode = s.mode
  pom : s'.q.pom = s.q.pom ∨ (s.serviceMode = false ∧ ∃ v, s'.q.pom = [pomBytes v])

theorem PomAny.refl (s : Rx) : PomAny s s := ⟨rfl, .inl rfl⟩

theorem PomAny.trans {a b c : Rx} (h : PomAny a b) (g : PomAny b c) : PomAny a c := by
  refine ⟨g.mode.trans h.mode, ?_⟩
  have hm : b.serviceMode = a.serviceMode := by unfold Rx.serviceMode; rw [h.mode]
  rcases g.pom with g | ⟨g1, v, g2⟩
  · rcases h.pom with h | ⟨h1, v, h2⟩
    · exact .inl (g.trans h)
    · exact .inr ⟨h1, v, g.trans h2⟩
  · exact .inr ⟨hm ▸ g1, v, g2⟩

theorem PomFrame.refl (a : Access) (s : Rx) : PomFrame a s s := ⟨.inl rfl⟩

theorem PomFrame.any {a : Access} {s s' : Rx} (h : PomFrame a s s') (hm : s'.mode = s.mode) :
    PomAny s s' := by
  refine ⟨hm, ?_⟩
  rcases h.pom with h | ⟨h1, _, _, v, _, h2⟩
  · exact .inl h
  · exact .inr ⟨h1, v, h2⟩

theorem answerByte_pom (s : Rx) (b v : Byte) : (s.answerByte b v).q.pom = s.q.pom ∨
    (s.serviceMode = false ∧ (s.answerByte b v).q.pom = [pomBytes v]) := by
  unfold Rx.answerByte
  cases hm : s.serviceMode
  · rw [if_neg Bool.false_ne_true]
    cases hc : s.cfg.ch2DataEnabled
    · exact .inl rfl
    · exact .inr ⟨rfl, rfl⟩
  · rw [if_pos rfl]
    left
    split <;> rfl

theorem answerBit_pom (s : Rx) (b v : Bool) : (s.answerBit b v).q.pom = s.q.pom ∨
    (s.serviceMode = false ∧ (s.answerBit b v).q.pom = [pomBytes (if v then 1#8 else 0#8)]) := by
  unfold Rx.answerBit
  cases hm : s.serviceMode
  · rw [if_neg Bool.false_ne_true]
    cases hc : s.cfg.ch2DataEnabled
    · exact .inl rfl
    · exact .inr ⟨rfl, rfl⟩
  · rw [if_pos rfl]
    left
    split <;> rfl

private theorem mem_new {s s' : Rx} {ev : Event} {rest : List Event}
    (h : s'.trace = s.trace ++ (ev :: rest)) : ev ∈ newCalls s s' := by
  rw [newCalls_append h]; exact .head _

/-- The state after a call and its answer. -/
private theorem emitted_byte (s : Rx) (ev : Event) (a : Access) (b v : Byte)
    (h : accessResult ev = some (a, v)) : PomFrame a s ((s.emit ev).answerByte b v) := by
  refine ⟨?_⟩
  rcases answerByte_pom (s.emit ev) b v with h1 | ⟨h1, h2⟩
  · exact .inl h1
  · refine .inr ⟨h1, ev, ?_, v, h, h2⟩
    refine mem_new (rest := ack (s.emit ev).serviceMode (v = b)) ?_
    rw [answerByte_trace]
    simp [Rx.emit]

private theorem emitted_bit (s : Rx) (ev : Event) (a : Access) (b v : Bool)
    (h : accessResult ev = some (a, if v then 1#8 else 0#8)) :
    PomFrame a s ((s.emit ev).answerBit b v) := by
  refine ⟨?_⟩
  rcases answerBit_pom (s.emit ev) b v with h1 | ⟨h1, h2⟩
  · exact .inl h1
  · refine .inr ⟨h1, ev, ?_, _, h, h2⟩
    refine mem_new (rest := ack (s.emit ev).serviceMode (v = b)) ?_
    rw [answerBit_trace]
    simp [Rx.emit]

theorem pom_verifyByte (e : Env) (s : Rx) (cv : BitVec 32) (b : Byte) :
    Post (s.cvVerifyByte e cv b) (PomFrame (.byte cv.toNat b) s) := by
  rw [cvVerifyByte_eq]
  refine Post.ok ?_
  split
  · exact .refl ..
  unfold Rx.verifiedByte
  split
  · exact ⟨.inl rfl⟩
  · exact emitted_byte _ _ _ _ _ rfl

theorem pom_verifyBit (e : Env) (s : Rx) (cv : BitVec 32) (b : Bool) (pos : BitVec 32) :
    Post (s.cvVerifyBit e cv b pos) (PomFrame (.bit cv.toNat b pos.toNat) s) := by
  rw [cvVerifyBit_eq]
  refine Post.ok ?_
  split
  · exact .refl ..
  unfold Rx.verifiedBit
  split
  · exact ⟨.inl rfl⟩
  · exact emitted_bit _ _ _ _ _ rfl

private theorem pom_init {a : Access} (e : Env) (s s1 : Rx) (cv : BitVec 32) (h : PomFrame a s s1)
    (hp : s.trace <+: s1.trace) : Post (s1.initIfNeeded e cv) (PomFrame a s) := by
  refine ⟨fun s' h' => ?_⟩
  unfold Rx.initIfNeeded at h'
  split at h'
  · obtain ⟨_, _, _, _, evs, _, _, _, _, hq, rfl⟩ := init_ok e s1 s' h'
    refine ⟨?_⟩
    rcases h.pom with h | ⟨h1, ev, hev, v, h2, h3⟩
    · exact .inl h
    · refine .inr ⟨h1, ev, ?_, v, h2, h3⟩
      obtain ⟨es, hes⟩ := hp
      rw [newCalls_append hes.symm] at hev
      rw [newCalls_append (s := s) (evs := es ++ evs) (by simp [initResult, ← hes])]
      exact List.mem_append_left _ hev
  · cases h'
    exact h

theorem pom_writeByte (e : Env) (s : Rx) (cv : BitVec 32) (b : Byte) :
    Post (s.cvWriteByte e cv b) (PomFrame (.byte cv.toNat b) s) := by
  rw [cvWriteByte_eq]
  split
  · exact Post.ok (.refl ..)
  refine pom_init e s _ cv ?_ (CvFrame.wroteByte e s cv b).exec.trace
  unfold Rx.wroteByte
  split
  · exact ⟨.inl rfl⟩
  · exact emitted_byte _ _ _ _ _ rfl

theorem pom_writeBit (e : Env) (s : Rx) (cv : BitVec 32) (b : Bool) (pos : BitVec 32) :
    Post (s.cvWriteBit e cv b pos) (PomFrame (.bit cv.toNat b pos.toNat) s) := by
  rw [cvWriteBit_eq]
  split
  · exact Post.ok (.refl ..)
  refine pom_init e s _ cv ?_ (CvFrame.wroteBit e s cv b pos).exec.trace
  unfold Rx.wroteBit
  split
  · exact ⟨.inl rfl⟩
  · exact emitted_bit _ _ _ _ _ rfl

theorem pom_longBody (e : Env) (s : Rx) (bs : List Byte) : Post (s.cvLongBody e bs) (fun s' =>
    s'.q.pom = s.q.pom ∨ ∃ k a, longRequest bs = some (k, a) ∧ PomFrame a s s') := by
  have hcv : ∀ b0 b1 : Byte, (cvAddrOf b0 b1).toNat = (b0.toNat % 4) * 256 + b1.toNat := by
    intro b0 b1
    have := b1.isLt
    rw [cvAddrOf_eq, BitVec.toNat_ofNat, Nat.mod_eq_of_lt (by omega)]
  have hpos : ∀ b : Byte, ((b &&& 7#8).setWidth 32).toNat = b.toNat % 8 := by
    intro b
    rw [pos_eq, BitVec.toNat_ofNat, Nat.mod_eq_of_lt (by omega)]
  have hop : ∀ b : Byte, (((b >>> 2) &&& 3#8 = 1#8) ↔ b.toNat / 4 % 4 = 1) ∧
      (((b >>> 2) &&& 3#8 = 3#8) ↔ b.toNat / 4 % 4 = 3) ∧
      (((b >>> 2) &&& 3#8 = 0#8) ↔ b.toNat / 4 % 4 = 0) := by decide +kernel
  unfold Rx.cvLongBody
  obtain _ | ⟨b0, _ | ⟨b1, rest⟩⟩ := bs
  · exact Post.error
  · exact Post.error
  simp only [byteAt, List.getElem?_cons_zero, List.getElem?_cons_succ, ok_bind]
  obtain ⟨h1, h3, h0⟩ := hop b0
  split
  · exact Post.ok (.inl rfl)
  rename_i hz
  obtain _ | ⟨b2, rest⟩ := rest
  · simp only [List.getElem?_nil, error_bind]
    repeat' split
    all_goals first | exact Post.error | exact Post.ok (.inl rfl)
  simp only [List.getElem?_cons_zero, ok_bind]
  split
  · rename_i h
    refine (pom_verifyByte ..).mono fun s' hs => .inr ⟨.verify, _, ?_, hs⟩
    rw [longRequest, hcv]
    exact if_pos (h1.mp h)
  rename_i hn1
  split
  · rename_i h
    have hr : longRequest (b0 :: b1 :: b2 :: rest) = some (.write, .byte (cvAddrOf b0 b1).toNat b2) := by
      rw [longRequest, hcv]
      exact (if_neg (fun h => hn1 (h1.mpr h))).trans (if_pos (h3.mp h))
    split
    · exact Post.ok (.inl rfl)
    split
    · exact (pom_writeByte ..).mono fun s' hs => .inr ⟨_, _, hr, hs⟩
    · exact (pom_verifyByte ..).mono fun s' hs => .inr ⟨_, _, hr, hs⟩
  rename_i hn3
  have hr : longRequest (b0 :: b1 :: b2 :: rest) = some (if b2.getLsbD 4 then .write else .verify,
      .bit (cvAddrOf b0 b1).toNat (b2.getLsbD 3) ((b2 &&& 7#8).setWidth 32 : BitVec 32).toNat) := by
    rw [longRequest, hcv, hpos]
    refine (if_neg (fun h => hn1 (h1.mpr h))).trans ((if_neg (fun h => hn3 (h3.mpr h))).trans (if_pos ?_))
    rw [h1] at hn1; rw [h3] at hn3; rw [h0] at hz
    omega
  split
  · exact (pom_verifyBit ..).mono fun s' hs => .inr ⟨_, _, hr, hs⟩
  split
  · exact (pom_writeBit ..).mono fun s' hs => .inr ⟨_, _, hr, hs⟩
  · exact Post.ok (.inl rfl)

theorem any_writeByte (e : Env) (s : Rx) (cv : BitVec 32) (b : Byte) :
    Post (s.cvWriteByte e cv b) (PomAny s) :=
  ⟨fun s' h => ((pom_writeByte e s cv b).out s' h).any ((cv_writeByte e s cv b).out s' h).mode⟩

theorem any_writeBit (e : Env) (s : Rx) (cv : BitVec 32) (b : Bool) (pos : BitVec 32) :
    Post (s.cvWriteBit e cv b pos) (PomAny s) :=
  ⟨fun s' h => ((pom_writeBit e s cv b pos).out s' h).any ((cv_writeBit e s cv b pos).out s' h).mode⟩

theorem any_verifyByte (e : Env) (s : Rx) (cv : BitVec 32) (b : Byte) :
    Post (s.cvVerifyByte e cv b) (PomAny s) :=
  ⟨fun s' h => ((pom_verifyByte e s cv b).out s' h).any ((cv_verifyByte e s cv b).out s' h).mode⟩

theorem any_shortBody (e : Env) (s : Rx) (bs : List Byte) : Post (s.cvShortBody e bs) (PomAny s) := by
  unfold Rx.cvShortBody
  refine Post.bind_any fun b0 => ?_
  dsimp only
  split
  · exact Post.bind_any fun _ => any_writeByte ..
  split
  · exact Post.bind_any fun _ => any_writeByte ..
  split
  · split
    · exact Post.ok (.refl s)
    · refine Post.bind_any fun b1 => ?_
      refine Post.bind (any_writeByte ..) fun s1 h1 => ?_
      refine Post.bind_any fun b2 => ?_
      refine Post.bind (any_writeByte ..) fun s2 h2 => ?_
      exact (any_writeBit ..).mono fun s3 h3 => (h1.trans h2).trans h3
  split
  · split
    · exact Post.ok (.refl s)
    · refine Post.bind_any fun b1 => ?_
      refine Post.bind (any_writeByte ..) fun s1 h1 => ?_
      refine Post.bind_any fun b2 => ?_
      exact (any_writeByte ..).mono fun s2 h2 => h1.trans h2
  · exact Post.ok (.refl s)

theorem any_consist (e : Env) (s : Rx) (bs : List Byte) :
    Post (s.consistControl e bs) (PomAny s) := by
  unfold Rx.consistControl
  exact Post.bind_any fun _ => Post.bind_any fun _ => any_writeByte ..

theorem any_registerMode (e : Env) (s : Rx) (bs : List Byte) :
    Post (s.registerMode e bs) (PomAny s) := by
  unfold Rx.registerMode
  refine Post.bind_any fun b0 => ?_
  dsimp only
  refine Post.bind_any fun b1 => ?_
  have key : ∀ (w : Bool) (i : BitVec 32), Post
      (if w = true then s.cvWriteByte e i b1 else s.cvVerifyByte e i b1) (PomAny s) := by
    intro w i
    split
    · exact any_writeByte ..
    · exact any_verifyByte ..
  split
  · exact key _ _
  split
  · exact key _ _
  split
  · split
    · exact Post.ok ⟨rfl, .inl rfl⟩
    split
    · exact Post.ok ⟨rfl, .inl rfl⟩
    · exact Post.ok ⟨rfl, .inl rfl⟩
  · exact key _ _

/-- The answer waiting when a CV packet has been counted. -/
def Rx.pomBase (s : Rx) (p : Packet) : List (List Byte) :=
  if p = s.lastOwnCvPacket then s.q.pom else []

theorem count_pom (s : Rx) (p : Packet) : (s.countOwnEqualCvPackets p).q.pom = s.pomBase p := by
  unfold Rx.countOwnEqualCvPackets Rx.pomBase
  by_cases h : p = s.lastOwnCvPacket
  · rw [if_pos h.symm, if_pos h]
  · rw [if_neg (Ne.symm h), if_neg h]

theorem pom_cvLong (e : Env) (s : Rx) (addr : BitVec 16) (p : Packet) (bs : List Byte) :
    Post (s.cvLong e addr p bs) (fun s' =>
      if addr ≠ 0#16 ∧ addr = s.addrs.consist.value then s'.q.pom = s.q.pom
      else s'.q.pom = s.pomBase p ∨ (s.serviceMode = false ∧ ∃ ev ∈ newCalls s s', ∃ k a v,
        longRequest bs = some (k, a) ∧ accessResult ev = some (a, v) ∧ s'.q.pom = [pomBytes v])) := by
  unfold Rx.cvLong
  split
  · exact Post.ok rfl
  dsimp only
  have hb := count_pom s p
  have hc := count_fields s p
  generalize s.countOwnEqualCvPackets p = sc at hb hc ⊢
  split
  · exact Post.ok (.inl hb)
  refine (pom_longBody e sc bs).mono fun s' h => ?_
  rcases h with h | ⟨k, a, h1, ⟨h2 | ⟨h2, ev, h3, v, h4, h5⟩⟩⟩
  · exact .inl (h.trans hb)
  · exact .inl (h2.trans hb)
  · refine .inr ⟨?_, ev, ?_, k, a, v, h1, h4, h5⟩
    · unfold Rx.serviceMode at h2 ⊢; rw [← hc.2.1]; exact h2
    · unfold newCalls at h3 ⊢; rw [← hc.1]; exact h3

theorem pom_cvShort (e : Env) (s : Rx) (addr : BitVec 16) (p : Packet) (bs : List Byte) :
    Post (s.cvShort e addr p bs) (fun s' =>
      if addr ≠ 0#16 ∧ addr = s.addrs.consist.value then s'.q.pom = s.q.pom
      else s'.q.pom = s.pomBase p ∨ (s.serviceMode = false ∧ ∃ v, s'.q.pom = [pomBytes v])) := by
  unfold Rx.cvShort
  split
  · exact Post.ok rfl
  refine (any_shortBody ..).mono fun s' h => ?_
  rcases h.pom with h | ⟨h, v, h2⟩
  · exact .inl (h.trans (count_pom s p))
  · refine .inr ⟨?_, v, h2⟩
    unfold Rx.serviceMode at h ⊢
    rw [← (count_fields s p).2.1]; exact h

theorem instructionByte_eq (p : Packet) (n : Nat) (h : locoNumber p = some n) :
    instructionByte p = (afterAddress p).head? := by
  unfold locoNumber at h
  unfold instructionByte afterAddress
  split at h
  · cases h
  rename_i b rest
  dsimp only
  by_cases h1 : b.toNat ≤ 127
  · rw [if_neg (by omega), if_pos h1, List.head?_eq_getElem?]
  · rw [if_neg h1] at h
    by_cases h2 : 192 ≤ b.toNat ∧ b.toNat ≤ 231
    · rw [if_pos (by omega), if_neg h1, List.head?_drop]
    · rw [if_neg h2] at h
      cases h

/-- What executing a packet does to the answer waiting. -/
inductive PomCase (s s' : Rx) : Prop
  | same (h : s'.q.pom = s.q.pom) (hc : ∀ p, front s = some p → cvRequest s p = false)
  | consist (p : Packet) (hf : front s = some p) (hc : consistPacket s p = true)
      (hn : cvRequest s p = false) (h : s'.q.pom = s.q.pom ∨ ∃ v, s'.q.pom = [pomBytes v])
  | cv (p : Packet) (hf : front s = some p) (hc : cvRequest s p = true)
      (h : s'.q.pom = s.pomBase p ∨ (s.serviceMode = false ∧ ∃ v, s'.q.pom = [pomBytes v] ∧
        (isLongAccess p = true → v ∈ values p (newCalls s s'))))

theorem mem_values {p : Packet} {evs : List Event} {ev : Event} {k : Kind} {a : Access} {v : Byte}
    (h : ev ∈ evs) (h1 : longRequest (afterAddress p) = some (k, a))
    (h2 : accessResult ev = some (a, v)) : v ∈ values p evs := by
  unfold values
  rw [List.mem_filterMap]
  refine ⟨ev, h, ?_⟩
  rw [h1, h2]
  dsimp only
  rw [if_pos rfl]

theorem newCalls_sub {a b c : Rx} (h : a.trace <+: b.trace) {ev : Event} (hev : ev ∈ newCalls b c) :
    ev ∈ newCalls a c := by
  unfold newCalls at *
  have := h.length_le
  have hd : c.trace.drop b.trace.length = (c.trace.drop a.trace.length).drop (b.trace.length - a.trace.length) := by
    rw [List.drop_drop]; congr 1; omega
  rw [hd] at hev
  exact List.mem_of_mem_drop hev

theorem execute_pom (e : Env) (s s' : Rx) (now : Int) (rand : Nat) (ret : Bool)
    (hv : ∀ p ∈ s.deque, 2 ≤ p.length) (h : s.execute e now rand = .ok (s', ret)) :
    PomCase s s' := by
  have f := (prepare_total e s now).2
  have hbase : ∀ p, (s.prepared e now).pomBase p = s.pomBase p := by
    intro p; unfold Rx.pomBase; rw [f.lastOwnCvPacket, f.qpom]
  have hmode : (s.prepared e now).serviceMode = s.serviceMode := (prepared_modes e s now).1
  have hcon : (s.prepared e now).addrs.consist = s.addrs.consist := by rw [f.addrs]
  cases exec_cases e s s' now rand ret hv h with
  | idle h hs _ =>
    have : front s = none := by
      unfold front
      rcases h with h | h <;> simp [h]
    exact .same (by rw [hs]) (fun p hp => by rw [this] at hp; cases hp)
  | foreign p rest hp hd hm hf hs _ =>
    have hfr : front s = some p := front_eq.mpr ⟨hp, rest, hd⟩
    refine .same (by rw [hs]; exact f.qpom) (fun q hq => ?_)
    rw [hfr] at hq
    cases hq
    unfold cvRequest
    rw [hm]
    simp only [Bool.false_eq_true, if_false]
    split
    · rfl
    · rename_i n hn
      have : ¬ (n = 0 ∨ Active s n) := fun h => hf ⟨n, hn, h⟩
      have : (decide (n = 0) || decide (Active s n)) = false := by simpa using this
      rw [this]; rfl
  | operations p rest n s2 hp hd hm hn hf h hs _ =>
    have hfr : front s = some p := front_eq.mpr ⟨hp, rest, hd⟩
    obtain ⟨b, hb, hc⟩ := instruction_cases e _ s2 _ p _ rand h
    have hq := cvRequest_operations s p n b hm hn hf hb
    have hs' : s'.q.pom = s2.q.pom := by rw [hs]; rfl
    have hst : s'.trace = s2.trace := by rw [hs]; rfl
    obtain ⟨d1, d2⟩ := decode_cv b
    have notCv : decodeInstructionByte b ≠ .cvLong → decodeInstructionByte b ≠ .cvShort →
        cvRequest s p = false := by
      intro h1 h2
      have : ¬ 224 ≤ b.toNat := by
        intro h; rw [Ne, d1] at h1; rw [Ne, d2] at h2; omega
      rw [hq, decide_eq_false this, Bool.and_false]
    have other : decodeInstructionByte b ≠ .cvLong → decodeInstructionByte b ≠ .cvShort →
        s2.q.pom = (s.prepared e now).q.pom → PomCase s s' := by
      intro h1 h2 h3
      refine .same (by rw [hs', h3, f.qpom]) (fun q hq' => ?_)
      rw [hfr] at hq'
      cases hq'
      exact notCv h1 h2
    have blocked : (target s n ≠ 0#16 ∧ target s n = s.addrs.consist.value) →
        s2.q.pom = (s.prepared e now).q.pom → PomCase s s' := by
      intro h1 h3
      refine .same (by rw [hs', h3, f.qpom]) (fun q hq' => ?_)
      rw [hfr] at hq'
      cases hq'
      rw [hq, decide_eq_true h1]; rfl
    cases hc with
    | enter ha hb h => exact other (by rw [hb]; decide) (by rw [hb]; decide) (by rw [h]; rfl)
    | control hd hb h => exact other (by rw [hd]; decide) (by rw [hd]; decide) (by rw [h])
    | consist hd h =>
      refine .consist p hfr ?_ (notCv (by rw [hd]; decide) (by rw [hd]; decide)) ?_
      · have key : ∀ b : Byte, decodeInstructionByte b = .consistControl →
            (16 ≤ b.toNat && b.toNat < 32) = true := by decide +kernel
        unfold consistPacket
        rw [hm, decide_eq_true (show ForDecoder s p from ⟨n, hn, hf⟩), hb, Option.any_some,
          show (decide (16 ≤ b.toNat) && decide (b.toNat < 32)) = true from key b hd]
        rfl
      · rcases ((any_consist e _ _).out _ h).pom with h | ⟨_, v, h⟩
        · exact .inl (by rw [hs', h, f.qpom])
        · exact .inr ⟨v, by rw [hs', h]⟩
    | drives hd h =>
      obtain ⟨evs, m, rfl, -⟩ := h
      refine other ?_ ?_ rfl
      · rcases hd with h | h | h | h | h <;> rw [h] <;> decide
      · rcases hd with h | h | h | h | h <;> rw [h] <;> decide
    | searches hd _ _ h =>
      obtain ⟨b, q, rfl⟩ := h
      exact other (by rw [hd]; decide) (by rw [hd]; decide) rfl
    | cvLong hd h =>
      have hl := (pom_cvLong e _ _ p _).out _ h
      rw [hcon, hbase, hmode] at hl
      by_cases hx : target s n ≠ 0#16 ∧ target s n = s.addrs.consist.value
      · rw [if_pos hx] at hl
        exact blocked hx hl
      · rw [if_neg hx] at hl
        refine .cv p hfr ?_ ?_
        · rw [hq, decide_eq_false hx, decide_eq_true (d1.mp hd).1]; rfl
        · rcases hl with hl | ⟨h1, ev, h2, k, a, v, h3, h4, h5⟩
          · exact .inl (hs'.trans hl)
          · refine .inr ⟨h1, v, hs'.trans h5, fun _ => mem_values (newCalls_sub f.trace ?_) h3 h4⟩
            unfold newCalls at h2 ⊢
            rw [hst]
            exact h2
    | cvShort hd h =>
      have hl := (pom_cvShort e _ _ p _).out _ h
      rw [hcon, hbase, hmode] at hl
      have hb240 := d2.mp hd
      by_cases hx : target s n ≠ 0#16 ∧ target s n = s.addrs.consist.value
      · rw [if_pos hx] at hl
        exact blocked hx hl
      · rw [if_neg hx] at hl
        refine .cv p hfr ?_ ?_
        · rw [hq, decide_eq_false hx, decide_eq_true (show 224 ≤ b.toNat by omega)]; rfl
        · rcases hl with hl | ⟨h1, v, h5⟩
          · exact .inl (hs'.trans hl)
          · refine .inr ⟨h1, v, hs'.trans h5, fun hlong => ?_⟩
            rw [isLongAccess, instructionByte_eq p n hn, hb, Option.any_some] at hlong
            simp only [Bool.and_eq_true, decide_eq_true_eq] at hlong
            omega
  | service p rest s2 hp hd hm h hs =>
    have hfr : front s = some p := front_eq.mpr ⟨hp, rest, hd⟩
    have hs' : s'.q.pom = s2.q.pom := by rw [hs]; rfl
    have hq : cvRequest s p = (decide (p.length = 4) &&
        p.head?.any (fun b => 112 ≤ b.toNat && b.toNat ≤ 127)) := by
      unfold cvRequest; rw [hm, if_pos rfl]
    have other : cvRequest s p = false → s2.q.pom = (s.prepared e now).q.pom → PomCase s s' := by
      intro h1 h3
      refine .same (by rw [hs', h3, f.qpom]) (fun q hq' => ?_)
      rw [hfr] at hq'
      cases hq'
      exact h1
    cases (service_cases e _ s2 p ret h).1 with
    | ignored h1 hs =>
      refine other ?_ (by rw [hs])
      rw [hq]
      rcases h1 with ⟨rest, rfl⟩ | ⟨b, rest, rfl, -, -, h1⟩
      · simp
      · rw [decide_eq_false h1]; rfl
    | leave b rest hb h0 h7 hs =>
      refine other ?_ (by rw [hs]; rfl)
      rw [Ne, nibble7] at h7
      rw [hq, hb]
      simp only [List.head?_cons, Option.any_some, Bool.and_eq_false_iff, decide_eq_false_iff_not]
      omega
    | register b rest hb h7 hl h =>
      refine other (by rw [hq]; simp [hl]) ?_
      rcases ((any_registerMode e _ p).out _ h).pom with h | ⟨h1, _⟩
      · exact h
      · rw [hmode, hm] at h1; cases h1
    | direct b rest hb h7 hl h =>
      have hc := (pom_cvLong e _ _ p _).out _ h
      rw [if_neg (by simp), hbase, hmode, hm] at hc
      rw [nibble7] at h7
      have : cvRequest s p = true := by
        rw [hq, decide_eq_true hl, hb]
        simp [h7]
      refine .cv p hfr this ?_
      rcases hc with hc | ⟨h1, _⟩
      · exact .inl (hs'.trans hc)
      · cases h1

end Dcc
