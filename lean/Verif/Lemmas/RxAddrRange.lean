import Verif.Lemmas.RxConfig
import Verif.Lemmas.RxDrive
/-!
The range of the addresses a decoder has: primary and assigned addresses are below 10240.
-/
namespace Dcc
open Spec

/-- The addresses are in range. -/
structure Ranged (s : Rx) : Prop where
  primary : s.addrs.primary.value.toNat < 10240
  logon : s.addrs.logon.value.toNat < 10240

/-- A step leads to no address out of range. -/
structure Within (s s' : Rx) : Prop where
  out : Ranged s → Ranged s'

theorem Within.refl (s : Rx) : Within s s := ⟨id⟩

theorem Within.trans {a b c : Rx} (h : Within a b) (g : Within b c) : Within a c := ⟨fun x => g.out (h.out x)⟩

theorem Within.of_same {s s' : Rx} (h : s'.addrs = s.addrs) : Within s s' :=
  ⟨fun r => ⟨by rw [h]; exact r.primary, by rw [h]; exact r.logon⟩⟩

theorem decode_range (bs : List Byte) (a : Address) (h : decodeAddress bs = .ok a) : a.value.toNat < 10240 := by
  have small : ∀ b : Byte, (b.setWidth 16).toNat < 10240 := by
    intro b; rw [BitVec.toNat_setWidth]; omega
  unfold decodeAddress at h
  split at h
  · cases h
  repeat' split at h
  all_goals cases h
  all_goals first
    | exact small _
    | (rename_i h3 h4 _ c _
       simp only [BitVec.le_def, BitVec.toNat_ofNat] at h3 h4
       rw [and3FFF_toNat, concat16_toNat]
       have := c.isLt
       omega)

theorem within_init (e : Env) (s : Rx) : Post (s.init e) (Within s) := by
  refine ⟨fun s' h => ⟨fun r => ?_⟩⟩
  obtain ⟨cv29, prim, a, v, evs, -, -, hd, -, -, rfl⟩ := init_ok e s s' h
  exact ⟨decode_range prim a hd, r.logon⟩

theorem within_answerByte (s : Rx) (a b : Byte) : Within s (s.answerByte a b) := .of_same (answerByte_same s a b).1

theorem within_answerBit (s : Rx) (a b : Bool) : Within s (s.answerBit a b) := .of_same (answerBit_same s a b).1

theorem within_emit (s : Rx) (ev : Event) : Within s (s.emit ev) := .of_same rfl

theorem within_verifyByte (e : Env) (s : Rx) (cv : BitVec 32) (b : Byte) :
    Post (s.cvVerifyByte e cv b) (Within s) := by
  rw [cvVerifyByte_eq]
  refine Post.ok ?_
  split
  · exact .refl s
  · unfold Rx.verifiedByte
    split
    · exact .of_same rfl
    · exact (within_emit s _).trans (within_answerByte ..)

theorem within_verifyBit (e : Env) (s : Rx) (cv : BitVec 32) (b : Bool)
    (p : BitVec 32) : Post (s.cvVerifyBit e cv b p) (Within s) := by
  rw [cvVerifyBit_eq]
  refine Post.ok ?_
  split
  · exact .refl s
  · unfold Rx.verifiedBit
    split
    · exact .of_same rfl
    · exact (within_emit s _).trans (within_answerBit ..)

theorem within_writeByte (e : Env) (s : Rx) (cv : BitVec 32) (b : Byte) :
    Post (s.cvWriteByte e cv b) (Within s) := by
  rw [cvWriteByte_eq]
  split
  · exact Post.ok (.refl s)
  · have hw : Within s (s.wroteByte e cv b) := by
      unfold Rx.wroteByte
      split
      · exact .of_same rfl
      · exact (within_emit s _).trans (within_answerByte ..)
    unfold Rx.initIfNeeded
    split
    · exact (within_init e _).mono fun s' h => hw.trans h
    · exact Post.ok hw

theorem within_writeBit (e : Env) (s : Rx) (cv : BitVec 32) (b : Bool) (p : BitVec 32) :
    Post (s.cvWriteBit e cv b p) (Within s) := by
  rw [cvWriteBit_eq]
  split
  · exact Post.ok (.refl s)
  · have hw : Within s (s.wroteBit e cv b p) := by
      unfold Rx.wroteBit
      split
      · exact .of_same rfl
      · exact (within_emit s _).trans (within_answerBit ..)
    unfold Rx.initIfNeeded
    split
    · exact (within_init e _).mono fun s' h => hw.trans h
    · exact Post.ok hw

theorem within_shortBody (e : Env) (s : Rx)
    (bs : List Byte) : Post (s.cvShortBody e bs) (Within s) := by
  unfold Rx.cvShortBody
  refine Post.bind_any fun b0 => ?_
  dsimp only
  split
  · exact Post.bind_any fun b => within_writeByte ..
  split
  · exact Post.bind_any fun b => within_writeByte ..
  split
  · split
    · exact Post.ok (.refl s)
    · refine Post.bind_any fun b1 => ?_
      refine Post.bind (within_writeByte ..) fun s1 h1 => ?_
      refine Post.bind_any fun b2 => ?_
      refine Post.bind (within_writeByte ..) fun s2 h2 => ?_
      exact (within_writeBit ..).mono fun s3 h3 => (h1.trans h2).trans h3
  split
  · split
    · exact Post.ok (.refl s)
    · refine Post.bind_any fun b1 => ?_
      refine Post.bind (within_writeByte ..) fun s1 h1 => ?_
      refine Post.bind_any fun b2 => ?_
      exact (within_writeByte ..).mono fun s2 h2 => h1.trans h2
  · exact Post.ok (.refl s)

theorem within_longBody (e : Env) (s : Rx)
    (bs : List Byte) : Post (s.cvLongBody e bs) (Within s) := by
  unfold Rx.cvLongBody
  repeat' (first
    | exact within_verifyByte ..
    | exact within_verifyBit ..
    | exact within_writeByte ..
    | exact within_writeBit ..
    | exact Post.ok (.refl s)
    | (refine Post.bind_any fun _ => ?_)
    | dsimp only
    | split)

theorem within_registerMode (e : Env) (s : Rx)
    (bs : List Byte) : Post (s.registerMode e bs) (Within s) := by
  unfold Rx.registerMode
  refine Post.bind_any fun b0 => ?_
  dsimp only
  refine Post.bind_any fun b1 => ?_
  have key : ∀ (w : Bool) (i : BitVec 32), Post
      (if w = true then s.cvWriteByte e i b1 else s.cvVerifyByte e i b1) (Within s) := by
    intro w i
    split
    · exact within_writeByte ..
    · exact within_verifyByte ..
  split
  · exact key _ _
  split
  · exact key _ _
  split
  · split
    · exact Post.ok (.of_same rfl)
    split
    · exact Post.ok (within_emit s _)
    · exact Post.ok (.refl s)
  · exact key _ _

theorem within_count (s : Rx) (p : Packet) :
    Within s (s.countOwnEqualCvPackets p) := by
  obtain ⟨f1, f2, f3, f4⟩ := count_fields s p
  unfold Rx.countOwnEqualCvPackets
  split <;> exact .of_same rfl

theorem within_cvLong (e : Env) (s : Rx)
    (addr : BitVec 16) (p : Packet) (bs : List Byte) : Post (s.cvLong e addr p bs) (Within s) := by
  unfold Rx.cvLong
  split
  · exact Post.ok (.refl s)
  dsimp only
  split
  · exact Post.ok (within_count s p)
  · exact (within_longBody ..).mono fun s' h => (within_count s p).trans h

theorem within_cvShort (e : Env) (s : Rx)
    (addr : BitVec 16) (p : Packet) (bs : List Byte) : Post (s.cvShort e addr p bs) (Within s) := by
  unfold Rx.cvShort
  split
  · exact Post.ok (.refl s)
  · exact (within_shortBody ..).mono fun s' h => (within_count s p).trans h

theorem within_instruction (e : Env) (s s' : Rx)
    (addr : BitVec 16) (p : Packet) (bs : List Byte) (rand : Nat)
    (h : s.executeInstruction e addr p bs rand = .ok s') : Within s s' := by
  obtain ⟨b, hb, hi⟩ := instruction_cases e _ s' _ p _ rand h
  cases hi with
  | enter _ hb h => rw [h]; exact .of_same rfl
  | control hd' _ h => rw [h]; exact .refl s
  | consist hd' h =>
    unfold Rx.consistControl at h
    simp only [bind_eq_ok] at h
    obtain ⟨x, -, y, -, h⟩ := h
    exact (within_writeByte ..).out _ h
  | drives hd' h =>
    obtain ⟨evs, mm, rfl, hq⟩ := h
    exact .of_same rfl
  | searches hd' _ _ h => obtain ⟨b, q, rfl⟩ := h; exact .of_same rfl
  | cvShort hd' h => exact (within_cvShort ..).out _ h
  | cvLong hd' h => exact (within_cvLong ..).out _ h

theorem within_execute (e : Env) (s s' : Rx) (hr : Reachable e s) (now : Int) (rand : Nat) (ret : Bool)
    (h : s.execute e now rand = .ok (s', ret)) : Within s s' := by
  have hp : Within s (s.prepared e now) := .of_same (prepare_total e s now).2.addrs
  have hpop : ∀ x : Rx, Within x x.popFront := fun x => .of_same rfl
  cases exec_cases e s s' now rand ret hr.lengths h with
  | idle h hs _ => rw [hs]; exact .refl s
  | foreign q rest _ hd hm' hfd hs' _ => rw [hs']; exact hp.trans (hpop _)
  | operations p rest n s2 hpe hd hm' hn' ha h hs' _ =>
    rw [hs']
    exact hp.trans ((within_instruction e _ _ _ _ _ _ h).trans (hpop _))
  | service p rest s2 hpe hd hm' h hs' =>
    rw [hs']
    refine hp.trans (Within.trans ?_ (hpop _))
    cases (service_cases e _ s2 p ret h).1 with
    | ignored h1 hs => rw [hs]; exact .refl _
    | leave b r hb h0 h7 hs => rw [hs]; exact .of_same rfl
    | direct b r hb h7 hl h => exact (within_cvLong e ..).out _ h
    | register b r hb h7 hl h => exact (within_registerMode e ..).out _ h

theorem within_logon (e : Env) (s : Rx) (a : Address) (bs : List Byte) (rand : Nat) :
    Post (s.executeAutomaticLogon e a bs rand) (Within s) := by
  have hsel : ∀ did, Post (s.logonSelect did) (Within s) := by
    intro did
    unfold Rx.logonSelect
    split
    · exact Post.ok (.refl s)
    · dsimp only
      exact Post.bind_any fun d => (unlogged_push _ d).mono fun s' h => .of_same h.1
  have has : ∀ did bs o, Post (decodeAddress bs >>= fun a => s.logonAssign did a o) (Within s) := by
    intro did bs o
    refine ⟨fun s' h => ?_⟩
    rw [bind_eq_ok] at h
    obtain ⟨a, ha, h⟩ := h
    revert h
    suffices Post (s.logonAssign did a o) (Within s) from this.out s'
    unfold Rx.logonAssign
    split
    · exact Post.ok (.refl s)
    · dsimp only
      refine Post.bind_any fun d => (unlogged_push _ d).mono fun s' h => ⟨fun r => ?_⟩
      have hb := decode_range _ _ ha
      constructor
      · rw [h.1]
        show BitVec.toNat (Address.value (if _ then _ else _)) < _
        split
        · exact hb
        · exact r.primary
      · rw [h.1]; exact hb
  unfold Rx.executeAutomaticLogon
  split
  · exact Post.ok (.refl s)
  refine Post.bind_any fun b0 => ?_
  dsimp only
  split
  · exact Post.bind_any fun did => hsel did
  split
  · refine Post.bind_any fun did => Post.bind_any fun b6 => ?_
    split
    · exact has ..
    split
    · exact Post.ok (.refl s)
    split
    · exact has ..
    · exact Post.ok (.refl s)
  split
  · refine Post.bind_any fun cid => Post.bind_any fun se => ?_
    unfold Rx.logonEnable
    split
    · exact Post.ok (.refl s)
    dsimp only
    split
    · split
      · refine ⟨fun s' h => ⟨fun r => ?_⟩⟩
        rw [bind_eq_ok] at h
        obtain ⟨a, ha, h⟩ := h
        cases h
        exact ⟨r.primary, decode_range _ _ ha⟩
      · refine (unlogged_answer ..).mono fun s' h => ⟨fun r => ?_⟩
        exact ⟨by rw [h.1]; exact r.primary, by rw [h.1]; show 0 < 10240; decide⟩
    · exact (unlogged_answer ..).mono fun s' h => .of_same h.1
  · exact Post.ok (.refl s)

theorem step_within (e : Env) (s s' : Rx) (hr : Reachable e s) (op : RxOp) (h : s.step e op = .ok s') :
    Within s s' := by
  cases op with
  | init => exact (within_init e s).out _ h
  | enable =>
    simp only [Rx.step, Rx.enable, Except.ok.injEq] at h
    subst h
    split <;> exact .of_same rfl
  | disable =>
    simp only [Rx.step, Rx.disable, Except.ok.injEq] at h
    subst h
    split <;> exact .of_same rfl
  | receive t r =>
    cases receive_case e s s' t r h with
    | plain l d a pc prc h => rw [h]; exact ⟨fun r => ⟨r.primary, r.logon⟩⟩
    | logon l a s2 hp _ _ h3 hc hda hty hcrc h hs =>
      rw [hs]
      have h1 : Within s (s.atLogon l a) := ⟨fun r => ⟨r.primary, r.logon⟩⟩
      exact (h1.trans ((within_logon e _ a _ r).out _ h)).trans (.of_same rfl)
  | execute now rand =>
    simp only [Rx.step, bind_eq_ok] at h
    obtain ⟨⟨s2, ret⟩, h, h2⟩ := h
    cases h2
    exact within_execute e s s2 hr now rand ret h
  | datagram ds =>
    obtain ⟨q, b, rfl⟩ := datagram_eq e s s' ds h
    exact .of_same rfl
  | biDiChannel1 =>
    simp only [Rx.step, Except.ok.injEq] at h
    obtain ⟨q, evs, h1, h2⟩ := channel1_adds s
    rw [← h, h1]
    exact .of_same rfl
  | biDiChannel2 =>
    obtain ⟨q, evs, rfl, h2⟩ := (channel2_adds s).out _ h
    exact .of_same rfl
  | callbackByte i v =>
    simp only [Rx.step] at h
    split at h
    · rw [callbackByte_eq] at h
      cases h
      exact within_answerByte ..
    · cases h; exact .refl s
  | callbackBit i v =>
    simp only [Rx.step] at h
    split at h
    · rw [callbackBit_eq] at h
      cases h
      exact within_answerBit ..
    · cases h; exact .refl s

/-- In every history all addresses are in range. -/
theorem Reachable.ranged {e : Env} {s : Rx} (hr : Reachable e s) : Ranged s := by
  induction hr with
  | start => exact ⟨by decide, by decide⟩
  | step op hr h ih => exact (step_within e _ _ hr op h).out ih

end Dcc
