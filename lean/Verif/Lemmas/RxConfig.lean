import Verif.Lemmas.RxCvExec
import Verif.Lemmas.RxRecvCase
import Verif.Spec.Config
/-! The configuration follows a memory of CVs. -/
namespace Dcc
open Spec

/-- The event changes a memory of CVs. -/
def Event.stores : Event → Bool
  | .writeCvByte _ _ _ | .writeCvBit _ _ _ _ | .asyncWriteCvByte _ _ | .asyncWriteCvBit _ _ _ => true
  | _ => false

theorem mem_append (m : BitVec 32 → Byte) (a b : List Event) :
    mem m (a ++ b) = mem (mem m a) b := by
  induction a generalizing m with
  | nil => rfl
  | cons ev a ih => cases ev <;> exact ih _

theorem mem_quiet (m : BitVec 32 → Byte) (evs : List Event) (h : ∀ ev ∈ evs, ev.stores = false) :
    mem m evs = m := by
  induction evs with
  | nil => rfl
  | cons ev evs ih =>
    have h1 := h ev (by simp)
    have h2 := ih fun ev hev => h ev (by simp [hev])
    cases ev <;> first | exact h2 | cases h1

theorem mem_append_quiet (m : BitVec 32 → Byte) (a b : List Event)
    (h : ∀ ev ∈ b, ev.stores = false) : mem m (a ++ b) = mem m a := by
  rw [mem_append, mem_quiet _ _ h]

theorem stores_of_quiet (ev : Event) (h : ev.isQuiet = true) : ev.stores = false := by
  cases ev <;> first | rfl | cases h

theorem stores_of_loco {a : BitVec 16} (ev : Event) (h : ev.locoAddr = some a) : ev.stores = false := by
  cases ev <;> first | rfl | cases h

theorem stores_of_transmit (ev : Event) (h : ∃ bs, ev = .transmitBiDi bs) : ev.stores = false := by
  obtain ⟨bs, rfl⟩ := h; rfl

theorem stores_ack (sv m : Bool) : ∀ ev ∈ ack sv m, ev.stores = false := by
  unfold ack
  split
  · simp [Event.stores]
  · simp

theorem Answer.mem {e : Env} {m : BitVec 32 → Byte} (hm : MemoryLike e m) {tr : List Event}
    {cv : BitVec 32} {v : Byte} (h : Answer e tr cv v) : v = mem m tr cv := by
  obtain ⟨evs, h1, h2⟩ := h
  rw [h2, hm.reads, mem_append_quiet _ _ _ fun ev hev => stores_of_quiet ev (h1 ev hev)]

/-- Reflection depends on nothing else. -/
theorem Spec.Reflects.congr {c c' : BitVec 32 → Byte} {s s' : Rx} (h : Reflects c s)
    (hc : ∀ cv ∈ initCvs, c' cv = c cv) (hp : s'.addrs.primary = s.addrs.primary)
    (hk : s'.addrs.consist = s.addrs.consist) (hf : s'.cfg = s.cfg) : Reflects c' s' := by
  have h0 := hc 0#32 (by decide)
  have h14 := hc 14#32 (by decide)
  have h15 := hc 15#32 (by decide)
  have h16 := hc 16#32 (by decide)
  have h17 := hc 17#32 (by decide)
  have h18 := hc 18#32 (by decide)
  have h19 := hc 19#32 (by decide)
  have h27 := hc 27#32 (by decide)
  have h28 := hc 28#32 (by decide)
  have hb : primaryByte c' = primaryByte c := by unfold primaryByte; rw [h28, h16, h0]
  have hn : primaryNumber c' = primaryNumber c := by unfold primaryNumber; rw [hb, h17]
  constructor
  · unfold HasAddress; rw [h0, h28]; exact h.address
  · rw [hb, hp]; exact h.primaryType
  · rw [hn, hp]; exact h.primaryValue
  · rw [h28, hp]; exact h.primaryReversed
  · rw [hk]; exact h.consistType
  · rw [h18, h19, hk]; exact h.consistValue
  · rw [h18, hk]; exact h.consistReversed
  · rw [h28, hf]; exact h.f0Exception
  · rw [h14, h15, hf]; exact h.locked
  · rw [h28, h27, hf]; exact h.channel1
  · rw [h28, h27, hf]; exact h.channel2
  · rw [h28, h27, hf]; exact h.logon
  · rw [h28, h19, hf]; exact h.channel2Consist

theorem decode_class (b : Byte) (rest : List Byte) (a : Address)
    (h : decodeAddress (b :: rest) = .ok a) : HasClass b.toNat a.type ∧
      a.value.toNat = if 192 ≤ b.toNat ∧ b.toNat ≤ 231 then
        (b.toNat - 192) * 256 + (rest.headD 0#8).toNat else b.toNat := by
  have mk : ∀ lo hi t, (lo, hi, t) ∈ firstByteClass → lo ≤ b.toNat → b.toNat ≤ hi →
      HasClass b.toNat t := fun lo hi t h h1 h2 => ⟨_, h, h1, h2, rfl⟩
  have hb := b.isLt
  have hw : (b.setWidth 16).toNat = b.toNat := by simp; omega
  have e : ∀ n, n < 256 → (b ≤ BitVec.ofNat 8 n ↔ b.toNat ≤ n) := by
    intro n hn; rw [BitVec.le_def, BitVec.toNat_ofNat, Nat.mod_eq_of_lt hn]
  have e' : ∀ n, n < 256 → (b = BitVec.ofNat 8 n ↔ b.toNat = n) := by
    intro n hn
    constructor
    · rintro rfl; rw [BitVec.toNat_ofNat, Nat.mod_eq_of_lt hn]
    · intro h; apply BitVec.eq_of_toNat_eq; rw [h, BitVec.toNat_ofNat, Nat.mod_eq_of_lt hn]
  simp only [decodeAddress, e 127 (by omega), e 191 (by omega), e 231 (by omega),
    e 252 (by omega), e' 0 (by omega), e' 253 (by omega), e' 254 (by omega)] at h
  split at h
  · cases h
    exact ⟨mk 0 0 _ (by simp [firstByteClass]) (by omega) (by omega), by rw [if_neg (by omega)]; exact hw⟩
  split at h
  · cases h
    exact ⟨mk 1 127 _ (by simp [firstByteClass]) (by omega) (by omega), by rw [if_neg (by omega)]; exact hw⟩
  split at h
  · cases h
    exact ⟨mk 128 191 _ (by simp [firstByteClass]) (by omega) (by omega), by rw [if_neg (by omega)]; exact hw⟩
  split at h
  · obtain _ | ⟨c, rest⟩ := rest
    · cases h
    · cases h
      refine ⟨mk 192 231 _ (by simp [firstByteClass]) (by omega) (by omega), ?_⟩
      rw [if_pos (by omega), and3FFF_toNat, concat16_toNat, List.headD_cons]
      have := c.isLt
      omega
  split at h
  · cases h
    exact ⟨mk 232 252 _ (by simp [firstByteClass]) (by omega) (by omega), by rw [if_neg (by omega)]; exact hw⟩
  split at h
  · cases h
    exact ⟨mk 253 253 _ (by simp [firstByteClass]) (by omega) (by omega), by rw [if_neg (by omega)]; exact hw⟩
  split at h
  · cases h
    exact ⟨mk 254 254 _ (by simp [firstByteClass]) (by omega) (by omega), by rw [if_neg (by omega)]; exact hw⟩
  · cases h
    exact ⟨mk 255 255 _ (by simp [firstByteClass]) (by omega) (by omega), by rw [if_neg (by omega)]; exact hw⟩

theorem consistOf_value (a b : Byte) : (consistOf a b).value.toNat =
    100 * (b.toNat % 128) + a.toNat % 128 := by
  have h7 : ∀ b : Byte, ((b &&& 0x7F#8).setWidth 16).toNat = b.toNat % 128 := by decide +kernel
  unfold consistOf
  dsimp only
  rw [BitVec.toNat_add, BitVec.toNat_mul, h7, h7]
  simp only [BitVec.toNat_ofNat]
  omega

/-- After `init` the configuration is the one in the CVs. -/
theorem init_reflects {e : Env} {m : BitVec 32 → Byte} (hm : MemoryLike e m) {s s' : Rx}
    (h : s.init e = .ok s') : Reflects (mem m s'.trace) s' ∧ mem m s'.trace = mem m s.trace := by
  obtain ⟨cv29, prim, a, v, evs, h29, hP, hd, hv, hq, rfl⟩ := init_ok e s s' h
  have ht : mem m (initResult s cv29 a v evs).trace = mem m s.trace :=
    mem_append_quiet _ _ _ fun ev hev => stores_of_quiet ev (hq ev hev)
  refine ⟨?_, ht⟩
  rw [ht]
  have e29 := h29.mem hm
  have e19 := hv.cv19.mem hm
  have e20 := hv.cv20.mem hm
  have e15 := hv.cv15.mem hm
  have e16 := hv.cv16.mem hm
  have e28 := hv.cv28.mem hm
  have hprim : HasAddress (mem m s.trace) ∧ HasClass (primaryByte (mem m s.trace)).toNat a.type ∧
      a.value.toNat = primaryNumber (mem m s.trace) := by
    unfold PrimaryBytes at hP
    unfold primaryNumber primaryByte HasAddress
    rw [← e29]
    cases h5 : cv29.getLsbD 5
    · rw [h5, if_neg Bool.false_ne_true] at hP
      obtain ⟨x, rfl, hx⟩ := hP
      rw [if_neg Bool.false_ne_true, ← hx.mem hm]
      obtain ⟨h1, h2⟩ := decode_class _ _ _ hd
      have key : ∀ x : Byte, 192 ≤ x.toNat ∧ x.toNat ≤ 231 → decodeAddress [x] = .error .oob := by
        decide +kernel
      have hnr : ¬ (192 ≤ x.toNat ∧ x.toNat ≤ 231) := by
        intro hr
        rw [key x hr] at hd
        cases hd
      refine ⟨.inr (by omega), h1, ?_⟩
      rw [h2, if_neg hnr, if_neg hnr]
    · rw [h5, if_pos rfl] at hP
      obtain ⟨x, y, rfl, hx, hy⟩ := hP
      rw [if_pos rfl, ← hx.mem hm, ← hy.mem hm]
      exact ⟨.inl rfl, decode_class _ _ _ hd⟩
  constructor
  · exact hprim.1
  · exact hprim.2.1
  · exact hprim.2.2
  · rw [← e29]; rfl
  · rfl
  · rw [← e19, ← e20]; exact consistOf_value _ _
  · rw [← e19]; rfl
  · rw [← e29]; rfl
  · rw [← e15, ← e16]
    show (v.cv15 != v.cv16 && v.cv15 != 0#8 && v.cv16 != 0#8) = true ↔ _
    simp only [Bool.and_eq_true, bne_iff_ne]
    grind
  · rw [← e29, ← e28]; rfl
  · rw [← e29, ← e28]; rfl
  · rw [← e29, ← e28]; rfl
  · rw [← e29, ← e20]; rfl

/-- Reflection is kept. -/
structure Keeps (m : BitVec 32 → Byte) (s s' : Rx) : Prop where
  out : Reflects (mem m s.trace) s → Reflects (mem m s'.trace) s'

theorem Keeps.refl (m : BitVec 32 → Byte) (s : Rx) : Keeps m s s := ⟨id⟩

theorem Keeps.trans {m : BitVec 32 → Byte} {a b c : Rx} (h : Keeps m a b) (g : Keeps m b c) :
    Keeps m a c := ⟨fun x => g.out (h.out x)⟩

theorem Keeps.of_same {m : BitVec 32 → Byte} {s s' : Rx} (hp : s'.addrs.primary = s.addrs.primary)
    (hk : s'.addrs.consist = s.addrs.consist) (hf : s'.cfg = s.cfg)
    (ht : Adds (fun ev => ev.stores = false) s s') : Keeps m s s' := by
  refine ⟨fun h => ?_⟩
  obtain ⟨evs, h1, h2⟩ := ht
  rw [h1, mem_append_quiet _ _ _ h2]
  exact h.congr (fun _ _ => rfl) hp hk hf

theorem answerByte_same (s : Rx) (a b : Byte) : (s.answerByte a b).addrs = s.addrs ∧
    (s.answerByte a b).cfg = s.cfg := by
  unfold Rx.answerByte
  repeat' split
  all_goals exact ⟨rfl, rfl⟩

theorem answerBit_same (s : Rx) (a b : Bool) : (s.answerBit a b).addrs = s.addrs ∧
    (s.answerBit a b).cfg = s.cfg := by
  unfold Rx.answerBit
  repeat' split
  all_goals exact ⟨rfl, rfl⟩

theorem keeps_answerByte (m : BitVec 32 → Byte) (s : Rx) (a b : Byte) :
    Keeps m s (s.answerByte a b) :=
  .of_same (by rw [(answerByte_same s a b).1]) (by rw [(answerByte_same s a b).1])
    (answerByte_same s a b).2 ⟨_, answerByte_trace s a b, stores_ack _ _⟩

theorem keeps_answerBit (m : BitVec 32 → Byte) (s : Rx) (a b : Bool) :
    Keeps m s (s.answerBit a b) :=
  .of_same (by rw [(answerBit_same s a b).1]) (by rw [(answerBit_same s a b).1])
    (answerBit_same s a b).2 ⟨_, answerBit_trace s a b, stores_ack _ _⟩

theorem keeps_emit (m : BitVec 32 → Byte) (s : Rx) (ev : Event) (h : ev.stores = false) :
    Keeps m s (s.emit ev) := .of_same rfl rfl rfl (.emit s ev h)

theorem keeps_verifyByte (e : Env) (m : BitVec 32 → Byte) (s : Rx) (cv : BitVec 32) (b : Byte) :
    Post (s.cvVerifyByte e cv b) (Keeps m s) := by
  rw [cvVerifyByte_eq]
  refine Post.ok ?_
  split
  · exact .refl m s
  · unfold Rx.verifiedByte
    split
    · exact .of_same rfl rfl rfl ⟨[_], rfl, by simp [Event.stores]⟩
    · exact (keeps_emit m s _ rfl).trans (keeps_answerByte ..)

theorem keeps_verifyBit (e : Env) (m : BitVec 32 → Byte) (s : Rx) (cv : BitVec 32) (b : Bool)
    (p : BitVec 32) : Post (s.cvVerifyBit e cv b p) (Keeps m s) := by
  rw [cvVerifyBit_eq]
  refine Post.ok ?_
  split
  · exact .refl m s
  · unfold Rx.verifiedBit
    split
    · exact .of_same rfl rfl rfl ⟨[_], rfl, by simp [Event.stores]⟩
    · exact (keeps_emit m s _ rfl).trans (keeps_answerBit ..)

theorem keeps_writeByte {e : Env} {m : BitVec 32 → Byte} (hm : MemoryLike e m) (s : Rx)
    (cv : BitVec 32) (b : Byte) : Post (s.cvWriteByte e cv b) (Keeps m s) := by
  rw [cvWriteByte_eq]
  split
  · exact Post.ok (.refl m s)
  · unfold Rx.initIfNeeded
    split
    · exact ⟨fun s' h => ⟨fun _ => (init_reflects hm h).1⟩⟩
    · rename_i hcv
      refine Post.ok ⟨fun hR => ?_⟩
      have hc : ∀ c ∈ initCvs, (if c = cv then b else mem m s.trace c) = mem m s.trace c := fun c hc =>
        if_neg (fun h : c = cv => hcv (h ▸ hc))
      unfold Rx.wroteByte
      split
      · refine hR.congr (fun c h => ?_) rfl rfl rfl
        show mem m (s.trace ++ [_]) c = _
        rw [mem_append]
        exact hc c h
      · refine (keeps_answerByte m _ _ _).out ?_
        refine hR.congr (fun c h => ?_) rfl rfl rfl
        show mem m (s.trace ++ [_]) c = _
        rw [mem_append]
        exact hc c h

theorem keeps_writeBit {e : Env} {m : BitVec 32 → Byte} (hm : MemoryLike e m) (s : Rx)
    (cv : BitVec 32) (b : Bool) (p : BitVec 32) : Post (s.cvWriteBit e cv b p) (Keeps m s) := by
  rw [cvWriteBit_eq]
  split
  · exact Post.ok (.refl m s)
  · unfold Rx.initIfNeeded
    split
    · exact ⟨fun s' h => ⟨fun _ => (init_reflects hm h).1⟩⟩
    · rename_i hcv
      refine Post.ok ⟨fun hR => ?_⟩
      have hc : ∀ c ∈ initCvs, (if c = cv then setBit (mem m s.trace c) p b else mem m s.trace c) = mem m s.trace c := fun c hc =>
        if_neg (fun h : c = cv => hcv (h ▸ hc))
      unfold Rx.wroteBit
      split
      · refine hR.congr (fun c h => ?_) rfl rfl rfl
        show mem m (s.trace ++ [_]) c = _
        rw [mem_append]
        exact hc c h
      · refine (keeps_answerBit m _ _ _).out ?_
        refine hR.congr (fun c h => ?_) rfl rfl rfl
        show mem m (s.trace ++ [_]) c = _
        rw [mem_append]
        exact hc c h

theorem keeps_shortBody {e : Env} {m : BitVec 32 → Byte} (hm : MemoryLike e m) (s : Rx)
    (bs : List Byte) : Post (s.cvShortBody e bs) (Keeps m s) := by
  unfold Rx.cvShortBody
  refine Post.bind_any fun b0 => ?_
  dsimp only
  split
  · exact Post.bind_any fun b => keeps_writeByte hm ..
  split
  · exact Post.bind_any fun b => keeps_writeByte hm ..
  split
  · split
    · exact Post.ok (.refl m s)
    · refine Post.bind_any fun b1 => ?_
      refine Post.bind (keeps_writeByte hm ..) fun s1 h1 => ?_
      refine Post.bind_any fun b2 => ?_
      refine Post.bind (keeps_writeByte hm ..) fun s2 h2 => ?_
      exact (keeps_writeBit hm ..).mono fun s3 h3 => (h1.trans h2).trans h3
  split
  · split
    · exact Post.ok (.refl m s)
    · refine Post.bind_any fun b1 => ?_
      refine Post.bind (keeps_writeByte hm ..) fun s1 h1 => ?_
      refine Post.bind_any fun b2 => ?_
      exact (keeps_writeByte hm ..).mono fun s2 h2 => h1.trans h2
  · exact Post.ok (.refl m s)

theorem keeps_longBody {e : Env} {m : BitVec 32 → Byte} (hm : MemoryLike e m) (s : Rx)
    (bs : List Byte) : Post (s.cvLongBody e bs) (Keeps m s) := by
  unfold Rx.cvLongBody
  repeat' (first
    | exact keeps_verifyByte ..
    | exact keeps_verifyBit ..
    | exact keeps_writeByte hm ..
    | exact keeps_writeBit hm ..
    | exact Post.ok (.refl m s)
    | (refine Post.bind_any fun _ => ?_)
    | dsimp only
    | split)

theorem keeps_registerMode {e : Env} {m : BitVec 32 → Byte} (hm : MemoryLike e m) (s : Rx)
    (bs : List Byte) : Post (s.registerMode e bs) (Keeps m s) := by
  unfold Rx.registerMode
  refine Post.bind_any fun b0 => ?_
  dsimp only
  refine Post.bind_any fun b1 => ?_
  have key : ∀ (w : Bool) (i : BitVec 32), Post
      (if w = true then s.cvWriteByte e i b1 else s.cvVerifyByte e i b1) (Keeps m s) := by
    intro w i
    split
    · exact keeps_writeByte hm ..
    · exact keeps_verifyByte ..
  split
  · exact key _ _
  split
  · exact key _ _
  split
  · split
    · exact Post.ok (.of_same rfl rfl rfl (.of_eq rfl))
    split
    · exact Post.ok (keeps_emit m s _ rfl)
    · exact Post.ok (.refl m s)
  · exact key _ _

theorem keeps_count (m : BitVec 32 → Byte) (s : Rx) (p : Packet) :
    Keeps m s (s.countOwnEqualCvPackets p) := by
  obtain ⟨f1, f2, f3, f4⟩ := count_fields s p
  unfold Rx.countOwnEqualCvPackets
  split <;> exact .of_same rfl rfl rfl (.of_eq rfl)

theorem keeps_cvLong {e : Env} {m : BitVec 32 → Byte} (hm : MemoryLike e m) (s : Rx)
    (addr : BitVec 16) (p : Packet) (bs : List Byte) : Post (s.cvLong e addr p bs) (Keeps m s) := by
  unfold Rx.cvLong
  split
  · exact Post.ok (.refl m s)
  dsimp only
  split
  · exact Post.ok (keeps_count m s p)
  · exact (keeps_longBody hm ..).mono fun s' h => (keeps_count m s p).trans h

theorem keeps_cvShort {e : Env} {m : BitVec 32 → Byte} (hm : MemoryLike e m) (s : Rx)
    (addr : BitVec 16) (p : Packet) (bs : List Byte) : Post (s.cvShort e addr p bs) (Keeps m s) := by
  unfold Rx.cvShort
  split
  · exact Post.ok (.refl m s)
  · exact (keeps_shortBody hm ..).mono fun s' h => (keeps_count m s p).trans h

theorem keeps_instruction {e : Env} {m : BitVec 32 → Byte} (hm : MemoryLike e m) (s s' : Rx)
    (addr : BitVec 16) (p : Packet) (bs : List Byte) (rand : Nat)
    (h : s.executeInstruction e addr p bs rand = .ok s') : Keeps m s s' := by
  obtain ⟨b, hb, hi⟩ := instruction_cases e _ s' _ p _ rand h
  cases hi with
  | enter _ hb h => rw [h]; exact .of_same rfl rfl rfl ⟨[_], rfl, by simp [Event.stores]⟩
  | control hd' _ h => rw [h]; exact .refl m s
  | consist hd' h =>
    unfold Rx.consistControl at h
    simp only [bind_eq_ok] at h
    obtain ⟨x, -, y, -, h⟩ := h
    exact (keeps_writeByte hm ..).out _ h
  | drives hd' h =>
    obtain ⟨evs, mm, rfl, hq⟩ := h
    exact .of_same rfl rfl rfl ⟨evs, rfl, fun ev hev => stores_of_loco ev (hq ev hev)⟩
  | searches hd' _ _ h => obtain ⟨b, q, rfl⟩ := h; exact .of_same rfl rfl rfl (.of_eq rfl)
  | cvShort hd' h => exact (keeps_cvShort hm ..).out _ h
  | cvLong hd' h => exact (keeps_cvLong hm ..).out _ h

theorem prepared_keeps (e : Env) (m : BitVec 32 → Byte) (s : Rx) (now : Int)
    (hs : s.logon.store = false) : Keeps m s (s.prepared e now) := by
  obtain ⟨evs, h1, h2⟩ := prepared_trace e s now
  have hp := (prepare_total e s now).2
  rw [h2.none hs, List.append_nil] at h1
  exact .of_same (by rw [hp.addrs]) (by rw [hp.addrs]) hp.cfg (.of_eq h1)

theorem keeps_execute {e : Env} {m : BitVec 32 → Byte} (hm : MemoryLike e m) (s s' : Rx)
    (hr : Reachable e s) (hst : s.logon.store = false) (now : Int) (rand : Nat) (ret : Bool)
    (h : s.execute e now rand = .ok (s', ret)) : Keeps m s s' := by
  have hp := prepared_keeps e m s now hst
  have hpop : ∀ x : Rx, Keeps m x x.popFront := fun x => .of_same rfl rfl rfl (.of_eq rfl)
  cases exec_cases e s s' now rand ret hr.lengths h with
  | idle h hs _ => rw [hs]; exact .refl m s
  | foreign q rest _ hd hm' hfd hs' _ => rw [hs']; exact hp.trans (hpop _)
  | operations p rest n s2 hpe hd hm' hn' ha h hs' _ =>
    rw [hs']
    exact hp.trans ((keeps_instruction hm _ _ _ _ _ _ h).trans (hpop _))
  | service p rest s2 hpe hd hm' h hs' =>
    rw [hs']
    refine hp.trans (Keeps.trans ?_ (hpop _))
    cases (service_cases e _ s2 p ret h).1 with
    | ignored h1 hs => rw [hs]; exact .refl m _
    | leave b r hb h0 h7 hs =>
      rw [hs]; exact .of_same rfl rfl rfl ⟨[_], rfl, by simp [Event.stores]⟩
    | direct b r hb h7 hl h => exact (keeps_cvLong hm ..).out _ h
    | register b r hb h7 hl h => exact (keeps_registerMode hm ..).out _ h

/-! ### Logon packets -/

/-- Without an assignment a logon packet leaves the addresses alone and nothing to store. -/
def Unlogged (s s' : Rx) : Prop := s'.logon.assigned = false →
  s'.addrs.primary = s.addrs.primary ∧ s'.addrs.consist = s.addrs.consist ∧
    (s.logon.store = false → s'.logon.store = false) ∧
    (s.addrs.logon.value = 0#16 → s'.addrs.logon.value = 0#16)

theorem Unlogged.refl (s : Rx) : Unlogged s s := fun _ => ⟨rfl, rfl, id, id⟩

theorem unlogged_push (s : Rx) (d : List Byte) : Post (s.pushLogon d) (fun s' =>
    s'.addrs = s.addrs ∧ s'.logon = s.logon) := by
  unfold Rx.pushLogon
  split
  · exact Post.ok ⟨rfl, rfl⟩
  · exact Post.error

theorem unlogged_answer (e : Env) (s : Rx) (gg : AddressGroup) (rand : Nat) :
    Post (s.logonAnswer e gg rand) (fun s' => s'.addrs = s.addrs ∧
      s'.logon.assigned = s.logon.assigned ∧ s'.logon.store = s.logon.store) := by
  unfold Rx.logonAnswer
  split
  · exact Post.ok ⟨rfl, rfl, rfl⟩
  dsimp only
  generalize (if gg = .now then s.logon.backoff.now else s.logon.backoff).query rand = r
  split
  · exact Post.ok ⟨rfl, rfl, rfl⟩
  · exact Post.bind_any fun d => (unlogged_push _ d).mono fun s' h => ⟨h.1, by rw [h.2], by rw [h.2]⟩

theorem unlogged_enable (e : Env) (s : Rx) (gg : AddressGroup) (cid : BitVec 16) (b : Byte)
    (rand : Nat) : Post (s.logonEnable e gg cid b rand) (Unlogged s) := by
  unfold Rx.logonEnable
  split
  · exact Post.ok (.refl s)
  dsimp only
  split
  · split
    · exact Post.bind_any fun a => Post.ok fun h => by cases h
    · exact (unlogged_answer ..).mono fun s' h _ => ⟨by rw [h.1], by rw [h.1], fun _ => h.2.2, fun _ => by rw [h.1]; rfl⟩
  · exact (unlogged_answer ..).mono fun s' h _ =>
      ⟨by rw [h.1], by rw [h.1], fun hs => h.2.2.trans hs, fun hv => by rw [h.1]; exact hv⟩

theorem unlogged_logon (e : Env) (s : Rx) (a : Address) (bs : List Byte) (rand : Nat) :
    Post (s.executeAutomaticLogon e a bs rand) (Unlogged s) := by
  have hsel : ∀ did, Post (s.logonSelect did) (Unlogged s) := by
    intro did
    unfold Rx.logonSelect
    split
    · exact Post.ok (.refl s)
    · dsimp only
      exact Post.bind_any fun d => (unlogged_push _ d).mono fun s' h _ =>
        ⟨by rw [h.1], by rw [h.1], fun hs => by rw [h.2]; exact hs, fun hv => by rw [h.1]; exact hv⟩
  have has : ∀ did a o, Post (s.logonAssign did a o) (Unlogged s) := by
    intro did a o
    unfold Rx.logonAssign
    split
    · exact Post.ok (.refl s)
    · dsimp only
      exact Post.bind_any fun d => (unlogged_push _ d).mono fun s' h hn => by
        rw [h.2] at hn; cases hn
  unfold Rx.executeAutomaticLogon
  split
  · exact Post.ok (.refl s)
  refine Post.bind_any fun b0 => ?_
  dsimp only
  split
  · exact Post.bind_any fun did => hsel did
  split
  · refine Post.bind_any fun did => Post.bind_any fun b6 => ?_
    split
    · exact Post.bind_any fun x => has ..
    split
    · exact Post.ok (.refl s)
    split
    · exact Post.bind_any fun x => has ..
    · exact Post.ok (.refl s)
  split
  · exact Post.bind_any fun cid => Post.bind_any fun se => unlogged_enable ..
  · exact Post.ok (.refl s)

theorem step_keeps {e : Env} {m : BitVec 32 → Byte} (hm : MemoryLike e m) (s s' : Rx)
    (hr : Reachable e s) (hst : s.logon.store = false) (op : RxOp) (h : s.step e op = .ok s')
    (ha : s'.logon.assigned = false) : Keeps m s s' ∧ s'.logon.store = false := by
  cases op with
  | init =>
    have hf := (frame_init e s).out _ h
    exact ⟨⟨fun _ => (init_reflects hm h).1⟩, hf.store.trans hst⟩
  | enable =>
    simp only [Rx.step, Rx.enable, Except.ok.injEq] at h
    subst h
    split <;> exact ⟨.of_same rfl rfl rfl (.of_eq rfl), hst⟩
  | disable =>
    simp only [Rx.step, Rx.disable, Except.ok.injEq] at h
    subst h
    split <;> exact ⟨.of_same rfl rfl rfl (.of_eq rfl), hst⟩
  | receive t r =>
    have f := (receive_frame e s hr.recvInv.room t r).out _ h
    have ht : Adds (fun ev => ev.stores = false) s s' := f.adds.mono stores_of_quiet
    cases receive_case e s s' t r h with
    | plain l d a pc prc h => rw [h]; exact ⟨.of_same rfl rfl rfl (.of_eq rfl), hst⟩
    | logon l a s2 hp _ _ h3 hc hda hty hcrc h hs =>
      rw [hs] at ha f ht ⊢
      obtain ⟨h1, h2, h4, -⟩ := (unlogged_logon e _ a _ r).out _ h ha
      exact ⟨.of_same h1 h2 f.cfg ht, h4 hst⟩
  | execute now rand =>
    simp only [Rx.step, bind_eq_ok] at h
    obtain ⟨⟨s2, ret⟩, h, h2⟩ := h
    cases h2
    refine ⟨keeps_execute hm s s2 hr hst now rand ret h, ?_⟩
    obtain ⟨-, rfl, -⟩ | ⟨p, rest, s1, s3, -, -, -, hp, -, hf, rfl⟩ := execute_cases e s s2 now rand ret h
    · exact hst
    · exact hf.store.trans hp.stored
  | datagram ds =>
    obtain ⟨q, b, rfl⟩ := datagram_eq e s s' ds h
    exact ⟨.of_same rfl rfl rfl (.of_eq rfl), hst⟩
  | biDiChannel1 =>
    simp only [Rx.step, Except.ok.injEq] at h
    obtain ⟨q, evs, h1, h2⟩ := channel1_adds s
    rw [← h, h1]
    exact ⟨.of_same rfl rfl rfl ⟨evs, rfl, fun ev hev => stores_of_transmit ev (h2 ev hev)⟩, hst⟩
  | biDiChannel2 =>
    obtain ⟨q, evs, rfl, h2⟩ := (channel2_adds s).out _ h
    exact ⟨.of_same rfl rfl rfl ⟨evs, rfl, fun ev hev => stores_of_transmit ev (h2 ev hev)⟩, hst⟩
  | callbackByte i v =>
    simp only [Rx.step] at h
    split at h
    · rw [callbackByte_eq] at h
      cases h
      exact ⟨keeps_answerByte .., (CvFrame.answerByte ..).exec.store.trans hst⟩
    · cases h; exact ⟨.refl m s, hst⟩
  | callbackBit i v =>
    simp only [Rx.step] at h
    split at h
    · rw [callbackBit_eq] at h
      cases h
      exact ⟨keeps_answerBit .., (CvFrame.answerBit ..).exec.store.trans hst⟩
    · cases h; exact ⟨.refl m s, hst⟩

end Dcc
