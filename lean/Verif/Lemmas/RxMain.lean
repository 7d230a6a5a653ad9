import Verif.Lemmas.RxPomExact
import Verif.Lemmas.RxProgramming
import Verif.Lemmas.RxChan2
import Verif.Lemmas.RxDrive
import Verif.Spec.Main
/-! A decoder that is programmed on the main. -/
namespace Dcc
open Spec

/-- The state agrees with the device. -/
structure Holds (m : BitVec 32 → Byte) (d : MainDevice) (s : Rx) : Prop where
  cvs : mem m s.trace = d.cvs
  count : s.cvCount = (d.last, d.count)
  pom : s.q.pom = d.waiting.toList.map pomBytes

private theorem consist_byte : ∀ b : Byte, decodeInstructionByte b = .consistControl →
    16 ≤ b.toNat ∧ b.toNat < 32 := by decide +kernel

private theorem class_loco {b : Nat} {t : AddrType} (h : HasClass b t) :
    t.isLoco = true ↔ 1 ≤ b ∧ b ≤ 127 ∨ 192 ≤ b ∧ b ≤ 231 := by
  obtain ⟨c, h1, h2, h3, rfl⟩ := h
  simp only [firstByteClass, List.mem_cons, List.not_mem_nil, or_false] at h1
  rcases h1 with rfl | rfl | rfl | rfl | rfl | rfl | rfl | rfl <;>
    simp only [AddrType.isLoco] at h2 h3 ⊢ <;> simp <;> omega

theorem locoNumber_lt {p : Packet} {n : Nat} (h : locoNumber p = some n) : n < 10240 := by
  unfold locoNumber at h
  split at h
  · cases h
  · split at h
    · cases h; omega
    · split at h
      · rename_i b rest _ h2
        cases hr : rest.head? with
        | none => rw [hr] at h; cases h
        | some c =>
          rw [hr] at h
          simp only [Option.map_some, Option.some.injEq] at h
          have := c.isLt
          omega
      · cases h

/-- The numbers a decoder that did not log on listens to. -/
theorem active_cvs {c : BitVec 32 → Byte} {s : Rx} (hr : Reflects c s) (hl : s.addrs.logon.value = 0#16)
    (n : Nat) : Active s n ↔ ownNumber c = some n ∨ n = consistNumber c := by
  unfold Active
  rw [if_pos hl, hr.consistType, hr.consistValue, class_loco hr.primaryType, hr.primaryValue]
  unfold ownNumber
  dsimp only
  have hlong : AddrType.isLoco .long = true := rfl
  simp only [hlong, true_and]
  split
  · rename_i h
    rw [and_iff_right h, Option.some.injEq, eq_comm (a := n)]
    rfl
  · rename_i h
    simp only [h, false_and, reduceCtorEq, false_or]
    rfl

/-- The packets a decoder counts. -/
theorem cvRequest_main {c : BitVec 32 → Byte} {s : Rx} (hr : Reflects c s) (hl : s.addrs.logon.value = 0#16)
    (hm : s.serviceMode = false) {p : Packet} (hon : OnMain p) : cvRequest s p = pomFor c p := by
  unfold cvRequest pomFor
  rw [hm, if_neg Bool.false_ne_true]
  cases hn : locoNumber p with
  | none => rfl
  | some n =>
    dsimp only
    have hn' := locoNumber_lt hn
    have ht : target s n = BitVec.ofNat 16 n := by unfold target; rw [if_pos (.inr hl)]
    have hz : (BitVec.ofNat 16 n = 0#16) ↔ n = 0 := by
      rw [← BitVec.toNat_inj, BitVec.toNat_ofNat, Nat.mod_eq_of_lt (by omega)]; rfl
    have hk : (BitVec.ofNat 16 n = s.addrs.consist.value) ↔ n = consistNumber c := by
      rw [← BitVec.toNat_inj, BitVec.toNat_ofNat, Nat.mod_eq_of_lt (by omega), hr.consistValue]; rfl
    have hb : (afterAddress p).head?.any (fun b => decide (224 ≤ b.toNat)) = isLongAccess p := by
      unfold isLongAccess
      rw [instructionByte_eq p n hn]
      cases hh : (afterAddress p).head? with
      | none => rfl
      | some b =>
        have := (hon n hn b hh).2.2.1
        simp [this]
    rw [hb, ht]
    congr 1
    have ha := active_cvs hr hl n
    rw [Bool.eq_iff_iff]
    simp only [Bool.and_eq_true, Bool.or_eq_true, decide_eq_true_eq, Bool.not_eq_true', decide_eq_false_iff_not,
      Bool.and_eq_false_iff, ha, ne_eq, hz, hk]
    grind

theorem memory_result {e : Env} {m : BitVec 32 → Byte} (hm : Memory e m) (tr : List Event) (k : Kind)
    (a : Access) (ha : a.Legal) : resultOf e tr k a = valueIn (stored (mem m tr) k a) a := by
  have hp : ∀ pos : Nat, pos < 8 → (BitVec.ofNat 32 pos).toNat = pos := by
    intro pos h; rw [BitVec.toNat_ofNat, Nat.mod_eq_of_lt (by omega)]
  have hset : ∀ (v : Byte) (pos : Fin 8) (b : Bool), (setBit v (BitVec.ofNat 32 pos) b).getLsbD pos = b := by
    decide +kernel
  cases a with
  | byte cv b =>
    cases k with
    | verify => exact hm.readByte ..
    | write => simp [resultOf, hm.writeByte, valueIn, stored, applyWrite]
  | bit cv b pos =>
    obtain ⟨-, hpos⟩ : cv < 1024 ∧ pos < 8 := ha
    cases k with
    | verify => simp only [resultOf, hm.readBit, hp pos hpos]; rfl
    | write =>
      have := hset (mem m tr (BitVec.ofNat 32 cv)) ⟨pos, hpos⟩ b
      dsimp only at this
      simp [resultOf, hm.writeBit, valueIn, stored, applyWrite, this]

theorem memory_stored (e : Env) (m : BitVec 32 → Byte) (tr : List Event) (k : Kind) (a : Access) :
    mem (mem m tr) (accessCalls e tr false k a) = stored (mem m tr) k a := by
  cases k with
  | write => exact mem_accessCalls e tr false a (mem m tr)
  | verify =>
    refine mem_quiet _ _ fun ev hev => ?_
    cases a <;> simp only [accessCalls, ack] at hev <;> split at hev <;> simp at hev <;> subst hev <;> rfl

private theorem not_cv : ∀ b : Byte, decodeInstructionByte b = .decoderControl ∨
    (decodeInstructionByte b = .advancedOperations ∨ decodeInstructionByte b = .speedDirection ∨
      decodeInstructionByte b = .functionGroup ∨ b = 0xDE#8 ∨ b = 0xDF#8) ∨
    decodeInstructionByte b = .featureExpansion → b.toNat < 224 := by decide +kernel

/-- Executing a packet on the main. -/
theorem main_execute {e : Env} {m : BitVec 32 → Byte} (hm : Memory e m) {s s' : Rx} {now : Int} {rand : Nat}
    {ret : Bool} (hr : Reachable e s) (hs : Settled m s) (hmode : s.serviceMode = false) {p : Packet}
    (hf : front s = some p) (hon : OnMain p) (h : s.execute e now rand = .ok (s', ret)) {d : MainDevice}
    (hd : Holds m d s) : Holds m (d.execute p) s' ∧ s'.serviceMode = false := by
  have hv := hr.lengths
  have hex := h
  have hcount := execute_count e s s' now rand ret hv h
  rw [hf] at hcount
  obtain ⟨stores, ht, hls⟩ := prepared_trace e s now
  rw [hls.none hs.store, List.append_nil] at ht
  obtain ⟨m1, m2, m3⟩ := prepared_modes e s now
  have f := (prepare_total e s now).2
  have hreq := cvRequest_main hs.reflects hs.address hmode hon
  rw [hd.cvs] at hreq
  -- nothing happens to CVs and answer
  have plain : pomFor d.cvs p = false → Adds (fun ev => ev.stores = false) s s' → s'.q.pom = s.q.pom →
      s'.mode = s.mode → Holds m (d.execute p) s' ∧ s'.serviceMode = false := by
    rintro h1 ⟨evs, h2, h3⟩ h4 h5
    have : d.execute p = d := by unfold MainDevice.execute; rw [h1, if_neg Bool.false_ne_true]
    rw [this]
    refine ⟨⟨?_, ?_, by rw [h4]; exact hd.pom⟩, ?_⟩
    · rw [h2, mem_append_quiet _ _ _ h3]; exact hd.cvs
    · rw [hcount]; simp [hreq, h1, hd.count]
    · unfold Rx.serviceMode at hmode ⊢; rw [h5]; exact hmode
  obtain ⟨hpe, rest, hdq⟩ := front_eq.mp hf
  cases exec_cases e s s' now rand ret hv h with
  | idle h _ _ => rcases h with h | h <;> simp_all
  | foreign q rest hp hdq' hm' hfd hs' _ =>
    rw [hdq] at hdq'; cases hdq'
    refine plain ?_ ?_ ?_ ?_
    · rw [← hreq]
      unfold cvRequest
      rw [if_neg (by simp [hmode])]
      cases hn : locoNumber p with
      | none => rfl
      | some n =>
        have h1 : ¬ (n = 0 ∨ Active s n) := fun h => hfd ⟨_, hn, h⟩
        simp only [not_or] at h1
        simp [h1]
    · rw [hs']; exact ⟨[], by rw [List.append_nil]; exact ht, by simp⟩
    · rw [hs']; exact f.qpom
    · rw [hs']; exact f.mode
  | service q rest s2 hp hdq' hm' h hs' => rw [hmode] at hm'; cases hm'
  | operations q rest n s2 hp hdq' hm' hn ha h hs' _ =>
    rw [hdq] at hdq'; cases hdq'
    obtain ⟨b, hb, hi⟩ := instruction_cases e _ s2 _ _ _ rand h
    obtain ⟨o1, o2, o3, o4⟩ := hon n hn b hb
    have hco := cvRequest_operations s p n b hmode hn ha hb
    have notCv : b.toNat < 224 → pomFor d.cvs p = false := by
      intro hlt
      rw [← hreq, hco]
      simp
      omega
    cases hi with
    | enter ha0 hb0 _ =>
      exfalso
      refine o1 ⟨?_, hb0⟩
      have hn' := locoNumber_lt hn
      unfold target at ha0
      rw [if_pos (.inr hs.address), ← BitVec.toNat_inj, BitVec.toNat_ofNat, Nat.mod_eq_of_lt (by omega)] at ha0
      exact ha0
    | control hc _ h2 =>
      refine plain (notCv ?_) ?_ ?_ ?_
      · exact not_cv b (.inl hc)
      · rw [hs', h2]; exact ⟨[], by rw [List.append_nil]; exact ht, by simp⟩
      · rw [hs', h2]; exact f.qpom
      · rw [hs', h2]; exact f.mode
    | consist hc _ => exact absurd (consist_byte b hc) o2
    | drives hc h2 =>
      obtain ⟨evs, mn, h2, h3⟩ := h2
      refine plain (notCv ?_) ?_ ?_ ?_
      · exact not_cv b (.inr (.inl hc))
      · rw [hs', h2]
        exact ⟨evs, by simp [Rx.popFront, ht], fun ev hev => stores_of_loco ev (h3 ev hev)⟩
      · rw [hs', h2]; exact f.qpom
      · rw [hs', h2]; exact f.mode
    | searches hc _ _ h2 =>
      obtain ⟨bo, q, h2⟩ := h2
      refine plain (notCv ?_) ?_ ?_ ?_
      · exact not_cv b (.inr (.inr hc))
      · rw [hs', h2]; exact ⟨[], by rw [List.append_nil]; exact ht, by simp⟩
      · rw [hs', h2]; exact f.qpom
      · rw [hs', h2]; exact f.mode
    | cvShort hc _ => exact absurd ((decode_cv b).2.mp hc) (by omega)
    | cvLong hc h2 =>
      obtain ⟨g1, g2⟩ := (decode_cv b).1.mp hc
      have hlen := o4 g1
      have hmd : s'.serviceMode = false := by
        have := ((cvLong_exec e _ _ _ _).out _ h2).2
        unfold Rx.serviceMode at hmode ⊢
        rw [hs']
        show decide (s2.mode = _) = _
        rw [this, f.mode]
        exact hmode
      cases hq : pomFor d.cvs p with
      | false =>
        rw [hq, hco] at hreq
        simp only [g1, decide_true, Bool.and_true, Bool.not_eq_false', decide_eq_true_eq] at hreq
        unfold Rx.cvLong at h2
        rw [if_pos (by rw [m3]; exact hreq)] at h2
        cases h2
        refine plain hq ?_ ?_ ?_
        · rw [hs']; exact ⟨[], by rw [List.append_nil]; exact ht, by simp⟩
        · rw [hs']; exact f.qpom
        · rw [hs']; exact f.mode
      | true =>
        refine ⟨?_, hmd⟩
        rw [hq] at hreq
        have hl : ∀ b, (afterAddress p).head? = some b → b.toNat < 240 := by
          intro b' hb'; rw [hb] at hb'; cases hb'; exact o3
        obtain ⟨ss, quiet, a1, a2, a3, -⟩ := execute_cvLong e s s' now rand ret p hv hmode hf hreq hl hlen hex
        rw [a1.none hs.store, List.append_nil] at a3
        obtain ⟨s3, addr, ha', h3, -, hpom⟩ := execute_isLong e s s' now rand ret p hv hmode hf hreq hl hex
        have hpom := hpom.trans ((pomx_cvLong e _ addr p _ (m1.trans hmode) ha').out _ h3)
        have hbase : (s.prepared e now).pomBase p = (if d.last = p then d.waiting else none).toList.map pomBytes := by
          unfold Rx.pomBase
          have : s.lastOwnCvPacket = d.last := congrArg Prod.fst hd.count
          rw [f.lastOwnCvPacket, f.qpom, this, hd.pom]
          by_cases hdp : d.last = p
          · rw [if_pos hdp.symm, if_pos hdp]
          · rw [if_neg (Ne.symm hdp), if_neg hdp]; rfl
        have hcp : countPacket s.cvCount p = (p, if d.last = p then d.count + 1 else 1) := by
          rw [hd.count]
          unfold countPacket
          dsimp only
          split
          · rename_i hdp; rw [hdp]
          · rfl
        simp only [Option.toList_some, List.filter_cons, hreq, if_true, List.filter_nil, List.foldl_cons,
          List.foldl_nil, hcp] at hcount
        rw [prepared_cvCount, hcp, hbase, ht] at hpom
        rw [hcp] at a3
        have hlk : s.cfg.cvsLocked = locks d.cvs := by rw [reflects_locks hs.reflects, hd.cvs]
        have hans : s.cfg.ch2DataEnabled = answering d.cvs := by rw [hs.reflects.channel2, hd.cvs]; rfl
        have hcvs : mem m s'.trace = mem d.cvs (actionCalls e s.trace false (locks d.cvs)
            (longAction (if d.last = p then d.count + 1 else 1) (afterAddress p))) := by
          rw [a3, mem_append_quiet _ _ _ fun ev hev => stores_of_quiet ev (a2 ev hev), mem_append, hd.cvs, hlk]
        unfold MainDevice.execute
        rw [hq, if_pos rfl]
        dsimp only
        split
        · rename_i hla
          rw [hla] at hcvs hpom
          exact ⟨hcvs, hcount, hpom⟩
        · rename_i k a hla
          rw [hla] at hcvs hpom
          obtain ⟨-, -, l1, l2⟩ := longAction_request hla
          have hleg : a.Legal := by
            cases a with
            | byte cv b => exact l1
            | bit cv b pos => exact ⟨l1, l2 _ _ _ rfl⟩
          have hdef : deferred e k = false := by cases k <;> simp [deferred, hm.sync, hm.syncRead]
          unfold Rx.pomAfter at hpom
          unfold actionCalls at hcvs
          dsimp only at hcvs hpom
          rw [m2, hlk, hans, hdef] at hpom
          cases hper : permitted (locks d.cvs) k a with
          | false =>
            rw [hper] at hcvs hpom
            exact ⟨hcvs, hcount, hpom⟩
          | true =>
            rw [hper, if_pos rfl, ← hd.cvs, memory_stored e m] at hcvs
            rw [hper, memory_result hm _ _ _ hleg, hd.cvs] at hpom
            rw [hd.cvs] at hcvs
            refine ⟨hcvs, hcount, hpom.trans ?_⟩
            rw [if_pos rfl]
            cases answering d.cvs <;> rfl

/-- The answer waiting is left alone by all calls but those executing packets, answering a CV access and
the callbacks. -/
theorem other_pom {e : Env} {s s' : Rx} (hr : Reachable e s) {op : RxOp} (h3 : op.isExecute = false)
    (h4 : ∀ i v, op ≠ .callbackByte i v) (h5 : ∀ i v, op ≠ .callbackBit i v)
    (h6 : op = .biDiChannel2 → cutout s ≠ .cv) (h : s.step e op = .ok s') : s'.q.pom = s.q.pom := by
  cases op with
  | execute => cases h3
  | callbackByte i v => exact absurd rfl (h4 i v)
  | callbackBit i v => exact absurd rfl (h5 i v)
  | init =>
    obtain ⟨cv29, prim, a, v, evs, -, -, -, -, -, rfl⟩ := init_ok e s s' h
    rfl
  | enable =>
    simp only [Rx.step, Rx.enable, Except.ok.injEq] at h
    subst h
    split <;> rfl
  | disable =>
    simp only [Rx.step, Rx.disable, Except.ok.injEq] at h
    subst h
    split <;> rfl
  | receive t r => exact ((receive_frame e s hr.recvInv.room t r).out _ h).pom
  | biDiChannel1 =>
    have h : .ok s.biDiChannel1 = Except.ok s' := h
    cases h
    unfold Rx.biDiChannel1
    split
    · unfold Rx.appAdr; split <;> rfl
    · unfold Rx.appAdr; split <;> rfl
    · unfold Rx.appAdr; split <;> rfl
    · unfold Rx.appLogon1; split <;> rfl
    · rfl
  | biDiChannel2 =>
    have h := channel2_cutout s s' h
    subst h
    unfold Rx.answer
    split
    · rfl
    · unfold Rx.appTos; split <;> rfl
    · rename_i h; exact absurd h (h6 rfl)
    · unfold Rx.appDyn; split <;> rfl
    · unfold Rx.appLogon2; split <;> rfl
  | datagram ds =>
    obtain ⟨q, b, rfl⟩ := datagram_eq e s s' ds h
    rfl

private theorem front_none {s : Rx} (h : front s = none) : s.packetEnd = true ∨ s.deque = [] := by
  unfold front at h
  cases hp : s.packetEnd with
  | true => exact .inl rfl
  | false =>
    rw [hp, if_neg Bool.false_ne_true] at h
    exact .inr (List.head?_eq_none_iff.mp h)

theorem understood_value (v : Byte) : understood (pomBytes v) = some (.value v) := by
  have h1 := (idBytes_spec .b12 0 v.toNat (by omega) v.isLt).1
  have h2 := read_b12 0 v.toNat (by omega) v.isLt
  change (pomBytes v).length = 2 at h1
  change read (pomBytes v) = _ at h2
  unfold understood
  rw [if_neg (by intro h; rw [h] at h1; cases h1), h2, if_pos ⟨h1, by unfold word12; omega⟩]
  simp [word12]

/-- The answer in the cutout after a CV access. -/
theorem main_answer {m : BitVec 32 → Byte} {s s' : Rx} (hs : Settled m s) {d : MainDevice} (hd : Holds m d s)
    (hc : cutout s = .cv) (h : s.biDiChannel2 = .ok s') :
    Holds m (d.answer s.link.packet).1 s' ∧
      (transmitted (newCalls s s')).map understood = (d.answer s.link.packet).2.map some := by
  have h := channel2_cutout s s' h
  rw [hc] at h
  have h : s' = s.appPom := h
  have hen : s.cfg.ch2DataEnabled = answering d.cvs := by rw [hs.reflects.channel2, hd.cvs]; rfl
  have hlast : s.lastOwnCvPacket = d.last := congrArg Prod.fst hd.count
  unfold MainDevice.answer
  unfold Rx.appPom at h
  rw [hen, hlast] at h
  cases hx : answering d.cvs with
  | false =>
    rw [hx, Bool.not_false, if_pos rfl] at h
    subst h
    rw [newCalls_self rfl]
    exact ⟨hd, rfl⟩
  | true =>
    rw [hx, Bool.not_true, if_neg Bool.false_ne_true] at h
    rw [if_pos rfl]
    by_cases hp : d.last = s.link.packet
    · rw [if_neg (fun hn => hn hp.symm)] at h
      rw [if_pos hp]
      have hq := hd.pom
      cases hw : d.waiting with
      | none =>
        rw [hw] at hq
        have hq : s.q.pom = [] := hq
        rw [hq] at h
        dsimp only at h
        subst h
        rw [newCalls_self rfl]
        exact ⟨⟨hd.cvs, hd.count, hq⟩, rfl⟩
      | some v =>
        rw [hw] at hq
        have hq : s.q.pom = [pomBytes v] := hq
        rw [hq] at h
        dsimp only at h
        subst h
        have hnum : s.ownEqualCvPackets = d.count := congrArg Prod.snd hd.count
        refine ⟨⟨?_, Prod.ext rfl hnum, rfl⟩, ?_⟩
        · exact (mem_append_quiet _ _ [_] (by simp [Event.stores])).trans hd.cvs
        · rw [newCalls_append (s := s) (evs := [.transmitBiDi (pomBytes v)]) rfl]
          exact congrArg (fun x => [x]) (understood_value v)
    · rw [if_pos (fun hn => hp hn.symm)] at h
      rw [if_neg hp]
      subst h
      refine ⟨⟨?_, hd.count, hd.pom⟩, ?_⟩
      · exact (mem_append_quiet _ _ [_] (by simp [Event.stores])).trans hd.cvs
      · rw [newCalls_append (s := s) (evs := [.transmitBiDi (acks.take 1)]) rfl]
        rfl

/-- A history on the main. -/
theorem main_run {e : Env} {m : BitVec 32 → Byte} (hm : Memory e m) (ops : List RxOp) :
    ∀ (s s' : Rx) (d : MainDevice), Reachable e s → Settled m s → s.serviceMode = false → Holds m d s →
    .init ∉ ops → .disable ∉ ops → (∀ i v, .callbackByte i v ∉ ops) → (∀ i v, .callbackBit i v ∉ ops) →
    NeverFull e s ops → s.run e ops = .ok s' →
    (∀ l os, s.link.run (recvTimes ops) = .ok (l, os) → ∀ p ∈ packetsOf os, isLogon p = false) →
    (∀ p ∈ executed e s ops, OnMain p) →
    Holds m (d.run (mainSteps e s ops)).1 s' ∧ Settled m s' ∧ s'.serviceMode = false ∧
      (sent (inChannel2 .cv) e s ops).map understood = (d.run (mainSteps e s ops)).2.map some := by
  induction ops with
  | nil =>
    intro s s' d _ hs hmode hd _ _ _ _ _ h _ _
    cases h
    exact ⟨hd, hs, hmode, rfl⟩
  | cons op ops ih =>
    intro z z' d hr hz hmode hh hi hd hcb hcb' hf h hl hon
    rw [Rx.run, bind_eq_ok] at h
    obtain ⟨z1, h1, h2⟩ := h
    obtain ⟨hf1, hf2⟩ := hf
    rw [h1] at hf2
    simp only [executed, h1] at hon
    have hi1 : op ≠ .init := fun hc => hi (by simp [hc])
    have hd1 : op ≠ .disable := fun hc => hd (by simp [hc])
    have settled : z1.logon.assigned = z.logon.assigned ∧ z1.addrs.logon = z.addrs.logon →
        Settled m z1 := by
      rintro ⟨ha, hg⟩
      have ha := ha.trans hz.assigned
      obtain ⟨h3, h4⟩ := step_keeps hm.toMemoryLike z z1 hr hz.store op h1 ha
      exact ⟨h4, ha, by rw [hg]; exact hz.address, h3.out hz.reflects⟩
    have later : ∀ d1, Settled m z1 → z1.serviceMode = false → Holds m d1 z1 →
        Holds m (d1.run (mainSteps e z1 ops)).1 z' ∧ Settled m z' ∧ z'.serviceMode = false ∧
        (sent (inChannel2 .cv) e z1 ops).map understood = (d1.run (mainSteps e z1 ops)).2.map some := by
      intro d1 g1 g2 g3
      refine ih z1 z' d1 (hr.step op h1) g1 g2 g3
        (fun hm => hi (by simp [hm])) (fun hm => hd (by simp [hm])) (fun i v hm => hcb i v (by simp [hm]))
        (fun i v hm => hcb' i v (by simp [hm])) hf2 h2 ?_ (fun p hp => hon p (List.mem_append_right _ hp))
      intro l os hos p hp
      by_cases hrc : op.isReceive = true
      · cases op <;> try simp [RxOp.isReceive] at hrc
        rename_i t r
        obtain ⟨o, h7, h8⟩ := receive_spec e z z1 t r h1 (hf1 rfl)
        refine hl l (o.toList ++ os) ?_ p ?_
        · show z.link.run (t :: recvTimes ops) = _
          rw [Link.run_cons _ h7, hos]
          rfl
        · simp only [packetsOf, List.filterMap_append, List.mem_append]
          exact .inr hp
      · have hrc' : op.isReceive = false := by simpa using hrc
        have h5 : z1.link = z.link := (step_other e z z1 op h1 (by
          intro t r hc; subst hc; simp [RxOp.isReceive] at hrc') hd1).1
        have : recvTimes (op :: ops) = recvTimes ops := by
          cases op <;> first | rfl | simp [RxOp.isReceive] at hrc'
        rw [h5] at hos
        exact hl l os (by rw [this]; exact hos) p hp
    simp only [mainSteps, sent, h1]
    by_cases hex : op.isExecute = true
    · cases op <;> try simp [RxOp.isExecute] at hex
      rename_i now rand
      have h1' := h1
      simp only [Rx.step, bind_eq_ok, pure_eq_ok, Except.ok.injEq] at h1'
      obtain ⟨⟨z2, ret⟩, h3, rfl⟩ := h1'
      simp only [inChannel2, mainStep, Bool.false_eq_true, if_false, List.nil_append]
      cases hfr : front z with
      | none =>
        rw [execute_front_none e z now rand (front_none hfr)] at h3
        cases h3
        exact later d hz hmode hh
      | some p =>
        obtain ⟨hpe, rest, hdq⟩ := front_eq.mp hfr
        have hon1 : OnMain p := hon p (by simp [RxOp.isExecute, hpe, hdq])
        obtain ⟨g1, g2⟩ := main_execute hm hr hz hmode hfr hon1 h3 hh
        exact later _ (settled (execute_assigned h3)) g2 g1
    · simp only [Bool.not_eq_true] at hex
      have hnl : ∀ t r l p, op = .receive t r → z.link.step t = .ok (l, some (.packet p)) →
          isLogon p = false := by
        intro t r l p hop hs
        subst hop
        obtain ⟨os, h6, _⟩ := run_interleaved e ops z1 z' h2 (fun hm => hd (by simp [hm])) hf2
        obtain ⟨o, h7, h8⟩ := receive_spec e z z1 t r h1 (hf1 rfl)
        rw [hs] at h7
        cases h7
        refine hl z'.link (.packet p :: os) ?_ p (by simp [packetsOf])
        show z.link.run (t :: recvTimes ops) = _
        rw [Link.run_cons _ hs, h6]
        rfl
      have hcb1 : ∀ i v, op ≠ .callbackByte i v := fun i v hc => hcb i v (by simp [hc])
      have hcb1' : ∀ i v, op ≠ .callbackBit i v := fun i v hc => hcb' i v (by simp [hc])
      obtain ⟨h3, -, -, h6⟩ := other_session m hr hi1 hd1 hex hcb1 hcb1' hf1 hnl h1
      have g1 := settled h6
      have g2 : z1.serviceMode = false := (congrArg Device.service h3).trans hmode
      by_cases hc : op = .biDiChannel2 ∧ cutout z = .cv
      · obtain ⟨rfl, hc⟩ := hc
        obtain ⟨a1, a2⟩ := main_answer hz hh hc h1
        simp only [inChannel2, mainStep, hc, decide_true, if_true]
        obtain ⟨b1, b2, b3, b4⟩ := later _ g1 g2 a1
        exact ⟨b1, b2, b3, by rw [List.map_append, a2, b4, ← List.map_append]; rfl⟩
      · have hpom := other_pom hr hex hcb1 hcb1' (fun h h' => hc ⟨h, h'⟩) h1
        have g3 : Holds m d z1 := by
          refine ⟨(congrArg Device.cvs h3).trans hh.cvs, ?_, hpom.trans hh.pom⟩
          exact (Prod.ext (congrArg Device.last h3) (congrArg Device.count h3)).trans hh.count
        have hno : inChannel2 .cv z op = false := by
          cases op <;> simp_all [inChannel2]
        rw [hno, if_neg Bool.false_ne_true, List.nil_append]
        have : mainStep z op = [] := by
          clear later ih settled hnl hl hon
          cases op <;> first | rfl | (cases hex; done) | skip
          exact if_neg fun h => hc ⟨rfl, h⟩
        rw [this]
        exact later d g1 g2 g3

/-! ### Rounds -/

private theorem settled_congr {m : BitVec 32 → Byte} {s s' : Rx} (h : Settled m s) (h1 : s'.logon = s.logon)
    (h2 : s'.addrs.logon = s.addrs.logon) (h3 : s'.addrs.primary = s.addrs.primary)
    (h4 : s'.addrs.consist = s.addrs.consist) (h5 : s'.cfg = s.cfg)
    (h6 : mem m s'.trace = mem m s.trace) : Settled m s' := by
  refine ⟨by rw [h1]; exact h.store, by rw [h1]; exact h.assigned, by rw [h2]; exact h.address, ?_⟩
  rw [h6]
  exact h.reflects.congr (fun _ _ => rfl) h3 h4 h5

private theorem broadcast_head {p : Packet} {a : Address} (h : decodeAddress p = .ok a)
    (ht : a.type = .broadcast) : p.head? = some 0#8 := by
  unfold decodeAddress at h
  repeat' split at h
  all_goals first
    | cases h; done
    | (cases h; cases ht; done)
    | skip
  rename_i h0
  rw [h0]
  rfl

/-- Waiting for a packet. -/
theorem receive_waiting' (e : Env) (s : Rx) (t r : Nat) (hs : s.link.state = .preamble)
    (hb : s.link.bitCount < 20) :
    ∃ l, s.receive e t r = .ok { s with link := l } ∧ l.packetEnd = false ∧ l.state = .preamble := by
  have hh : s.link.state.halves = false := by rw [hs]; rfl
  unfold Rx.receive
  dsimp only
  rw [hh]
  simp only [Bool.false_and, Bool.false_eq_true, if_false]
  have key : ∀ v, ∃ l, ({ s with link := { s.link with packetEnd := false } } : Rx).receiveBit e v r =
      .ok { s with link := l } ∧ l.packetEnd = false ∧ l.state = .preamble := by
    intro v
    unfold Rx.receiveBit
    dsimp only
    rw [hs]
    dsimp only
    cases v
    · rw [if_neg Bool.false_ne_true, if_pos (by omega)]
      exact ⟨_, rfl, rfl, rfl⟩
    · exact ⟨_, rfl, rfl, rfl⟩
  cases time2bit t <;> dsimp only
  case invalid => exact ⟨_, rfl, rfl, hs⟩
  all_goals
    split
    · exact ⟨_, rfl, rfl, rfl⟩
    · exact key _

theorem sent_append (sel : Rx → RxOp → Bool) (e : Env) (ys : List RxOp) : ∀ (xs : List RxOp) (s s1 : Rx),
    s.run e xs = .ok s1 → sent sel e s (xs ++ ys) = sent sel e s xs ++ sent sel e s1 ys := by
  intro xs
  induction xs with
  | nil => intro s s1 h; cases h; rfl
  | cons op xs ih =>
    intro s s1 h
    rw [Rx.run, bind_eq_ok] at h
    obtain ⟨s2, h1, h2⟩ := h
    simp only [List.cons_append, sent, h1, ih s2 s1 h2, List.append_assoc]

private theorem sent_recv (c : Cutout) (e : Env) : ∀ (xs : List (Nat × Nat)) (s : Rx),
    sent (inChannel2 c) e s (recvOps xs) = [] := by
  intro xs
  induction xs with
  | nil => intro s; rfl
  | cons x xs ih =>
    intro s
    show sent _ e s (.receive x.1 x.2 :: recvOps xs) = []
    unfold sent
    split
    · rfl
    · rw [ih]; rfl

/-- The cutouts in which a CV access is answered. -/
theorem cutout_asks {m : BitVec 32 → Byte} {s : Rx} (hs : Settled m s) {p : Packet} (hp : 3 ≤ p.length)
    (hl : s.link.packet = p) (hr : s.addrs.received = addrOf p) :
    cutout s = .cv ↔ asks (mem m s.trace) p = true := by
  have hown : ownAddress s = s.addrs.primary := by unfold ownAddress; rw [hs.assigned]; rfl
  have hloco := class_loco hs.reflects.primaryType
  have hnum : ∀ n, ownNumber (mem m s.trace) = some n ↔
      s.addrs.primary.type.isLoco = true ∧ s.addrs.primary.value.toNat = n := by
    intro n
    unfold ownNumber
    dsimp only
    rw [hloco, hs.reflects.primaryValue]
    split
    · rename_i h; simp [h]
    · rename_i h; simp [h]
  unfold cutout asks
  rw [hr, hl, hown]
  cases hn : locoNumber p with
  | none =>
    obtain ⟨a, h1, h2, h3, h4⟩ := decode_other p (by omega) hn
    rw [addrOf_ok h1]
    have : (none : Option Nat).isSome = false := rfl
    rw [this]
    simp only [Bool.and_false, Bool.false_and, Bool.false_eq_true, iff_false]
    cases ht : a.type <;> simp_all
  | some n =>
    obtain ⟨a, h1, h2, h3, h4⟩ := decode_loco p n hn
    rw [addrOf_ok h1]
    have hsame : a.type = .short ∨ a.type = .long →
        (SameDecoder a s.addrs.primary ↔ ownNumber (mem m s.trace) = some n) := by
      intro ht
      have h5 : a.type.isLoco = true := by rcases ht with h | h <;> rw [h] <;> rfl
      rw [hnum]
      unfold SameDecoder
      rw [h2, ← BitVec.toNat_inj, BitVec.toNat_ofNat, Nat.mod_eq_of_lt (by omega), h5]
      constructor
      · rintro ⟨h6, h7 | h7⟩
        · rw [← h7]; exact ⟨h5, h6.symm⟩
        · exact ⟨h7.2, h6.symm⟩
      · rintro ⟨h6, h7⟩
        exact ⟨h7.symm, .inr ⟨rfl, h6⟩⟩
    have hhead : a.type = .short ∨ a.type = .long → p.head? ≠ some 0#8 := by
      intro ht h0
      obtain _ | ⟨b, rest⟩ := p
      · cases h0
      · cases h0
        have : a.type = .broadcast := by
          unfold decodeAddress at h1
          simp at h1
          rw [← h1]
        rcases ht with h | h <;> rw [this] at h <;> cases h
    have key : a.type = .short ∨ a.type = .long → ((if SameDecoder a s.addrs.primary then
        if isLongAccess p then Cutout.cv else .dynamic
      else if SameDecoder a s.addrs.consist ∧ s.cfg.ch2ConsistEnabled then .dynamic
      else .nothing) = .cv ↔ (isLongAccess p && decide (p.head? ≠ some 0#8) && (some n).isSome &&
        decide (ownNumber (mem m s.trace) = some n)) = true) := by
      intro ht
      have h5 := hsame ht
      have h6 := hhead ht
      simp only [h6, ne_eq, not_false_eq_true, decide_true, Bool.and_true, Option.isSome_some,
        Bool.and_eq_true, decide_eq_true_eq, ← h5]
      by_cases h7 : SameDecoder a s.addrs.primary
      · cases hx : isLongAccess p <;> simp [h7]
      · simp only [h7, if_false, and_false, iff_false]
        split <;> simp
    rcases h4 with ⟨h4, h5, -⟩ | ⟨h4, -⟩ | ⟨h4, -⟩
    · rw [h4]
      have : p.head? = some 0#8 := broadcast_head h1 h4
      simp [this]
    · rw [h4]; exact key (.inl h4)
    · rw [h4]; exact key (.inr h4)

/-- One round. -/
theorem main_round {e : Env} {m : BitVec 32 → Byte} (hm : Memory e m) {s s' : Rx} {d : MainDevice}
    (hr : Reachable e s) (hs : Settled m s) (hready : Ready e s) (hd : Holds m d s) {r : Round}
    (hl : r.Legal) (h : s.run e r.ops = .ok s') :
    Holds m (d.hear r.packet).1 s' ∧ Settled m s' ∧ Ready e s' ∧
      (sent (inChannel2 .cv) e s r.ops).map understood = (d.hear r.packet).2.map some := by
  obtain ⟨hp, hlog, hon, cfg, hcfg, hw⟩ := hl
  obtain ⟨p, wave, after, now, rand⟩ := r
  dsimp only at hp hlog hon hw ⊢
  unfold Round.ops at h ⊢
  dsimp only at h ⊢
  have hw : wave.map (·.1) = packetWave cfg p := by
    rw [bytes2timings_ok p cfg hp.max] at hw
    exact (Except.ok.inj hw).symm
  have h1 := recv_packet e s cfg ((accepted_iff cfg).mp hcfg) p hp hlog hready.waiting hr.recvInv.link
    (by rw [hready.deque]; exact hready.room) wave hw
  have r1 := hr.run _ h1
  rw [run_append e _ _ s _ h1] at h
  rw [sent_append _ _ _ _ _ _ h1, sent_recv, List.nil_append]
  rw [hready.deque, List.nil_append] at h1 h ⊢
  rw [hready.deque, List.nil_append] at r1
  generalize hs1 : ({ s with
      link := Link.after p
      preambleCount := s.preambleCount + 1
      packetCount := s.packetCount + 1
      deque := [p]
      addrs := { s.addrs with received := addrOf p } } : Rx) = s1 at h1 h r1 ⊢
  have e1 : s1.link = Link.after p := by rw [← hs1]
  have e2 : s1.deque = [p] := by rw [← hs1]
  have e3 : s1.addrs.received = addrOf p := by rw [← hs1]
  have e4 : s1.serviceMode = false := by rw [← hs1]; exact hready.mode
  have d1 : Holds m d s1 := by rw [← hs1]; exact ⟨hd.cvs, hd.count, hd.pom⟩
  have g1 : Settled m s1 := by rw [← hs1]; exact settled_congr hs rfl rfl rfl rfl rfl rfl
  clear hs1 h1
  simp only [Rx.run, bind_eq_ok] at h
  obtain ⟨s2, c1, s3, c2, s4, c3, s5, c4, h⟩ := h
  cases h
  -- channel 1
  have hb : ∀ evs : List Event, (∀ ev ∈ evs, ∃ bs, ev = .transmitBiDi bs) → ∀ ev ∈ evs, ev.stores = false := by
    intro evs he ev hev; obtain ⟨bs, rfl⟩ := he ev hev; rfl
  have r2 := r1.step _ c1
  have k1 := other_pom r1 (op := .biDiChannel1) rfl (by simp) (by simp) (by simp) c1
  have k2 : s2 = _ := (Except.ok.inj c1).symm
  obtain ⟨q, evs, k3, k4⟩ := channel1_adds s1
  rw [k3] at k2
  have f1 : s2.link = Link.after p := by rw [k2]; exact e1
  have f2 : s2.deque = [p] := by rw [k2]; exact e2
  have f3 : s2.addrs.received = addrOf p := by rw [k2]; exact e3
  have f4 : s2.serviceMode = false := by rw [k2]; exact e4
  have k5 : mem m s2.trace = mem m s1.trace := by rw [k2]; exact mem_append_quiet _ _ _ (hb _ k4)
  have d2 : Holds m d s2 := ⟨k5.trans d1.cvs, by rw [k2]; exact d1.count, k1.trans d1.pom⟩
  have g2 : Settled m s2 := settled_congr g1 (by rw [k2]) (by rw [k2]) (by rw [k2]) (by rw [k2]) (by rw [k2]) k5
  -- channel 2
  have r3 := r2.step _ c2
  have hasks := cutout_asks g2 hp.min (by rw [f1]; rfl) f3
  rw [d2.cvs] at hasks
  obtain ⟨q', evs', l2, l4⟩ := (channel2_adds s2).out _ c2
  have l5 : mem m s3.trace = mem m s2.trace := by rw [l2]; exact mem_append_quiet _ _ _ (hb _ l4)
  have g3 : Settled m s3 := settled_congr g2 (by rw [l2]) (by rw [l2]) (by rw [l2]) (by rw [l2]) (by rw [l2]) l5
  have a1 : s3.link = Link.after p := by rw [l2]; exact f1
  have a2 : s3.deque = [p] := by rw [l2]; exact f2
  have a4 : s3.serviceMode = false := by rw [l2]; exact f4
  have hsent : sent (inChannel2 .cv) e s1 [.biDiChannel1, .biDiChannel2, .receive after.1 after.2, .execute now rand]
      = if cutout s2 = .cv then transmitted (newCalls s2 s3) else [] := by
    simp only [sent, c1, c2, c3, c4, inChannel2, Bool.false_eq_true, if_false, List.nil_append,
      List.append_nil, decide_eq_true_eq]
  rw [hsent]
  have d3 : Holds m (if asks d.cvs p then (d.answer p).1 else d) s3 ∧
      (if cutout s2 = .cv then transmitted (newCalls s2 s3) else []).map understood =
        (if asks d.cvs p then (d.answer p).2 else []).map some := by
    cases hx : asks d.cvs p with
    | false =>
      rw [hx] at hasks
      have hx : cutout s2 ≠ .cv := fun h => Bool.false_ne_true (hasks.mp h)
      rw [if_neg hx]
      have := other_pom r2 (op := .biDiChannel2) rfl (by simp) (by simp) (fun _ => hx) c2
      exact ⟨⟨l5.trans d2.cvs, by rw [l2]; exact d2.count, this.trans d2.pom⟩, rfl⟩
    | true =>
      have hx := hasks.mpr hx
      rw [if_pos hx]
      have := main_answer g2 d2 hx c2
      rw [f1] at this
      exact this
  obtain ⟨d3, hmsg⟩ := d3
  -- waiting
  have r4 := r3.step _ c3
  obtain ⟨l, b1, b2, b3⟩ := receive_waiting' e s3 after.1 after.2 (by rw [a1]; rfl) (by rw [a1]; show 0 < 20; omega)
  have c3 : s3.receive e after.1 after.2 = .ok s4 := c3
  rw [b1] at c3
  have b4 : s4 = _ := (Except.ok.inj c3).symm
  have d4 : Holds m (if asks d.cvs p then (d.answer p).1 else d) s4 := by
    rw [b4]; exact ⟨d3.cvs, d3.count, d3.pom⟩
  have g4 : Settled m s4 := by rw [b4]; exact settled_congr g3 rfl rfl rfl rfl rfl rfl
  have m4 : s4.serviceMode = false := by rw [b4]; exact a4
  have fr : front s4 = some p := by
    rw [b4]; unfold front Rx.packetEnd; dsimp only; rw [b2, a2]; rfl
  -- executing
  have c5 := c4
  simp only [Rx.step, bind_eq_ok, pure_eq_ok, Except.ok.injEq] at c4
  obtain ⟨⟨s6, ret⟩, h3, rfl⟩ := c4
  obtain ⟨d5, m5⟩ := main_execute hm r4 g4 m4 fr hon h3 d4
  have g5 : Settled m s6 := by
    obtain ⟨ha, hg⟩ := execute_assigned h3
    have ha := ha.trans g4.assigned
    obtain ⟨h3, h4⟩ := step_keeps hm.toMemoryLike s4 s6 r4 g4.store _ c5 ha
    exact ⟨h4, ha, by rw [hg]; exact g4.address, h3.out g4.reflects⟩
  have hdev : d.hear p = (((if asks d.cvs p then (d.answer p).1 else d)).execute p,
      if asks d.cvs p then (d.answer p).2 else []) := by
    unfold MainDevice.hear; split <;> rfl
  rw [hdev]
  refine ⟨d5, g5, ⟨m5, ?_, hready.room, ?_⟩, hmsg⟩
  all_goals
    rcases execute_cases e s4 s6 now rand ret h3 with ⟨hn, -⟩ | ⟨p', rest, z1, z2, -, hq, -, q1, -, q2, hz⟩
    · obtain ⟨x1, y, x2⟩ := front_eq.mp fr
      rcases hn with hn | hn
      · rw [x1] at hn; cases hn
      · rw [x2] at hn; cases hn
  · rw [hz]
    show z2.deque.drop 1 = []
    rw [q2.deque, q1.deque, b4]
    show s3.deque.drop 1 = []
    rw [a2]; rfl
  · rw [hz]
    show z2.link.state = _
    rw [q2.link, q1.link, b4]
    exact b3

/-- Several rounds. -/
theorem main_rounds {e : Env} {m : BitVec 32 → Byte} (hm : Memory e m) : ∀ (rs : List Round) (s s' : Rx)
    (d : MainDevice), Reachable e s → Settled m s → Ready e s → Holds m d s → (∀ r ∈ rs, r.Legal) →
    s.run e (rs.flatMap Round.ops) = .ok s' →
    Holds m (d.hearAll (rs.map (·.packet))).1 s' ∧ Settled m s' ∧ Ready e s' ∧
      (sent (inChannel2 .cv) e s (rs.flatMap Round.ops)).map understood =
        (d.hearAll (rs.map (·.packet))).2.map some := by
  intro rs
  induction rs with
  | nil => intro s s' d _ hs hready hd _ h; cases h; exact ⟨hd, hs, hready, rfl⟩
  | cons r rs ih =>
    intro s s' d hr hs hready hd hl h
    rw [List.flatMap_cons] at h ⊢
    obtain ⟨s1, h1, h2⟩ := run_append_split e _ _ _ _ h
    obtain ⟨a1, a2, a3, a4⟩ := main_round hm hr hs hready hd (hl r (by simp)) h1
    obtain ⟨b1, b2, b3, b4⟩ := ih s1 s' _ (hr.run _ h1) a2 a3 a1 (fun x hx => hl x (by simp [hx])) h2
    refine ⟨b1, b2, b3, ?_⟩
    rw [sent_append _ _ _ _ _ _ h1, List.map_append, a4, b4, ← List.map_append]
    rfl

end Dcc
