import Verif.Lemmas.Independence
import Verif.Lemmas.RxMainTalk
import Verif.Spec.Engine
/-! A locomotive on the main that gets driving commands, consists and CV accesses. -/
namespace Dcc
open Spec

/-! ### Numbers -/

theorem number_zero {n : Nat} (h : n < 10240) : (BitVec.ofNat 16 n = 0#16) ↔ n = 0 := by
  rw [← BitVec.toNat_inj, BitVec.toNat_ofNat, Nat.mod_eq_of_lt (by omega)]; rfl

theorem hearing_iff {c : BitVec 32 → Byte} {s : Rx} (hr : Reflects c s) (hl : s.addrs.logon.value = 0#16)
    (n : Nat) : hearing c n = true ↔ n = 0 ∨ Active s n := by
  unfold hearing
  rw [active_cvs hr hl]
  simp [or_assoc]

theorem turned_eq {c : BitVec 32 → Byte} {s : Rx} (hr : Reflects c s) {n : Nat} (hn : n < 10240) :
    turned c n = reversedAt s (BitVec.ofNat 16 n) := by
  unfold turned reversedAt
  have : (BitVec.ofNat 16 n = s.addrs.primary.value) ↔ n = primaryNumber c := by
    rw [← BitVec.toNat_inj, BitVec.toNat_ofNat, Nat.mod_eq_of_lt (by omega), hr.primaryValue]
  rw [hr.primaryReversed, hr.consistReversed]
  by_cases h : n = primaryNumber c
  · rw [if_pos h, if_pos (this.mpr h)]
  · rw [if_neg h, if_neg fun h' => h (this.mp h')]

theorem target_number {s : Rx} (hl : s.addrs.logon.value = 0#16) (n : Nat) :
    target s n = BitVec.ofNat 16 n := by unfold target; rw [if_pos (.inr hl)]

theorem request_cvs {c : BitVec 32 → Byte} {s : Rx} (hr : Reflects c s) (hl : s.addrs.logon.value = 0#16)
    (hm : s.serviceMode = false) {p : Packet} {n : Nat} (hn : locoNumber p = some n) {b : Byte}
    (hb : (afterAddress p).head? = some b) :
    cvRequest s p = (programmable c n && decide (224 ≤ b.toNat)) := by
  have hn' := locoNumber_lt hn
  unfold cvRequest
  rw [hm, if_neg Bool.false_ne_true, hn, hb]
  dsimp only
  rw [target_number hl]
  have ha := active_cvs hr hl n
  have hz := number_zero hn'
  have hk : (BitVec.ofNat 16 n = s.addrs.consist.value) ↔ n = consistNumber c := by
    rw [← BitVec.toNat_inj, BitVec.toNat_ofNat, Nat.mod_eq_of_lt (by omega), hr.consistValue]; rfl
  unfold programmable
  rw [Bool.eq_iff_iff]
  simp only [Option.any_some, Bool.and_eq_true, Bool.or_eq_true, decide_eq_true_eq, Bool.not_eq_true',
    decide_eq_false_iff_not, Bool.and_eq_false_iff, ha, ne_eq, hz, hk]
  grind

/-! ### Orders -/

theorem short_bytes (f : ShortForm) (hf : f.Legal) :
    ∃ b rest, f.bytes = b :: rest ∧ 240 ≤ b.toNat ∧
      ∀ (k : Nat) (r : List Byte), shortWrites k (b :: (rest ++ r)) = some (f.writes k) := by
  cases f with
  | cv23 v => exact ⟨_, _, rfl, by decide, fun k r => rfl⟩
  | cv24 v => exact ⟨_, _, rfl, by decide, fun k r => rfl⟩
  | address n =>
    refine ⟨_, _, rfl, by decide, fun k r => ?_⟩
    have hn : n < 10240 := hf
    have : 0xC0#8 ||| BitVec.ofNat 8 (192 + n / 256) = BitVec.ofNat 8 (192 + n / 256) := by
      have key : ∀ x : Fin 40, 0xC0#8 ||| BitVec.ofNat 8 (192 + x) = BitVec.ofNat 8 (192 + x) := by
        decide +kernel
      exact key ⟨n / 256, by omega⟩
    by_cases hk : k = 2 <;> simp [shortWrites, ShortForm.writes, hk, this]
  | index h l =>
    refine ⟨_, _, rfl, by decide, fun k r => ?_⟩
    by_cases hk : k = 2 <;> simp [shortWrites, ShortForm.writes, hk]

/-- The packet of an order. -/
theorem Order.built {o : Order} (ho : o.Legal) {p : Packet} (hp : o.packet = .ok p) :
    locoNumber p = some o.number ∧ ValidPacket p ∧ isLogon p = false ∧ p ≠ idleBytes := by
  have key : ∀ n, locoNumber p = some n → p ≠ idleBytes := by
    rintro n h rfl
    simp [idleBytes, locoNumber] at h
  cases o with
  | drive c =>
    obtain ⟨h1, -, h2, h3⟩ := built_packet c.addr ho.1 c.call p hp
    exact ⟨h1, h2, h3, key _ h1⟩
  | consist a r n =>
    obtain ⟨h1, -, h2, h3⟩ := built_addressed a ho.1 _ (by simp) p hp
    exact ⟨h1, h2, h3, key _ h1⟩
  | long a k x =>
    obtain ⟨h1, -, h2, h3⟩ := built_packet a ho.1 _ p hp
    exact ⟨h1, h2, h3, key _ h1⟩
  | short a f =>
    obtain ⟨h1, -, h2, h3⟩ := built_addressed a ho.1 _ (by cases f <;> simp [ShortForm.bytes]) p hp
    exact ⟨h1, h2, h3, key _ h1⟩

theorem engine_eq {m : BitVec 32 → Byte} {s : Rx} {d : Engine} (h1 : mem m s.trace = d.cvs)
    (h2 : s.cvCount = (d.last, d.count)) : engineOf m s = d := by
  obtain ⟨c, l, k⟩ := d
  cases h2
  cases h1
  rfl

theorem count_engine (m : BitVec 32 → Byte) (s : Rx) (p : Packet) : countPacket s.cvCount p =
    (((engineOf m s).counted p).last, ((engineOf m s).counted p).count) := by
  unfold countPacket Engine.counted engineOf Rx.cvCount
  dsimp only
  split
  · rename_i h; rw [h]
  · rfl

/-- The state after an order is the one of the locomotive after it. -/
structure Obeyed (m : BitVec 32 → Byte) (s s' : Rx) (r : Engine × List Event) : Prop where
  engine : engineOf m s' = r.1
  calls : drivingCalls s s' = r.2
  trace : s.trace <+: s'.trace
  mode : s'.serviceMode = false

theorem driving_of {s s' : Rx} {evs : List Event} (h : s'.trace = s.trace ++ evs)
    (hn : ∀ ev ∈ evs, Event.isDriving ev = false) : drivingCalls s s' = [] :=
  driving_nil (P := fun ev => Event.isDriving ev = false) ⟨evs, h, hn⟩ fun _ h => h

/-- A packet for somebody else. -/
theorem foreign_obeyed {e : Env} {m : BitVec 32 → Byte} {s s' : Rx} {now : Int} {rand : Nat} {ret : Bool}
    (hr : Reachable e s) (hs : Settled m s) (hmode : s.serviceMode = false) {p : Packet}
    (hf : front s = some p) (hfd : ¬ ForDecoder s p) (h : s.execute e now rand = .ok (s', ret)) :
    Obeyed m s s' (engineOf m s, []) := by
  have hcount := execute_count e s s' now rand ret hr.lengths h
  rw [hf] at hcount
  obtain ⟨hpe, rest, hdq⟩ := front_eq.mp hf
  rw [execute_foreign e s now rand p rest hpe hdq hmode (hr.lengths p (by simp [hdq])) hfd] at h
  cases h
  have f := (prepare_total e s now).2
  have ht : (s.prepared e now).trace = s.trace := (f.noStore hs.store).1
  have hq : cvRequest s p = false := by
    unfold cvRequest
    rw [if_neg (by simp [hmode])]
    cases hn : locoNumber p with
    | none => rfl
    | some n =>
      have h1 : ¬ (n = 0 ∨ Active s n) := fun h => hfd ⟨_, hn, h⟩
      simp only [not_or] at h1
      simp [h1]
  refine ⟨engine_eq ?_ ?_, ?_, ?_, ?_⟩
  · exact congrArg (mem m) ht
  · rw [hcount]; simp [hq]; rfl
  · exact driving_of (evs := []) (by rw [List.append_nil]; exact ht) (by simp)
  · exact f.trace
  · unfold Rx.serviceMode at hmode ⊢
    show decide ((s.prepared e now).mode = _) = _
    rw [f.mode]; exact hmode

theorem not_for {c : BitVec 32 → Byte} {s : Rx} (hr : Reflects c s) (hl : s.addrs.logon.value = 0#16)
    {p : Packet} {n : Nat} (hn : locoNumber p = some n) (h : hearing c n = false) : ¬ ForDecoder s p := by
  rintro ⟨k, hk, h1⟩
  rw [hn] at hk
  cases hk
  rw [← hearing_iff hr hl, h] at h1
  cases h1

theorem write_single (d : Engine) (a : Access) : d.write [a] =
    if permitted (locks d.cvs) .write a then { d with cvs := applyWrite d.cvs a } else d := by
  unfold Engine.write
  simp

theorem unprogrammable {c : BitVec 32 → Byte} {n : Nat} (h : programmable c n = true) : hearing c n = true := by
  unfold programmable at h
  unfold hearing
  grind

private theorem below_cv : ∀ b : Byte, decodeInstructionByte b = .decoderControl ∨
    decodeInstructionByte b = .consistControl ∨
    (decodeInstructionByte b = .advancedOperations ∨ decodeInstructionByte b = .speedDirection ∨
      decodeInstructionByte b = .functionGroup ∨ b = 0xDE#8 ∨ b = 0xDF#8) ∨
    decodeInstructionByte b = .featureExpansion → b.toNat < 224 := by decide +kernel

theorem driving_byte (c : AddressedCall) (hc : AddressedCall.Driving c) (x : Byte) :
    ∃ b, (payload c ++ [x]).head? = some b ∧ b.toNat < 224 := by
  have k4 : ∀ s : Byte, (0x80#8 ||| ((s &&& 0x01#8) <<< 4) ||| ((s &&& 0x1F#8) >>> 1)).toNat < 224 := by
    decide +kernel
  have k8 : ∀ s : Byte, (0xB0#8 ||| (s &&& 0x0F#8)).toNat < 224 := by decide +kernel
  have k12 : ∀ s : Byte, (0xA0#8 ||| (s &&& 0x0F#8)).toNat < 224 := by decide +kernel
  have kd : ∀ s : Byte, s.toNat < 64 → (0x40#8 ||| s).toNat < 224 := by decide +kernel
  cases c with
  | advancedSpeed b => exact ⟨_, rfl, by decide⟩
  | speedAndDirection b => exact ⟨_, rfl, kd b hc⟩
  | speedDirFunctions b f fs => exact ⟨_, rfl, by decide⟩
  | f4f0 b => exact ⟨_, rfl, k4 b⟩
  | f8f5 b => exact ⟨_, rfl, k8 b⟩
  | f12f9 b => exact ⟨_, rfl, k12 b⟩
  | f20f13 b => exact ⟨_, rfl, by decide⟩
  | f28f21 b => exact ⟨_, rfl, by decide⟩
  | binaryStateShort => exact hc.elim
  | binaryStateLong => exact hc.elim
  | cvVerify => exact hc.elim
  | cvWrite => exact hc.elim
  | cvVerifyBit => exact hc.elim
  | cvWriteBit => exact hc.elim

theorem consist_value (r : Bool) {n : Nat} (hn : n < 128) :
    (((if r then 0x13#8 else 0x12#8) <<< 7) ||| BitVec.ofNat 8 n) =
      BitVec.ofNat 8 ((if r then 128 else 0) + n) := by
  have key : ∀ (r : Bool) (n : Fin 128), (((if r then 0x13#8 else 0x12#8) <<< 7) ||| BitVec.ofNat 8 n) =
      BitVec.ofNat 8 ((if r then 128 else 0) + n) := by decide +kernel
  exact key r ⟨n, hn⟩

theorem instrCase_cvInstr {e : Env} {s s' : Rx} {a : BitVec 16} {p : Packet} {bs : List Byte} {b : Byte}
    (h : InstrCase e s a p bs s' b) (hb : 224 ≤ b.toNat) : CvInstr s s' := by
  cases h with
  | enter _ h _ => rw [h] at hb; simp at hb
  | control hc _ _ => exact absurd (below_cv b (.inl hc)) (by omega)
  | consist hc _ => exact absurd (below_cv b (.inr (.inl hc))) (by omega)
  | drives hc _ => exact absurd (below_cv b (.inr (.inr (.inl hc)))) (by omega)
  | searches hc _ _ _ => exact absurd (below_cv b (.inr (.inr (.inr hc)))) (by omega)
  | cvShort _ hx => exact (instr_cvShort ..).out _ hx
  | cvLong _ hx => exact (instr_cvLong ..).out _ hx

theorem long_stored (e : Env) (m : BitVec 32 → Byte) (tr : List Event) {bs : List Byte}
    {k : Kind} {x : Access} (hreq : longRequest bs = some (k, x)) (d : Engine) (hd : d.cvs = mem m tr) :
    mem (mem m tr) (actionCalls e tr false (locks (mem m tr)) (longAction d.count bs)) =
      (if k = .write ∧ d.count = 2 then d.write [x] else d).cvs := by
  have verify : ∀ x, mem (mem m tr) (actionCalls e tr false (locks (mem m tr)) (some (.verify, x))) =
      mem m tr := by
    intro x
    unfold actionCalls
    dsimp only
    split
    · exact memory_stored e m tr .verify x
    · rfl
  have write : mem (mem m tr) (actionCalls e tr false (locks (mem m tr)) (some (.write, x))) =
      (d.write [x]).cvs := by
    rw [write_single, hd]
    unfold actionCalls
    dsimp only
    split
    · exact memory_stored e m tr .write x
    · exact hd.symm
  unfold longAction
  rw [hreq]
  cases k with
  | verify => dsimp only; rw [verify, if_neg (by simp), hd]
  | write =>
    by_cases h2 : d.count = 2
    · rw [if_pos ⟨rfl, h2⟩, ← write]
      cases x <;> simp [h2]
    · rw [if_neg (by simp [h2])]
      cases x with
      | byte cv b =>
        dsimp only
        rw [if_neg h2]
        split
        · exact hd.symm
        · rw [verify, hd]
      | bit cv b pos =>
        dsimp only
        rw [if_neg h2]
        exact hd.symm

theorem write_short (d : Engine) (f : ShortForm) (n : Nat) : d.write (f.writes n) =
    if locks d.cvs then d else { d with cvs := (f.writes n).foldl applyWrite d.cvs } := by
  unfold Engine.write permitted
  cases hl : locks d.cvs with
  | false => simp
  | true =>
    rw [if_pos rfl]
    cases f with
    | cv23 v => rfl
    | cv24 v => rfl
    | address k => unfold ShortForm.writes; dsimp only; by_cases h : n = 2 <;> simp [h, Access.cv]
    | index a b => unfold ShortForm.writes; dsimp only; by_cases h : n = 2 <;> simp [h, Access.cv]

/-- Executing an order. -/
theorem order_execute {e : Env} {m : BitVec 32 → Byte} (hm : MemoryLike e m) {s s' : Rx} {now : Int} {rand : Nat}
    {ret : Bool} (hr : Reachable e s) (hs : Settled m s) (hmode : s.serviceMode = false) {o : Order}
    (ho : o.Legal) {p : Packet} (hp : o.packet = .ok p) (hf : front s = some p)
    (h : s.execute e now rand = .ok (s', ret)) : Obeyed m s s' ((engineOf m s).obey p o) := by
  obtain ⟨hn, -, -, -⟩ := Order.built ho hp
  have hlt := locoNumber_lt hn
  have hR := hs.reflects
  have hcount := execute_count e s s' now rand ret hr.lengths h
  rw [hf] at hcount
  have hlk : s.cfg.cvsLocked = locks (mem m s.trace) := reflects_locks hR
  cases hh : hearing (mem m s.trace) o.number with
  | false =>
    have hno := foreign_obeyed hr hs hmode hf (not_for hR hs.address hn hh) h
    have hnp : programmable (mem m s.trace) o.number = false := by
      rw [← Bool.not_eq_true]
      intro h
      rw [unprogrammable h] at hh
      cases hh
    have : (engineOf m s).obey p o = (engineOf m s, []) := by
      cases o with
      | drive c => exact Prod.ext rfl (if_neg (by rw [Bool.not_eq_true]; exact hh))
      | consist a r n => exact Prod.ext (if_neg (by rw [Bool.not_eq_true]; exact hh)) rfl
      | long a k x => exact Prod.ext (if_neg (by rw [Bool.not_eq_true]; exact hnp)) rfl
      | short a f => exact Prod.ext (if_neg (by rw [Bool.not_eq_true]; exact hnp)) rfl
    rw [this]
    exact hno
  | true =>
    have hact := (hearing_iff hR hs.address _).mp hh
    have f := (prepare_total e s now).2
    obtain ⟨m1, m2, m3⟩ := prepared_modes e s now
    have ht : (s.prepared e now).trace = s.trace := (f.noStore hs.store).1
    -- a CV access by the number of the consist
    have ignored : ∀ b, (afterAddress p).head? = some b → 224 ≤ b.toNat →
        programmable (mem m s.trace) o.number = false → Obeyed m s s' (engineOf m s, []) := by
      intro b hb hb' hnp
      have hq := request_cvs hR hs.address hmode hn hb
      rw [hnp, Bool.false_and] at hq
      have hq' := hq
      rw [cvRequest_operations s p _ b hmode hn hact hb] at hq'
      simp only [hb', decide_true, Bool.and_true, Bool.not_eq_false', decide_eq_true_eq] at hq'
      obtain ⟨k, s2, hk, -, rfl, hi⟩ := operations_front e s s' now rand ret p b hr.lengths hmode hf
        ⟨_, hn, hact⟩ hb h
      rw [hn] at hk
      cases hk
      have hs2 : s2 = s.prepared e now := by
        by_cases h240 : 240 ≤ b.toNat
        · have hx := instrCase_short hi h240
          unfold Rx.cvShort at hx
          rw [if_pos (by rw [m3]; exact hq')] at hx
          cases hx; rfl
        · have hd : decodeInstructionByte b = .cvLong := (decode_cv b).1.mpr ⟨hb', by omega⟩
          cases hi with
          | enter _ h _ => rw [h] at hb'; simp at hb'
          | control hd' _ _ => rw [hd] at hd'; cases hd'
          | consist hd' _ => rw [hd] at hd'; cases hd'
          | drives hd' _ =>
            rw [hd] at hd'
            rcases hd' with h | h | h | rfl | rfl
            · cases h
            · cases h
            · cases h
            · simp at hb'
            · simp at hb'
          | searches hd' _ _ _ => rw [hd] at hd'; cases hd'
          | cvShort hd' _ => rw [hd] at hd'; cases hd'
          | cvLong _ hx =>
            unfold Rx.cvLong at hx
            rw [if_pos (by rw [m3]; exact hq')] at hx
            cases hx; rfl
      subst hs2
      refine ⟨engine_eq ?_ ?_, ?_, ?_, ?_⟩
      · exact congrArg (mem m) ht
      · rw [hcount]; simp [hq]; rfl
      · exact driving_of (evs := []) (by rw [List.append_nil]; exact ht) (by simp)
      · exact f.trace
      · exact m1.trans hmode
    cases o with
    | drive c =>
      obtain ⟨s2, stores, h1, h2, h3, -, -, -, h7⟩ := command_executes e s now rand c ho p hp hf hmode hact
      rw [h] at h1
      cases h1
      rw [h2.none hs.store, List.append_nil] at h3
      obtain ⟨-, ⟨x, hpay⟩, -, -⟩ := built_packet c.addr ho.1 c.call p hp
      have hcalls : c.calls s = ((engineOf m s).obey p (.drive c)).2 := by
        have hh' : hearing (mem m s.trace) c.addr.value.toNat = true := hh
        have hlt' : c.addr.value.toNat < 10240 := hlt
        unfold Command.calls Engine.obey engineOf
        dsimp only
        have hact' : c.addr.value.toNat = 0 ∨ Active s c.addr.value.toNat := hact
        rw [if_pos hact', if_pos hh', hR.f0Exception, target_number hs.address, turned_eq hR hlt']
      have hnew : newCalls s s' = c.calls s := newCalls_append h3
      refine ⟨engine_eq ?_ ?_, ?_, ?_, ?_⟩
      · rw [h3, mem_append_quiet]
        · rfl
        · intro ev hev
          rw [← calls_driving] at hev
          have := (List.mem_filter.mp hev).2
          cases ev <;> first | rfl | cases this
      · rw [hcount]
        have hb : ∃ b, (afterAddress p).head? = some b ∧ b.toNat < 224 := by
          rw [hpay]
          exact driving_byte c.call ho.2 x
        obtain ⟨b, hb, hb'⟩ := hb
        have hq := request_cvs hR hs.address hmode hn hb
        rw [show decide (224 ≤ b.toNat) = false by simp; omega, Bool.and_false] at hq
        simp [hq]
        rfl
      · unfold drivingCalls
        rw [hnew, calls_driving, hcalls]
      · rw [h3]; exact List.prefix_append _ _
      · unfold Rx.serviceMode at hmode ⊢
        rw [h7]; exact hmode
    | consist a r n =>
      obtain ⟨hleg, hn128⟩ : LocoAddress a ∧ n < 128 := ho
      obtain ⟨-, ⟨x, hpay⟩, -, -⟩ := built_addressed a hleg _ (by simp) p hp
      have hb : (afterAddress p).head? = some (if r then 0x13#8 else 0x12#8) := by rw [hpay]; rfl
      have h16 : 16 ≤ (if r then 0x13#8 else 0x12#8 : Byte).toNat ∧
          (if r then 0x13#8 else 0x12#8 : Byte).toNat < 32 := by cases r <;> decide
      obtain ⟨k, s2, hk, -, rfl, hi⟩ := operations_front e s s' now rand ret p _ hr.lengths hmode hf
        ⟨_, hn, hact⟩ hb h
      have hx := instrCase_consist hi h16
      have hfr := (instr_consist ..).out _ hx
      unfold Rx.consistControl at hx
      rw [hpay] at hx
      have hx : (s.prepared e now).cvWriteByte e 18#32
        (((if r then 0x13#8 else 0x12#8) <<< 7) ||| BitVec.ofNat 8 n) = .ok s2 := hx
      rw [consist_value r hn128] at hx
      have hq := request_cvs hR hs.address hmode hn hb
      rw [show decide (224 ≤ (if r then 0x13#8 else 0x12#8 : Byte).toNat) = false by cases r <;> decide,
        Bool.and_false] at hq
      have hh' : hearing (engineOf m s).cvs a.value.toNat = true := hh
      have hob : (engineOf m s).obey p (.consist a r n) =
          (if locks (mem m s.trace) then engineOf m s else
            { engineOf m s with
              cvs := applyWrite (mem m s.trace) (.byte 18 (BitVec.ofNat 8 ((if r then 128 else 0) + n))) },
            []) := by
        unfold Engine.obey
        dsimp only
        rw [if_pos hh', write_single]
        unfold permitted
        show (if (!locks (mem m s.trace) || _) = true then _ else _, _) = _
        cases locks (mem m s.trace) <;> rfl
      rw [hob]
      have hadd : Adds (fun ev => ev.isCv = true) s s2.popFront := by
        obtain ⟨evs, h1, h2⟩ := hfr.adds
        exact ⟨evs, by rw [← ht]; exact h1, h2⟩
      refine ⟨engine_eq ?_ ?_, driving_nil hadd driving_cv, ?_, ?_⟩
      · cases hl : locks (mem m s.trace) with
        | true =>
          rw [(locked_write_nothing e _ (by rw [m2, hlk]; exact hl)).1 _ _ (by decide)] at hx
          cases hx
          exact congrArg (mem m) ht
        | false =>
          have hl' : s.cfg.cvsLocked = false := hlk.trans hl
          obtain ⟨stores, hst, hS⟩ := prepared_trace e s now
          have hu := prepared_unlocked hst hS hmode hl' (memory_keeps hm hR hl')
          obtain ⟨-, evs, e1, -, e3⟩ := (wrote_byte hu 18 _ (by omega) (by omega) (by omega)).out _ hx
          show mem m s2.trace = _
          rw [e1, ht, mem_append, e3]
          rfl
      · rw [hcount]
        simp only [Option.toList_some, List.filter_cons, hq, Bool.false_eq_true, if_false, List.filter_nil,
          List.foldl_nil]
        split <;> rfl
      · obtain ⟨evs, h1, -⟩ := hadd
        rw [h1]; exact List.prefix_append _ _
      · unfold Rx.serviceMode
        show decide (s2.mode = _) = _
        rw [hfr.mode]
        exact m1.trans hmode
    | long a k x =>
      obtain ⟨hleg, hxl⟩ : LocoAddress a ∧ x.Legal := ho
      obtain ⟨-, -, hreq, -, -, -, -⟩ := pom_packet hleg k x hxl hp
      obtain ⟨-, ⟨y, hpay⟩, -, -⟩ := built_packet a hleg _ p hp
      obtain ⟨b0, b1, b2, g1, g2, g3, g4⟩ := pom_payload k x hxl
      rw [g1] at hpay
      have hb : (afterAddress p).head? = some b0 := by rw [hpay]; rfl
      cases hpr : programmable (mem m s.trace) a.value.toNat with
      | false =>
        have := ignored b0 hb g2 hpr
        rwa [show (engineOf m s).obey p (.long a k x) = (engineOf m s, []) from
          Prod.ext (if_neg (by rw [Bool.not_eq_true]; exact hpr)) rfl]
      | true =>
        have hq := request_cvs hR hs.address hmode hn hb
        have hpr' : programmable (mem m s.trace) (Order.long a k x).number = true := hpr
        rw [hpr', Bool.true_and, decide_eq_true g2] at hq
        simp only [Option.toList_some, List.filter_cons, hq, if_true, List.filter_nil, List.foldl_cons,
          List.foldl_nil, count_engine m] at hcount
        obtain ⟨ss, quiet, a1, a2, a3, -⟩ := execute_cvLong e s s' now rand ret p hr.lengths hmode hf hq
          (by intro b hb'; rw [hb] at hb'; cases hb'; exact g3) (by rw [hpay]; simp) h
        rw [a1.none hs.store, List.append_nil, hlk, count_engine m] at a3
        obtain ⟨k', s2, hk, -, rfl, hi⟩ := operations_front e s s' now rand ret p _ hr.lengths hmode hf
          ⟨_, hn, hact⟩ hb h
        have hin := instrCase_cvInstr hi g2
        have hob : (engineOf m s).obey p (.long a k x) =
            (if k = .write ∧ ((engineOf m s).counted p).count = 2 then
              ((engineOf m s).counted p).write [x] else (engineOf m s).counted p, []) :=
          Prod.ext (if_pos hpr) rfl
        rw [hob]
        have hadd : Adds (fun ev => ev.isCv = true) s s2.popFront := by
          obtain ⟨evs, h1, h2⟩ := hin.adds
          exact ⟨evs, by rw [← ht]; exact h1, h2⟩
        refine ⟨engine_eq ?_ ?_, driving_nil hadd driving_cv, ?_, ?_⟩
        · rw [a3, mem_append_quiet _ _ _ fun ev hev => stores_of_quiet ev (a2 ev hev), mem_append]
          exact long_stored e m s.trace hreq ((engineOf m s).counted p) rfl
        · rw [hcount]
          unfold Engine.write
          split
          · split <;> rfl
          · rfl
        · obtain ⟨evs, h1, -⟩ := hadd
          rw [h1]; exact List.prefix_append _ _
        · unfold Rx.serviceMode
          show decide (s2.mode = _) = _
          rw [hin.mode]
          exact m1.trans hmode
    | short a g =>
      obtain ⟨hleg, hgl⟩ : LocoAddress a ∧ g.Legal := ho
      obtain ⟨b0, rest, g1, g2, g3⟩ := short_bytes g hgl
      obtain ⟨-, ⟨y, hpay⟩, -, -⟩ := built_addressed a hleg _ (by rw [g1]; simp) p hp
      rw [g1] at hpay
      have hb : (afterAddress p).head? = some b0 := by rw [hpay]; rfl
      cases hpr : programmable (mem m s.trace) a.value.toNat with
      | false =>
        have := ignored b0 hb (by omega) hpr
        rwa [show (engineOf m s).obey p (.short a g) = (engineOf m s, []) from
          Prod.ext (if_neg (by rw [Bool.not_eq_true]; exact hpr)) rfl]
      | true =>
        have hq := request_cvs hR hs.address hmode hn hb
        have hpr' : programmable (mem m s.trace) (Order.short a g).number = true := hpr
        rw [hpr', Bool.true_and, decide_eq_true (by omega)] at hq
        simp only [Option.toList_some, List.filter_cons, hq, if_true, List.filter_nil, List.foldl_cons,
          List.foldl_nil, count_engine m] at hcount
        obtain ⟨ss, calls, a1, a2, a3, a4⟩ := execute_short_count e s s' now rand ret p b0 hr.lengths hmode hf hq
          hb g2 (memory_keeps hm hR) h
        rw [a1.none hs.store, List.append_nil] at a2
        rw [hlk] at a3 a4
        obtain ⟨k', s2, hk, -, rfl, hi⟩ := operations_front e s s' now rand ret p _ hr.lengths hmode hf
          ⟨_, hn, hact⟩ hb h
        have hin := instrCase_cvInstr hi (by omega)
        have hob : (engineOf m s).obey p (.short a g) =
            (((engineOf m s).counted p).write (g.writes ((engineOf m s).counted p).count), []) :=
          Prod.ext (if_pos hpr) rfl
        rw [hob]
        have hadd : Adds (fun ev => ev.isCv = true) s s2.popFront := by
          obtain ⟨evs, h1, h2⟩ := hin.adds
          exact ⟨evs, by rw [← ht]; exact h1, h2⟩
        have hw : ((engineOf m s).counted p).write (g.writes ((engineOf m s).counted p).count) =
            if locks (mem m s.trace) then (engineOf m s).counted p else
              { (engineOf m s).counted p with
                cvs := (g.writes ((engineOf m s).counted p).count).foldl applyWrite (mem m s.trace) } :=
          write_short _ g _
        rw [hw]
        refine ⟨engine_eq ?_ ?_, driving_nil hadd driving_cv, ?_, ?_⟩
        · cases hl : locks (mem m s.trace) with
          | true => rw [a2, a3 hl, List.append_nil]; rfl
          | false =>
            obtain ⟨ws, c1, -, c3⟩ := a4 hl
            rw [hpay, count_engine m] at c1
            rw [show b0 :: rest ++ [y] = b0 :: (rest ++ [y]) from rfl, g3] at c1
            cases c1
            rw [a2, mem_append, c3]
            rfl
        · rw [hcount]
          split <;> rfl
        · obtain ⟨evs, h1, -⟩ := hadd
          rw [h1]; exact List.prefix_append _ _
        · unfold Rx.serviceMode
          show decide (s2.mode = _) = _
          rw [hin.mode]
          exact m1.trans hmode

/-! ### Histories -/

theorem Engine.run_cons (d : Engine) {o : Order} {p : Packet} (hp : o.packet = .ok p) (os : List Order) :
    d.run (o :: os) = (((d.obey p o).1.run os).1, (d.obey p o).2 ++ ((d.obey p o).1.run os).2) := by
  show (match o.packet with | .error _ => _ | .ok p => _) = _
  rw [hp]

theorem Engine.run_append (d : Engine) (xs ys : List Order) : d.run (xs ++ ys) =
    (((d.run xs).1.run ys).1, (d.run xs).2 ++ ((d.run xs).1.run ys).2) := by
  induction xs generalizing d with
  | nil => simp [Engine.run]
  | cons o xs ih =>
    cases hp : o.packet with
    | error f =>
      have : ∀ zs, d.run (o :: zs) = d.run zs := by
        intro zs
        show (match o.packet with | .error _ => _ | .ok p => _) = _
        rw [hp]
      rw [List.cons_append, this, this, ih]
    | ok p => rw [List.cons_append, Engine.run_cons d hp, Engine.run_cons d hp, ih]; simp

private theorem front_none {s : Rx} (h : front s = none) : s.packetEnd = true ∨ s.deque = [] := by
  unfold front at h
  cases hp : s.packetEnd with
  | true => exact .inl rfl
  | false =>
    rw [hp, if_neg Bool.false_ne_true] at h
    exact .inr (List.head?_eq_none_iff.mp h)

/-- An order is legal. -/
def OrderItem.Legal (i : Option Order) : Prop := ∀ o, i = some o → o.Legal

theorem Spec.Engine.KeepsNumber.first {d : Engine} {os : List Order} (h : d.KeepsNumber os) : HasAddress d.cvs := h 0

theorem Spec.Engine.KeepsNumber.rest {d : Engine} {o : Order} {p : Packet} (hp : o.packet = .ok p)
    {os : List Order} (h : d.KeepsNumber (o :: os)) : (d.obey p o).1.KeepsNumber os := by
  intro k
  have := h (k + 1)
  rw [List.take_succ_cons, Engine.run_cons d hp] at this
  exact this

theorem Spec.Engine.KeepsNumber.cons {d : Engine} {o : Order} {p : Packet} (hp : o.packet = .ok p)
    {os : List Order} (h : HasAddress d.cvs) (h' : (d.obey p o).1.KeepsNumber os) : d.KeepsNumber (o :: os) := by
  intro k
  cases k with
  | zero => exact h
  | succ k => rw [List.take_succ_cons, Engine.run_cons d hp]; exact h' k

/-- What the calls other than `execute` leave to a decoder that was not assigned an address. -/
theorem idle_step {e : Env} (m : BitVec 32 → Byte) {z z1 : Rx} (hr : Reachable e z) {op : RxOp}
    (hex : op.isExecute = false) (h : z.step e op = .ok z1) (ha : z1.logon.assigned = false)
    (hmode : z.serviceMode = false) (hv : z.addrs.logon.value = 0#16) :
    Obeyed m z z1 (engineOf m z, []) ∧ z1.addrs.logon.value = 0#16 := by
  have key : ∀ {evs : List Event}, z1.trace = z.trace ++ evs →
      (∀ ev ∈ evs, ev.stores = false ∧ Event.isDriving ev = false) → z1.lastOwnCvPacket = z.lastOwnCvPacket →
      z1.ownEqualCvPackets = z.ownEqualCvPackets → z1.mode = z.mode → Obeyed m z z1 (engineOf m z, []) := by
    intro evs h1 h2 h3 h4 h5
    refine ⟨engine_eq ?_ (Prod.ext h3 h4), driving_of h1 fun ev hev => (h2 ev hev).2, h1 ▸ List.prefix_append _ _, ?_⟩
    · rw [h1, mem_append_quiet _ _ _ fun ev hev => (h2 ev hev).1]; rfl
    · rw [Rx.serviceMode, h5]; exact hmode
  have quiet : ∀ ev : Event, ev.isQuiet = true → ev.stores = false ∧ Event.isDriving ev = false := by
    intro ev hev
    cases ev <;> first | exact ⟨rfl, rfl⟩ | cases hev
  have same : ∀ {a : Rx}, Inner z a → a.trace = z.trace ∧ a.lastOwnCvPacket = z.lastOwnCvPacket ∧
      a.ownEqualCvPackets = z.ownEqualCvPackets ∧ a.mode = z.mode ∧ a.addrs.logon = z.addrs.logon := by
    intro a g
    rw [g.same]; exact ⟨rfl, rfl, rfl, rfl, rfl⟩
  have aside : Aside false z z1 → Obeyed m z z1 (engineOf m z, []) ∧ z1.addrs.logon.value = 0#16 := by
    rintro (g | ⟨ev, a, hev, g, rfl⟩)
    · obtain ⟨g1, g2, g3, g4, g5⟩ := same g
      exact ⟨key (evs := []) (by simpa using g1) (by simp) g2 g3 g4, by rw [g5]; exact hv⟩
    · obtain ⟨g1, g2, g3, g4, g5⟩ := same g
      refine ⟨key (evs := [ev]) (by rw [← g1]; rfl) ?_ g2 g3 g4, ?_⟩
      · intro ev' hev'
        rw [List.mem_singleton] at hev'
        subst hev'
        rcases hev with ⟨m, rfl⟩ | ⟨-, rfl⟩ <;> exact ⟨rfl, rfl⟩
      · show a.addrs.logon.value = _
        rw [g5]; exact hv
  cases op with
  | init =>
    obtain ⟨cv29, prim, a, v, evs, -, -, -, -, hq, rfl⟩ := init_ok e z z1 h
    exact ⟨key (evs := evs) rfl (fun ev hev => quiet ev (hq ev hev)) rfl rfl rfl, hv⟩
  | enable =>
    simp only [Rx.step, Rx.enable, Except.ok.injEq] at h
    split at h <;> cases h <;> exact ⟨key (evs := []) (List.append_nil _).symm (by simp) rfl rfl rfl, hv⟩
  | disable =>
    simp only [Rx.step, Rx.disable, Except.ok.injEq] at h
    split at h <;> cases h <;> exact ⟨key (evs := []) (List.append_nil _).symm (by simp) rfl rfl rfl, hv⟩
  | receive t r =>
    have f := (receive_frame e z hr.recvInv.room t r).out _ h
    obtain ⟨evs, h3, h4⟩ := f.adds
    refine ⟨key h3 (fun ev hev => quiet ev (h4 ev hev)) f.lastOwnCvPacket f.ownEqualCvPackets f.mode, ?_⟩
    cases receive_case e z z1 t r h with
    | plain l d a pc prc h => rw [h]; exact hv
    | logon l a s2 hp _ _ h3 hc hda hty hcrc h hs =>
      rw [hs] at ha ⊢
      exact ((unlogged_logon e _ a _ r).out _ h ha).2.2.2 hv
  | execute => cases hex
  | datagram ds => exact aside ((aside_step (k := false) rfl e z).out _ h)
  | biDiChannel1 => exact aside ((aside_step (k := false) rfl e z).out _ h)
  | biDiChannel2 => exact aside ((aside_step (k := false) rfl e z).out _ h)
  | callbackByte i v => exact aside ((aside_step (k := false) rfl e z).out _ h)
  | callbackBit i v => exact aside ((aside_step (k := false) rfl e z).out _ h)

/-- A history in operations mode in which no address is assigned. -/
theorem engine_run {e : Env} {m : BitVec 32 → Byte} (hm : MemoryLike e m) (ops : List RxOp) :
    ∀ (z z' : Rx) (items : List (Option Order)), Reachable e z → Settled m z → z.serviceMode = false →
    Along (fun x => x.logon.assigned = false) e z ops → z.run e ops = .ok z' →
    (∀ i ∈ items, OrderItem.Legal i) → items.map (sentAs Order.packet) = (executed e z ops).map .ok →
    Obeyed m z z' ((engineOf m z).run (items.filterMap id)) ∧ Settled m z' ∧
      (engineOf m z).KeepsNumber (items.filterMap id) := by
  induction ops with
  | nil =>
    intro z z' items _ hz hmode _ h _ hx
    cases h
    simp only [executed, List.map_nil, List.map_eq_nil_iff] at hx
    subst hx
    exact ⟨⟨rfl, by simp [drivingCalls, newCalls, Engine.run], List.prefix_rfl, hmode⟩, hz,
      fun k => by rw [List.filterMap_nil, List.take_nil]; exact hz.reflects.address⟩
  | cons op ops ih =>
    intro z z' items hr hz hmode hal h hleg hx
    rw [Rx.run, bind_eq_ok] at h
    obtain ⟨z1, h1, h2⟩ := h
    have hal1 := hal.2
    rw [h1] at hal1
    have hal1 : Along (fun x => x.logon.assigned = false) e z1 ops := hal1
    simp only [executed, h1] at hx
    have ha : z1.logon.assigned = false := by cases ops with
      | nil => exact hal1
      | cons => exact hal1.1
    have settled : z1.addrs.logon.value = 0#16 → Settled m z1 := by
      intro hg
      obtain ⟨h3, h4⟩ := step_keeps hm z z1 hr hz.store op h1 ha
      exact ⟨h4, ha, hg, h3.out hz.reflects⟩
    have later : ∀ is : List (Option Order), Settled m z1 → z1.serviceMode = false →
        (∀ i ∈ is, OrderItem.Legal i) → is.map (sentAs Order.packet) = (executed e z1 ops).map .ok →
        Obeyed m z1 z' ((engineOf m z1).run (is.filterMap id)) ∧ Settled m z' ∧
          (engineOf m z1).KeepsNumber (is.filterMap id) :=
      fun is g1 g2 g3 g4 => ih z1 z' is (hr.step op h1) g1 g2 hal1 h2 g3 g4
    -- what one call does
    have join : ∀ (r : Engine × List Event) (os : List Order), Obeyed m z z1 r →
        Obeyed m z1 z' ((engineOf m z1).run os) → Obeyed m z z' ((r.1.run os).1, r.2 ++ (r.1.run os).2) := by
      intro r os g1 g2
      rw [g1.engine] at g2
      exact ⟨g2.engine, by rw [drivingCalls_trans g1.trace g2.trace, g1.calls, g2.calls],
        g1.trace.trans g2.trace, g2.mode⟩
    have skip : ∀ os : List Order, Obeyed m z z1 (engineOf m z, []) →
        Obeyed m z1 z' ((engineOf m z1).run os) → Obeyed m z z' ((engineOf m z).run os) := by
      intro os g1 g2
      exact join _ os g1 g2
    by_cases hex : op.isExecute = true
    · cases op <;> try simp [RxOp.isExecute] at hex
      rename_i now rand
      have h1' := h1
      simp only [Rx.step, bind_eq_ok, pure_eq_ok, Except.ok.injEq] at h1'
      obtain ⟨⟨z2, ret⟩, h3, rfl⟩ := h1'
      cases hfr : front z with
      | none =>
        have hno := front_none hfr
        rw [execute_front_none e z now rand hno] at h3
        cases h3
        have hx' : items.map (sentAs Order.packet) = (executed e z ops).map .ok := by
          rcases hno with hno | hno <;> simpa [RxOp.isExecute, hno] using hx
        exact later items hz hmode hleg hx'
      | some p =>
        obtain ⟨hpe, rest, hdq⟩ := front_eq.mp hfr
        rw [hpe, hdq] at hx
        simp only [RxOp.isExecute, Bool.not_false, Bool.and_self, if_true, List.take_succ_cons, List.take_zero,
          List.cons_append, List.nil_append, List.map_cons] at hx
        obtain _ | ⟨i, is⟩ := items
        · cases hx
        simp only [List.map_cons, List.cons.injEq] at hx
        obtain ⟨hx1, hx2⟩ := hx
        have hset := settled (by rw [(execute_assigned h3).2]; exact hz.address)
        cases i with
        | none =>
          have hp : p = idleBytes := by
            have : (Except.ok idleBytes : R Packet) = .ok p := hx1
            cases this; rfl
          have g1 := foreign_obeyed hr hz hmode hfr (by
            rintro ⟨n, hn, -⟩
            rw [hp] at hn
            simp [idleBytes, locoNumber] at hn) h3
          obtain ⟨g2, g3, g4⟩ := later is hset g1.mode (fun i hm => hleg i (by simp [hm])) hx2
          rw [g1.engine] at g4
          exact ⟨skip _ g1 g2, g3, g4⟩
        | some o =>
          have hp : o.packet = .ok p := hx1
          have g1 := order_execute hm hr hz hmode (hleg (some o) (by simp) o rfl) hp hfr h3
          obtain ⟨g2, g3, g4⟩ := later is hset g1.mode (fun i hm => hleg i (by simp [hm])) hx2
          rw [g1.engine] at g4
          rw [List.filterMap_cons_some (f := id) rfl, Engine.run_cons _ hp]
          exact ⟨join _ _ g1 g2, g3, .cons hp hz.reflects.address g4⟩
    · simp only [Bool.not_eq_true] at hex
      obtain ⟨g1, g5⟩ := idle_step m hr hex h1 ha hmode hz.address
      obtain ⟨g2, g3, g4⟩ := later items (settled g5) g1.mode hleg (by simpa [hex] using hx)
      rw [g1.engine] at g4
      exact ⟨skip _ g1 g2, g3, g4⟩

/-- The calls other than `disable` and those of `receive` that get a packet for automatic logon leave a
decoder without an assigned address. -/
theorem unassigned_step {e : Env} {s s' : Rx} (hr : Reachable e s) {op : RxOp} (hd : op ≠ .disable)
    (hf : op.isReceive = true → s.deque.length < e.rxDeque)
    (hl : ∀ t r l p, op = .receive t r → s.link.step t = .ok (l, some (.packet p)) → isLogon p = false)
    (h : s.step e op = .ok s') : s'.logon.assigned = s.logon.assigned := by
  have aside : Aside false s s' → s'.logon.assigned = s.logon.assigned := by
    rintro (g | ⟨ev, a, hev, g, rfl⟩)
    · rw [g.same]
    · show a.logon.assigned = _
      rw [g.same]
  cases op with
  | init =>
    obtain ⟨cv29, prim, a, v, evs, -, -, -, -, hq, rfl⟩ := init_ok e s s' h
    rfl
  | disable => exact (hd rfl).elim
  | execute now rand =>
    simp only [Rx.step, bind_eq_ok, pure_eq_ok, Except.ok.injEq] at h
    obtain ⟨⟨z2, ret⟩, h3, rfl⟩ := h
    exact (execute_assigned h3).1
  | receive t r =>
    exact (other_session (fun _ => 0#8) hr (op := .receive t r) (by simp) (by simp) rfl (by simp) (by simp) hf
      hl h).2.2.2.1
  | enable =>
    simp only [Rx.step, Rx.enable, Except.ok.injEq] at h
    split at h <;> cases h <;> rfl
  | datagram ds => exact aside ((aside_step (k := false) rfl e s).out _ h)
  | biDiChannel1 => exact aside ((aside_step (k := false) rfl e s).out _ h)
  | biDiChannel2 => exact aside ((aside_step (k := false) rfl e s).out _ h)
  | callbackByte i v => exact aside ((aside_step (k := false) rfl e s).out _ h)
  | callbackBit i v => exact aside ((aside_step (k := false) rfl e s).out _ h)

/-- Without packets for automatic logon no address is assigned. -/
theorem unassigned_along {e : Env} (ops : List RxOp) : ∀ (s s' : Rx), Reachable e s →
    s.logon.assigned = false → .disable ∉ ops → NeverFull e s ops → s.run e ops = .ok s' →
    (∀ l os, s.link.run (recvTimes ops) = .ok (l, os) → ∀ p ∈ packetsOf os, isLogon p = false) →
    Along (fun x => x.logon.assigned = false) e s ops := by
  induction ops with
  | nil => intro s s' _ ha _ _ _ _; exact ha
  | cons op ops ih =>
    intro z z' hr ha hd hf h hl
    rw [Rx.run, bind_eq_ok] at h
    obtain ⟨z1, h1, h2⟩ := h
    obtain ⟨hf1, hf2⟩ := hf
    rw [h1] at hf2
    have hd1 : op ≠ .disable := fun hc => hd (by simp [hc])
    have hnl : ∀ t r l p, op = .receive t r → z.link.step t = .ok (l, some (.packet p)) →
        isLogon p = false := by
      intro t r l p hop hs
      subst hop
      obtain ⟨os, h6, _⟩ := run_interleaved e ops z1 z' h2 (fun hm => hd (by simp [hm])) hf2
      obtain ⟨o, h7, h8⟩ := receive_spec e z z1 t r h1 (hf1 rfl)
      rw [hs] at h7
      cases h7
      refine hl z'.link (.packet p :: os) ?_ p (by simp [packetsOf])
      show z.link.run (t :: recvTimes ops) = _
      rw [Link.run_cons _ hs, h6]
      rfl
    refine ⟨ha, ?_⟩
    rw [h1]
    refine ih z1 z' (hr.step op h1) ((unassigned_step hr hd1 hf1 hnl h1).trans ha)
      (fun hm => hd (by simp [hm])) hf2 h2 ?_
    intro l os hos p hp
    by_cases hrc : op.isReceive = true
    · cases op <;> try simp [RxOp.isReceive] at hrc
      rename_i t r
      obtain ⟨o, h7, h8⟩ := receive_spec e z z1 t r h1 (hf1 rfl)
      refine hl l (o.toList ++ os) ?_ p ?_
      · show z.link.run (t :: recvTimes ops) = _
        rw [Link.run_cons _ h7, hos]
        rfl
      · simp only [packetsOf, List.filterMap_append, List.mem_append]
        exact .inr hp
    · have hrc' : op.isReceive = false := by simpa using hrc
      have h5 : z1.link = z.link := (step_other e z z1 op h1 (by
        intro t r hc; subst hc; simp [RxOp.isReceive] at hrc') hd1).1
      have : recvTimes (op :: ops) = recvTimes ops := by
        cases op <;> first | rfl | simp [RxOp.isReceive] at hrc'
      rw [h5] at hos
      exact hl l os (by rw [this]; exact hos) p hp

end Dcc
