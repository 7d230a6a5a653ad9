import Verif.Lemmas.RxMode
import Verif.Spec.Memory
/-! Which packets are executed: C32, C33, C34, C41, C44, C60, C62, C63, C68. -/
namespace Dcc
open Spec

/-! ### C32, C33 -/

/-- **C32** Executing a packet that is neither broadcast nor for an active address returns false,
makes no call except those that store the data of an automatic logon waiting from before, and leaves
addresses, configuration, mode, pending answers and everything else about commands alone. -/
theorem C32_foreign_ignored (e : Env) (s : Rx) (hr : Reachable e s) (now : Int) (rand : Nat)
    (p : Packet) (hf : front s = some p) (hm : s.serviceMode = false) (hp : ¬ ForDecoder s p) :
    ∃ s' evs, s.execute e now rand = .ok (s', false) ∧ s'.deque = s.deque.tail ∧
      s'.trace = s.trace ++ evs ∧ LogonStores s evs ∧
      s'.addrs = s.addrs ∧ s'.cfg = s.cfg ∧ s'.mode = s.mode ∧ s'.man = s.man ∧
      s'.callbacks = s.callbacks ∧ s'.lastOwnCvPacket = s.lastOwnCvPacket ∧
      s'.ownEqualCvPackets = s.ownEqualCvPackets ∧ s'.indexReg = s.indexReg ∧
      s'.q.pom = s.q.pom ∧ s'.q.tos = s.q.tos ∧ s'.q.dyn = s.q.dyn := by
  unfold front at hf
  split at hf
  · cases hf
  rename_i hpe
  obtain ⟨rest, hd⟩ : ∃ rest, s.deque = p :: rest := by
    cases h : s.deque with
    | nil => simp [h] at hf
    | cons q rest => simp [h] at hf; exact ⟨rest, by rw [hf]⟩
  have hv := (hr.recvInv.valid p (by simp [hd])).1.min
  obtain ⟨evs, ht, hl⟩ := prepared_trace e s now
  have f := (prepare_total e s now).2
  refine ⟨(s.prepared e now).popFront, evs,
    execute_foreign e s now rand p rest (by simpa using hpe) hd hm (by omega) hp, ?_, ht, hl, f.addrs,
    f.cfg, f.mode, f.man, f.callbacks, f.lastOwnCvPacket, f.ownEqualCvPackets, f.indexReg, f.qpom,
    f.qtos, f.qdyn⟩
  simp [Rx.popFront, f.deque]

/-- **C33** In operations mode `execute()` returns true exactly if a packet was handled that is
broadcast or for an active address. -/
theorem C33_execute_result (e : Env) (s s' : Rx) (hr : Reachable e s) (now : Int) (rand : Nat)
    (ret : Bool) (hm : s.serviceMode = false) (h : s.execute e now rand = .ok (s', ret)) :
    ret = true ↔ ∃ p, front s = some p ∧ ForDecoder s p := by
  have hv : ∀ p ∈ s.deque, 2 ≤ p.length := fun p hp =>
    Nat.le_of_succ_le (hr.recvInv.valid p hp).1.min
  cases exec_cases e s s' now rand ret hv h with
  | idle h hs hr =>
    refine ⟨fun h' => by simp [h'] at hr, ?_⟩
    rintro ⟨p, hp, _⟩
    unfold front at hp
    rcases h with h | h <;> simp [h] at hp
  | operations p rest n s2 hp hd hm hn hf h hs hr =>
    exact ⟨fun _ => ⟨p, by simp [front, hp, hd], n, hn, hf⟩, fun _ => hr⟩
  | foreign p rest hp hd hm hf hs hr =>
    refine ⟨fun h' => by simp [h'] at hr, ?_⟩
    rintro ⟨q, hq, hq2⟩
    simp [front, hp, hd] at hq
    subst hq
    exact absurd hq2 hf
  | service p rest s2 hp hd hm' h hs => rw [hm] at hm'; cases hm'

/-- The decoder with address 3 has a packet for address 5 at the front of its queue. -/
example : holdsAfter (({} : Rx).run exampleEnv (.init :: hears [5#8, 0x6A#8, 0x6F#8])) (fun s =>
    decide (front s = some [5#8, 0x6A#8, 0x6F#8] ∧ s.serviceMode = false ∧
      ¬ ForDecoder s [5#8, 0x6A#8, 0x6F#8])) = true := by decide +kernel

/-- The decoder with address 3 has a packet for its address at the front of its queue. -/
example : holdsAfter (({} : Rx).run exampleEnv (.init :: hears [3#8, 0x6A#8, 0x69#8])) (fun s =>
    decide (front s = some [3#8, 0x6A#8, 0x69#8] ∧ s.serviceMode = false ∧
      ForDecoder s [3#8, 0x6A#8, 0x69#8])) = true := by decide +kernel

/-! ### C34 -/

/-- **C34** While a logon address is assigned only this address is active: packets to the primary or
consist address are ignored like any other foreign address unless they carry the same number. -/
theorem C34_logon_replaces (e : Env) (s : Rx) (hr : Reachable e s) (now : Int) (rand : Nat)
    (p : Packet) (n : Nat) (hl : s.addrs.logon.value ≠ 0#16) (hf : front s = some p)
    (hm : s.serviceMode = false) (hn : locoNumber p = some n) (h0 : n ≠ 0)
    (hne : n ≠ s.addrs.logon.value.toNat) :
    ∃ s' evs, s.execute e now rand = .ok (s', false) ∧ s'.trace = s.trace ++ evs ∧
      LogonStores s evs ∧ s'.addrs = s.addrs ∧ s'.cfg = s.cfg ∧ s'.mode = s.mode ∧
      s'.lastOwnCvPacket = s.lastOwnCvPacket := by
  have hp : ¬ ForDecoder s p := by
    rintro ⟨m, h1, h2⟩
    rw [hn] at h1
    cases h1
    rcases h2 with h2 | h2
    · exact h0 h2
    · unfold Active at h2
      rw [if_neg hl] at h2
      exact hne h2.2
  obtain ⟨s', evs, h1, h2, h3, h4, h5, h6, h7, h8, h9, h10, _⟩ :=
    C32_foreign_ignored e s hr now rand p hf hm hp
  exact ⟨s', evs, h1, h3, h4, h5, h6, h7, h10⟩

/-- **C34** Packets to the logon address are executed with the primary address: after the calls
storing logon data, every call for the locomotive carries the primary address. -/
theorem C34_logon_acts_as_primary (e : Env) (s s' : Rx) (hr : Reachable e s) (now : Int) (rand : Nat)
    (ret : Bool) (p : Packet) (n : Nat) (hl : s.addrs.logon.value ≠ 0#16) (hf : front s = some p)
    (hm : s.serviceMode = false) (hn : locoNumber p = some n) (h0 : n ≠ 0)
    (hloco : s.addrs.logon.type.isLoco = true) (he : n = s.addrs.logon.value.toNat)
    (h : s.execute e now rand = .ok (s', ret)) :
    ret = true ∧
    (∃ stores evs, s'.trace = s.trace ++ stores ++ evs ∧ LogonStores s stores ∧
      ∀ ev ∈ evs, ∀ a, ev.locoAddr = some a → a = s.addrs.primary.value) ∧
    -- the instruction bytes are executed with the primary address
    ∃ s1 s2 : Rx, (∃ stores, s1.trace = s.trace ++ stores ∧ LogonStores s stores) ∧ s1.addrs = s.addrs ∧
      s1.cfg = s.cfg ∧ s1.mode = s.mode ∧
      s1.executeInstruction e s.addrs.primary.value p (afterAddress p) rand = .ok s2 ∧
      s' = s2.popFront := by
  have hv : ∀ p ∈ s.deque, 2 ≤ p.length := fun p hp =>
    Nat.le_of_succ_le (hr.recvInv.valid p hp).1.min
  have hact : Active s n := by
    unfold Active
    rw [if_neg hl]
    exact ⟨hloco, he⟩
  unfold front at hf
  split at hf
  · cases hf
  rename_i hpe
  have hpe : s.packetEnd = false := by simpa using hpe
  obtain ⟨rest, hd⟩ : ∃ rest, s.deque = p :: rest := by
    cases h : s.deque with
    | nil => simp [h] at hf
    | cons q rest => simp [h] at hf; exact ⟨rest, by rw [hf]⟩
  have ht : target s n = s.addrs.primary.value := by simp [target, h0, hl]
  rw [execute_for e s now rand n p rest hpe hd hm hn (.inr hact), bind_eq_ok, ht] at h
  obtain ⟨s2, h1, h2⟩ := h
  cases h2
  have f := (prepare_total e s now).2
  obtain ⟨stores, ht1, hl1⟩ := prepared_trace e s now
  obtain ⟨evs, ht2, hl2⟩ := instruction_locoAddr e _ s2 _ p _ rand h1
  exact ⟨rfl, ⟨stores, evs, by rw [← ht1]; exact ht2, hl1, hl2⟩,
    _, s2, ⟨stores, ht1, hl1⟩, f.addrs, f.cfg, f.mode, h1, rfl⟩

/-! ### C41 -/

/-- **C41** What one call does to the mode: service mode is entered exactly by executing a packet
with address value zero and a zero instruction byte, it is left exactly by executing a packet whose
first byte is neither zero nor 0x70 to 0x7F, and the hook is called exactly at these transitions,
once. -/
theorem C41_service_mode_step (e : Env) (s s' : Rx) (hr : Reachable e s) (op : RxOp)
    (h : s.step e op = .ok s') :
    ∃ evs, s'.trace = s.trace ++ evs ∧
      ((Enters s op ∧ s'.serviceMode = true ∧ hooks evs = [true]) ∨
       (Leaves s op ∧ s'.serviceMode = false ∧ hooks evs = [false]) ∨
       (¬ Enters s op ∧ ¬ Leaves s op ∧ s'.serviceMode = s.serviceMode ∧ hooks evs = [])) := by
  cases hx : op.isExecute
  · obtain ⟨evs, h1, h2, h3⟩ := step_sameMode e s s' op hr.recvInv.room h hx
    exact ⟨evs, h1, .inr (.inr ⟨fun hh => by simp [hh.1] at hx, fun hh => by simp [hh.1] at hx,
      by simp [Rx.serviceMode, h2], h3⟩)⟩
  obtain ⟨now, rand, rfl⟩ : ∃ now rand, op = .execute now rand := by
    cases op <;> first | exact ⟨_, _, rfl⟩ | cases hx
  simp only [Rx.step, bind_eq_ok, pure_eq_ok, Except.ok.injEq] at h
  obtain ⟨⟨s1, ret⟩, h1, h⟩ := h
  simp only at h
  subst h
  have hv : ∀ p ∈ s.deque, 2 ≤ p.length := fun p hp =>
    Nat.le_of_succ_le (hr.recvInv.valid p hp).1.min
  -- nothing about the mode happened
  have same : SameMode s s1 → ¬ Enters s (.execute now rand) → ¬ Leaves s (.execute now rand) →
      ∃ evs, s1.trace = s.trace ++ evs ∧
      ((Enters s (.execute now rand) ∧ s1.serviceMode = true ∧ hooks evs = [true]) ∨
       (Leaves s (.execute now rand) ∧ s1.serviceMode = false ∧ hooks evs = [false]) ∨
       (¬ Enters s (.execute now rand) ∧ ¬ Leaves s (.execute now rand) ∧
        s1.serviceMode = s.serviceMode ∧ hooks evs = [])) := by
    rintro ⟨evs, t, m, k⟩ h2 h3
    exact ⟨evs, t, .inr (.inr ⟨h2, h3, by simp [Rx.serviceMode, m], k⟩)⟩
  have hprep := prepared_sameMode e s now
  cases exec_cases e s s1 now rand ret hv h1 with
  | idle h hs hr =>
    subst hs
    have hn : front s1 = none := by
      unfold front
      rcases h with h | h <;> simp [h]
    exact same ⟨[], by simp, rfl, rfl⟩ (fun ⟨_, _, p, _, hp, _⟩ => by simp [hn] at hp)
      (fun ⟨_, _, p, _, hp, _⟩ => by simp [hn] at hp)
  | foreign p rest hp hd hm hf hs hr =>
    subst hs
    refine same hprep ?_ (fun hh => absurd hh.2.1 (by simp [hm]))
    rintro ⟨_, _, q, n, hq, hq2, hq3, _⟩
    obtain ⟨_, _, hd2⟩ := front_eq.mp hq
    rw [hd] at hd2
    cases hd2
    exact hf ⟨n, hq2, hq3.imp_right And.left⟩
  | operations p rest n s2 hp hd hm hn hf h hs hr =>
    have hnl : ¬ Leaves s (.execute now rand) := fun hh => absurd hh.2.1 (by simp [hm])
    obtain ⟨b, hb, hc⟩ := instruction_cases e _ s2 _ p _ rand h
    have hne : ¬ (target s n = 0#16 ∧ b = 0#8) → ¬ Enters s (.execute now rand) := by
      rintro hne ⟨_, _, q, m, hq, hq2, hq3, hq4⟩
      obtain ⟨_, _, hd2⟩ := front_eq.mp hq
      rw [hd] at hd2
      cases hd2
      rw [hn] at hq2
      cases hq2
      rw [hb] at hq4
      cases hq4
      refine hne ⟨?_, rfl⟩
      rcases hq3 with rfl | hq3
      · simp [target]
      · exact hq3.2
    have hsame : SameMode (s.prepared e now) s2 → SameMode s s1 := by
      intro h2
      obtain ⟨evs, t, m, k⟩ := hprep.trans h2
      subst hs
      exact ⟨evs, t, m, k⟩
    have hno : decodeInstructionByte b ≠ .decoderControl → ¬ Enters s (.execute now rand) := by
      intro h1
      exact hne fun hh => h1 (by rw [hh.2]; decide)
    cases hc with
    | enter ha hb0 hs2 =>
      subst hs hs2
      obtain ⟨evs, t, m, k⟩ := hprep
      refine ⟨evs ++ [.serviceModeHook true], ?_, .inl ⟨⟨rfl, hm, p, n,
        front_eq.mpr ⟨hp, rest, hd⟩, hn, hf.imp_right fun hf => ⟨hf, ha⟩, by rw [hb, hb0]⟩, rfl, ?_⟩⟩
      · simp [Rx.popFront, Rx.setServiceMode, Rx.emit, t]
      · rw [hooks_append, k]
        rfl
    | control hc hn0 hs2 => exact same (hsame (hs2 ▸ ⟨[], by simp, rfl, rfl⟩)) (hne hn0) hnl
    | consist hc hs2 =>
      exact same (hsame (instr_sameMode ((instr_consist ..).out _ hs2).instr)) (hno (by simp [hc])) hnl
    | drives hc hs2 =>
      obtain ⟨evs, m, rfl, hq⟩ := hs2
      refine same (hsame ⟨evs, rfl, rfl, hooks_nil fun ev hev c hcc => ?_⟩) (hno ?_) hnl
      · have := hq ev hev
        rw [hcc] at this
        cases this
      · rcases hc with hc | hc | hc | hc | hc
        · simp [hc]
        · simp [hc]
        · simp [hc]
        · rw [hc]; decide
        · rw [hc]; decide
    | searches hc h1 h2 hs2 =>
      obtain ⟨b, q, rfl⟩ := hs2
      exact same (hsame ⟨[], by simp, rfl, rfl⟩) (hno (by simp [hc])) hnl
    | cvLong hc hs2 =>
      exact same (hsame (instr_sameMode ((instr_cvLong ..).out _ hs2))) (hno (by simp [hc])) hnl
    | cvShort hc hs2 =>
      exact same (hsame (instr_sameMode ((instr_cvShort ..).out _ hs2))) (hno (by simp [hc])) hnl
  | service p rest s2 hp hd hm h hs =>
    have hne : ¬ Enters s (.execute now rand) := fun hh => absurd hh.2.1 (by simp [hm])
    have hsame : SameMode (s.prepared e now) s2 → SameMode s s1 := by
      intro h2
      obtain ⟨evs, t, m, k⟩ := hprep.trans h2
      subst hs
      exact ⟨evs, t, m, k⟩
    have hnl : ∀ b rest', p = b :: rest' → (b = 0#8 ∨ b &&& 0xF0#8 = 0x70#8) →
        ¬ Leaves s (.execute now rand) := by
      rintro b rest' hb hb2 ⟨_, _, q, c, hq, hc, h0, h7⟩
      obtain ⟨_, _, hd2⟩ := front_eq.mp hq
      rw [hd] at hd2
      cases hd2
      rw [hb] at hc
      cases hc
      rcases hb2 with rfl | hb2
      · exact h0 rfl
      · exact h7 ((nibble7 b).mp hb2)
    obtain ⟨hc, -⟩ := service_cases e _ s2 p ret h
    cases hc with
    | ignored h hs2 =>
      refine same (hsame (hs2 ▸ ⟨[], by simp, rfl, rfl⟩)) hne ?_
      rcases h with ⟨rest', hb⟩ | ⟨b, rest', hb, h7, _⟩
      · exact hnl _ rest' hb (.inl rfl)
      · exact hnl _ rest' hb (.inr h7)
    | leave b rest' hb h0 h7 hs2 =>
      subst hs hs2
      obtain ⟨evs, t, m, k⟩ := hprep
      refine ⟨evs ++ [.serviceModeHook false], ?_, .inr (.inl ⟨⟨rfl, hm, p, b,
        front_eq.mpr ⟨hp, rest, hd⟩, by rw [hb]; rfl, fun hh => h0 (BitVec.eq_of_toNat_eq hh),
        fun hh => h7 ((nibble7 b).mpr hh)⟩, rfl, ?_⟩)⟩
      · simp [Rx.popFront, Rx.setServiceMode, Rx.emit, t]
      · rw [hooks_append, k]
        rfl
    | register b rest' hb h7 hl hs2 =>
      refine same (hsame ?_) hne (hnl b rest' hb (.inr h7))
      rcases (cv_registerMode e _ p).out _ hs2 with h | ⟨r, rfl⟩
      · exact instr_sameMode h.instr
      · exact ⟨[], by simp, rfl, rfl⟩
    | direct b rest' hb h7 hl hs2 =>
      exact same (hsame (instr_sameMode ((instr_cvLong ..).out _ hs2))) hne (hnl b rest' hb (.inr h7))

/-- **C41** If the primary address is not zero, service mode is entered exactly by packets that carry
address value zero. -/
theorem C41_entry_address (s : Rx) (op : RxOp) (hp : s.addrs.primary.value ≠ 0#16) :
    Enters s op ↔ op.isExecute = true ∧ s.serviceMode = false ∧
      ∃ p, front s = some p ∧ locoNumber p = some 0 ∧ (afterAddress p).head? = some 0#8 := by
  constructor
  · rintro ⟨h1, h2, p, n, h3, h4, h5, h6⟩
    refine ⟨h1, h2, p, h3, ?_, h6⟩
    rcases h5 with rfl | ⟨_, h5⟩
    · exact h4
    · unfold target at h5
      split at h5
      · obtain ⟨a, _, _, hlt, _⟩ := decode_loco p n h4
        have := congrArg BitVec.toNat h5
        simp at this
        rw [h4]
        congr 1
        omega
      · exact absurd h5 hp
  · rintro ⟨h1, h2, p, h3, h4, h5⟩
    exact ⟨h1, h2, p, 0, h3, h4, .inl rfl, h5⟩

/-- **C41** Over any history the hooks are called alternately, beginning with entering, and
`serviceMode()` reports the last one. -/
theorem C41_service_mode_history (e : Env) (s : Rx) (hr : Reachable e s) :
    Alternates true (hooks s.trace) ∧ s.serviceMode = (hooks s.trace).getLast?.getD false := by
  induction hr with
  | start => exact ⟨trivial, rfl⟩
  | @step s s' op hr hs ih =>
    obtain ⟨ih1, ih2⟩ := ih
    obtain ⟨evs, h1, h2⟩ := C41_service_mode_step e s s' hr op hs
    have hlast : ∀ (l : List Bool) (b : Bool), l.getLast?.getD false = !b → (l = [] → b = true) →
        b = (l.getLast?.map (!·)).getD true := by
      intro l b h hn
      cases hl : l.getLast? with
      | none => simp; exact hn (by simpa using hl)
      | some y => rw [hl] at h; simp at h ⊢; simp [h]
    rw [h1, hooks_append]
    rcases h2 with ⟨h2, h3, h4⟩ | ⟨h2, h3, h4⟩ | ⟨_, _, h3, h4⟩
    · rw [h4]
      refine ⟨ih1.snoc (hlast _ _ (by rw [← ih2]; exact h2.2.1) (fun _ => rfl)), by simp [h3]⟩
    · rw [h4]
      refine ⟨ih1.snoc (hlast _ _ (by rw [← ih2]; exact h2.2.1) ?_), by simp [h3]⟩
      intro hn
      have := h2.2.1
      rw [ih2, hn] at this
      cases this
    · rw [h4, List.append_nil]
      exact ⟨ih1, by rw [h3, ih2]⟩

/-- Three broadcast reset packets and a service mode packet, then an exit. -/
example : holdsAfter (({} : Rx).run exampleEnv (.init :: (hears [0#8, 0#8, 0#8] ++ [.execute 0 0] ++
    hears [0#8, 0#8, 0#8] ++ [.execute 0 0] ++ hears [0x7C#8, 0#8, 3#8, 0x7F#8] ++ [.execute 0 0] ++
    hears [3#8, 0x6A#8, 0x69#8] ++ [.execute 0 0]))) (fun s =>
    hooks s.trace == [true, false] && !s.serviceMode) = true := by decide +kernel

/-- The second hypothesis about the address: a decoder with CV1 = 0 that got a logon address. -/
example : Enters { deque := [[7#8, 0#8, 7#8]], addrs := { logon := { value := 7#16, type := .short } } }
    (.execute 0 0) := ⟨rfl, rfl, [7#8, 0#8, 7#8], 7, rfl, rfl, .inr (by decide), rfl⟩

/-! ### C44 -/

/-- **C44** A CV access instruction (long or short form) through a consist address is executed without
any effect: no call but those storing logon data, nothing counted, answered or changed.  The consist
address is meant as an address of its own: not zero and not the number of an assigned logon
address. -/
theorem C44_no_cv_access_by_consist (e : Env) (s s' : Rx) (hr : Reachable e s) (now : Int)
    (rand : Nat) (ret : Bool) (p : Packet) (b : Byte) (hf : front s = some p)
    (hm : s.serviceMode = false) (hn : locoNumber p = some s.addrs.consist.value.toNat)
    (h0 : s.addrs.consist.value ≠ 0#16) (hl : s.addrs.logon.value ≠ s.addrs.consist.value)
    (hb : (afterAddress p).head? = some b) (hcv : 0xE0 ≤ b.toNat)
    (h : s.execute e now rand = .ok (s', ret)) :
    ∃ stores, s'.trace = s.trace ++ stores ∧ LogonStores s stores ∧ s'.addrs = s.addrs ∧
      s'.cfg = s.cfg ∧ s'.callbacks = s.callbacks ∧ s'.q.pom = s.q.pom ∧
      s'.lastOwnCvPacket = s.lastOwnCvPacket ∧ s'.ownEqualCvPackets = s.ownEqualCvPackets := by
  have hv : ∀ p ∈ s.deque, 2 ≤ p.length := fun p hp =>
    Nat.le_of_succ_le (hr.recvInv.valid p hp).1.min
  obtain ⟨hpe, rest, hd⟩ := front_eq.mp hf
  have f := (prepare_total e s now).2
  obtain ⟨stores, ht, hs⟩ := prepared_trace e s now
  have done : s' = (s.prepared e now).popFront → ∃ stores, s'.trace = s.trace ++ stores ∧
      LogonStores s stores ∧ s'.addrs = s.addrs ∧
      s'.cfg = s.cfg ∧ s'.callbacks = s.callbacks ∧ s'.q.pom = s.q.pom ∧
      s'.lastOwnCvPacket = s.lastOwnCvPacket ∧ s'.ownEqualCvPackets = s.ownEqualCvPackets := by
    rintro rfl
    exact ⟨stores, ht, hs, f.addrs, f.cfg, f.callbacks, f.qpom, f.lastOwnCvPacket,
      f.ownEqualCvPackets⟩
  cases exec_cases e s s' now rand ret hv h with
  | idle h hs hr =>
    rcases h with h | h
    · rw [hpe] at h; cases h
    · rw [hd] at h; cases h
  | foreign q rest' hp hd' hm hf' hs' hr' => exact done hs'
  | service q rest' s2 hp hd' hm' h hs => rw [hm] at hm'; cases hm'
  | operations q rest' n s2 hp hd' hm hn' hf' h hs' hr' =>
    rw [hd] at hd'
    cases hd'
    rw [hn] at hn'
    cases hn'
    have hlt : s.addrs.consist.value.toNat < 65536 := s.addrs.consist.value.isLt
    have hz : s.addrs.consist.value.toNat ≠ 0 := fun hh => h0 (BitVec.eq_of_toNat_eq hh)
    have hlz : s.addrs.logon.value = 0#16 := by
      rcases hf' with hf' | hf'
      · exact absurd hf' hz
      · unfold Active at hf'
        split at hf'
        · assumption
        · exact absurd (BitVec.eq_of_toNat_eq hf'.2.symm) hl
    have ht2 : target s s.addrs.consist.value.toNat = s.addrs.consist.value := by
      simp [target, hlz]
    have hblock : target s s.addrs.consist.value.toNat ≠ 0#16 ∧
        target s s.addrs.consist.value.toNat = (s.prepared e now).addrs.consist.value := by
      rw [ht2, f.addrs]
      exact ⟨h0, rfl⟩
    obtain ⟨c, hc, hcase⟩ := instruction_cases e _ s2 _ p _ rand h
    rw [hb] at hc
    cases hc
    have hcl : ∀ b : Byte, 0xE0 ≤ b.toNat → decodeInstructionByte b = .cvLong ∨
        decodeInstructionByte b = .cvShort := by decide +kernel
    have hcl := hcl b hcv
    cases hcase with
    | enter ha hb0 => rw [hb0] at hcv; exact absurd hcv (by decide)
    | control hc | consist hc | searches hc => rw [hc] at hcl; simp at hcl
    | drives hc =>
      rcases hc with hc | hc | hc | hc | hc
      · rw [hc] at hcl; simp at hcl
      · rw [hc] at hcl; simp at hcl
      · rw [hc] at hcl; simp at hcl
      · rw [hc] at hcl; exact absurd hcl (by decide)
      · rw [hc] at hcl; exact absurd hcl (by decide)
    | cvLong hc hs2 =>
      unfold Rx.cvLong at hs2
      rw [if_pos hblock] at hs2
      cases hs2
      exact done hs'
    | cvShort hc hs2 =>
      unfold Rx.cvShort at hs2
      rw [if_pos hblock] at hs2
      cases hs2
      exact done hs'

/-- A decoder in consist 5 and a CV write to address 5. -/
example : holdsAfter (({} : Rx).run exampleEnv (.init :: (hears [3#8, 0x12#8, 5#8, 0x14#8] ++ [.execute 0 0] ++
    hears [5#8, 0xEC#8, 2#8, 7#8, 0xEC#8]))) (fun s =>
    decide (front s = some [5#8, 0xEC#8, 2#8, 7#8, 0xEC#8] ∧ s.serviceMode = false ∧
      s.addrs.consist.value = 5#16 ∧ s.addrs.logon.value = 0#16)) = true := by decide +kernel

/-! ### C60 -/

/-- **C60** (partial) A special operating modes packet sets `man()` to bit 7 and, if the user's class
wants to know, reports east for bit 6 and west for bit 5 (bit 6 taking precedence).  Missing: neither
of the two, see `C60_neither_direction_false`. -/
theorem C60_east_west_man_partial (e : Env) (s : Rx) (now : Int) (rand n : Nat)
    (p : Packet) (b : Byte) (rest : List Byte) (hf : front s = some p) (hm : s.serviceMode = false)
    (hn : locoNumber p = some n) (ha : n = 0 ∨ Active s n)
    (hb : afterAddress p = 0x3E#8 :: b :: rest) :
    ∃ s' stores, s.execute e now rand = .ok (s', true) ∧ s'.man = b.getLsbD 7 ∧
      LogonStores s stores ∧
      (e.eastWest = false → s'.trace = s.trace ++ stores) ∧
      (e.eastWest = true → b.getLsbD 6 = true →
        s'.trace = s.trace ++ stores ++ [.eastWestDirection (target s n) (some true)]) ∧
      (e.eastWest = true → b.getLsbD 6 = false → b.getLsbD 5 = true →
        s'.trace = s.trace ++ stores ++ [.eastWestDirection (target s n) (some false)]) := by
  obtain ⟨s', stores, h1, h2, h3, h4⟩ := special_execute e s now rand n p b rest hf hm hn ha hb
  refine ⟨s', stores, h1, h2, h3, fun h => ?_, fun h h6 => ?_, fun h h6 _ => ?_⟩ <;> rw [h4, h]
  · simp
  · rw [h6]; rfl
  · rw [h6]; rfl

/-- **C60** Negation: with neither bit 6 nor bit 5 set the user's class is always told west, never
that neither holds. -/
theorem C60_neither_direction_false (e : Env) (s : Rx) (now : Int) (rand n : Nat)
    (p : Packet) (b : Byte) (rest : List Byte) (hf : front s = some p) (hm : s.serviceMode = false)
    (hn : locoNumber p = some n) (ha : n = 0 ∨ Active s n) (he : e.eastWest = true)
    (hb : afterAddress p = 0x3E#8 :: b :: rest) (h6 : b.getLsbD 6 = false) (_h5 : b.getLsbD 5 = false) :
    ∃ s' stores, s.execute e now rand = .ok (s', true) ∧ LogonStores s stores ∧
      s'.trace = s.trace ++ stores ++ [.eastWestDirection (target s n) (some false)] := by
  obtain ⟨s', stores, h1, h2, h3, h4⟩ := special_execute e s now rand n p b rest hf hm hn ha hb
  exact ⟨s', stores, h1, h3, by rw [h4, he, h6]; rfl⟩

/-- A special operating modes packet with neither direction bit for the decoder with address 3. -/
example : holdsAfter (({} : Rx).run { exampleEnv with eastWest := true }
    (.init :: hears [3#8, 0x3E#8, 0x80#8, 0xBD#8])) (fun s =>
    decide (front s = some [3#8, 0x3E#8, 0x80#8, 0xBD#8] ∧ s.serviceMode = false ∧ Active s 3 ∧
      locoNumber [3#8, 0x3E#8, 0x80#8, 0xBD#8] = some 3)) = true := by decide +kernel

/-! ### C62 -/

/-- **C62** `execute()` without a packet to handle does nothing. -/
theorem C62_execute_without_packet (e : Env) (s : Rx) (now : Int) (rand : Nat)
    (h : front s = none) : s.execute e now rand = .ok (s, false) := by
  unfold Rx.execute
  rw [if_pos]
  unfold front at h
  split at h
  · simp [*]
  · cases hd : s.deque with
    | nil => simp
    | cons p rest => simp [hd] at h

/-- **C62** With nothing pending channel 1 does nothing. -/
theorem C62_channel1_without_pending (s : Rx) (ha : s.q.adr = []) (hl : s.q.logon = []) :
    s.biDiChannel1 = s := by
  unfold Rx.biDiChannel1 Rx.appAdr Rx.appLogon1
  rw [ha, hl]
  split <;> rfl

/-- **C62** With nothing pending channel 2 does nothing, or acknowledges a CV access packet to the
decoder that has not been executed yet. -/
theorem C62_channel2_without_pending (s s' : Rx) (hd : s.q.dyn = []) (hl : s.q.logon = [])
    (ht : s.q.tos = []) (hp : s.q.pom = []) (h : s.biDiChannel2 = .ok s') :
    s' = s ∨ (s' = s.emit (.transmitBiDi (acks.take 1)) ∧ s.cfg.ch2DataEnabled = true ∧
      decodeInstructionPacket s.link.packet = .ok .cvLong ∧ s.link.packet ≠ s.lastOwnCvPacket) := by
  cases (channel2_cases s).out _ h with
  | nothing => exact .inl rfl
  | tos h => left; simp [Rx.appTos, ht]
  | dyn h => left; simp [Rx.appDyn, hd]
  | logon h => left; simp [Rx.appLogon2, hl]
  | pom h1 h2 h3 =>
    unfold Rx.appPom
    split
    · exact .inl rfl
    split
    · exact .inr ⟨rfl, by simp_all, h3, by assumption⟩
    · left; rw [hp]

/-- The state after `init` has nothing pending. -/
example : holdsAfter (({} : Rx).run exampleEnv [.init]) (fun s =>
    decide (front s = none ∧ s.q.adr = [] ∧ s.q.logon = [] ∧ s.q.dyn = [] ∧ s.q.tos = [] ∧ s.q.pom = [])) = true := by
  decide +kernel

/-! ### C63 -/

/-- **C63** Unsupported instructions (decoder control, binary states, time, system time, the analog
function group, ...) make no call except those storing logon data and leave addresses, configuration,
mode and CV access alone. -/
theorem C63_unsupported_no_effect (e : Env) (s s' : Rx) (hr : Reachable e s) (now : Int) (rand : Nat)
    (ret : Bool) (p : Packet) (b : Byte) (hf : front s = some p) (hm : s.serviceMode = false)
    (hb : (afterAddress p).head? = some b) (hu : Unsupported b)
    (hne : ¬ Enters s (.execute now rand)) (h : s.execute e now rand = .ok (s', ret)) :
    ∃ stores, s'.trace = s.trace ++ stores ∧ LogonStores s stores ∧ s'.addrs = s.addrs ∧
      s'.cfg = s.cfg ∧ s'.mode = s.mode ∧ s'.man = s.man ∧ s'.callbacks = s.callbacks ∧
      s'.q.pom = s.q.pom ∧ s'.q.dyn = s.q.dyn ∧
      s'.lastOwnCvPacket = s.lastOwnCvPacket ∧ s'.ownEqualCvPackets = s.ownEqualCvPackets := by
  have hv : ∀ p ∈ s.deque, 2 ≤ p.length := fun p hp =>
    Nat.le_of_succ_le (hr.recvInv.valid p hp).1.min
  obtain ⟨hpe, rest, hd⟩ := front_eq.mp hf
  have f := (prepare_total e s now).2
  obtain ⟨stores, ht, hs⟩ := prepared_trace e s now
  cases exec_cases e s s' now rand ret hv h with
  | idle h hs hr =>
    rcases h with h | h
    · rw [hpe] at h; cases h
    · rw [hd] at h; cases h
  | foreign q rest' hp hd' hm hf' hs' hr' =>
    subst hs'
    exact ⟨stores, ht, hs, f.addrs, f.cfg, f.mode, f.man, f.callbacks, f.qpom, f.qdyn,
      f.lastOwnCvPacket, f.ownEqualCvPackets⟩
  | service q rest' s2 hp hd' hm' h hs => rw [hm] at hm'; cases hm'
  | operations q rest' n s2 hp hd' hm hn' hf' h hs' hr' =>
    rw [hd] at hd'
    cases hd'
    obtain ⟨c, hc, hcase⟩ := instruction_cases e _ s2 _ p _ rand h
    rw [hb] at hc
    cases hc
    have done : (∃ b q, s2 = { s.prepared e now with
        tosBackoff := b, q := { (s.prepared e now).q with tos := q } }) →
      ∃ stores, s'.trace = s.trace ++ stores ∧ LogonStores s stores ∧ s'.addrs = s.addrs ∧
      s'.cfg = s.cfg ∧ s'.mode = s.mode ∧ s'.man = s.man ∧ s'.callbacks = s.callbacks ∧
      s'.q.pom = s.q.pom ∧ s'.q.dyn = s.q.dyn ∧
      s'.lastOwnCvPacket = s.lastOwnCvPacket ∧ s'.ownEqualCvPackets = s.ownEqualCvPackets := by
      rintro ⟨bo, q, rfl⟩
      subst hs'
      exact ⟨stores, ht, hs, f.addrs, f.cfg, f.mode, f.man, f.callbacks, f.qpom, f.qdyn,
        f.lastOwnCvPacket, f.ownEqualCvPackets⟩
    cases hcase with
    | enter ha hb0 hs2 =>
      exact absurd ⟨rfl, hm, p, n, hf, hn', hf'.imp_right fun h => ⟨h, ha⟩, by rw [hb, hb0]⟩ hne
    | control hc hn0 hs2 => exact done ⟨_, _, hs2⟩
    | consist hc hs2 =>
      exact absurd hu (by clear hb; revert b; unfold Unsupported; decide +kernel)
    | searches hc h1 h2 hs2 => exact done hs2
    | cvLong hc | cvShort hc =>
      exact absurd hu (by clear hb; revert b; unfold Unsupported; decide +kernel)
    | drives hc hs2 =>
      -- only the undefined advanced operations are left
      have hadv : decodeInstructionByte b = .advancedOperations := by
        have key : ∀ b : Byte, Unsupported b → (decodeInstructionByte b = .advancedOperations ∨
          decodeInstructionByte b = .speedDirection ∨ decodeInstructionByte b = .functionGroup ∨
          b = 0xDE#8 ∨ b = 0xDF#8) → decodeInstructionByte b = .advancedOperations := by
          unfold Unsupported; decide +kernel
        exact key b hu hc
      have hno : b ≠ 0x3C#8 ∧ b ≠ 0x3E#8 ∧ b ≠ 0x3F#8 := by
        have key : ∀ b : Byte, Unsupported b → b ≠ 0x3C#8 ∧ b ≠ 0x3E#8 ∧ b ≠ 0x3F#8 := by
          unfold Unsupported; decide +kernel
        exact key b hu
      obtain ⟨rest2, hr2⟩ : ∃ rest2, afterAddress p = b :: rest2 := by
        cases hap : afterAddress p with
        | nil => simp [hap] at hb
        | cons x xs => rw [hap] at hb; cases hb; exact ⟨xs, rfl⟩
      rw [hr2] at h
      have h2 : (s.prepared e now).executeInstruction e (target s n) p (b :: rest2) rand =
          (s.prepared e now).advancedOperations e (target s n) (b :: rest2) := by
        unfold Rx.executeInstruction decodeInstruction
        rw [byteAt_zero]
        simp only [ok_bind, pure_eq_ok, hadv]
      rw [h2] at h
      unfold Rx.advancedOperations at h
      rw [byteAt_zero, ok_bind, if_neg hno.1, if_neg hno.2.2, if_neg hno.2.1] at h
      cases h
      exact done ⟨_, _, rfl⟩

/-- A binary state command for the decoder with address 3. -/
example : holdsAfter (({} : Rx).run exampleEnv (.init :: hears [3#8, 0xDD#8, 0x85#8, 0x5B#8])) (fun s =>
    decide (front s = some [3#8, 0xDD#8, 0x85#8, 0x5B#8] ∧ s.serviceMode = false)) = true := by
  decide +kernel

example : Unsupported 0xDD#8 := by unfold Unsupported; decide

/-! ### C68 -/

/-- **C68** Negation: every decoder in operations mode executes the packet C0 00 00 C0 to long address
zero like the broadcast packet 00 00 00 and enters service mode. -/
theorem C68_long_zero_not_broadcast_false (e : Env) (s : Rx) (now : Int) (rand : Nat)
    (hf : front s = some [0xC0#8, 0#8, 0#8, 0xC0#8]) (hm : s.serviceMode = false) :
    ∃ s', s.execute e now rand = .ok (s', true) ∧ s'.serviceMode = true := by
  obtain ⟨hpe, rest', hd⟩ := front_eq.mp hf
  rw [execute_for e s now rand 0 _ rest' hpe hd hm rfl (.inl rfl)]
  exact ⟨_, rfl, rfl⟩

/-- **C68** (partial) Packets to any other long address are not treated like a broadcast: they are
ignored unless the number is active.  Missing: long address zero. -/
theorem C68_long_not_broadcast_partial (e : Env) (s : Rx) (hr : Reachable e s) (now : Int)
    (rand n : Nat) (p : Packet) (hf : front s = some p) (hm : s.serviceMode = false)
    (hn : locoNumber p = some n) (h0 : n ≠ 0) (ha : ¬ Active s n) :
    ∃ s' evs, s.execute e now rand = .ok (s', false) ∧ s'.trace = s.trace ++ evs ∧
      LogonStores s evs := by
  obtain ⟨s', evs, h1, _, h3, h4, _⟩ := C32_foreign_ignored e s hr now rand p hf hm (by
    rintro ⟨m, h1, h2⟩
    rw [hn] at h1
    cases h1
    exact h2.elim h0 ha)
  exact ⟨s', evs, h1, h3, h4⟩

/-- The packet arrives at the decoder with short address 3. -/
example : holdsAfter (({} : Rx).run exampleEnv (.init :: hears [0xC0#8, 0#8, 0#8, 0xC0#8])) (fun s =>
    decide (front s = some [0xC0#8, 0#8, 0#8, 0xC0#8] ∧ s.serviceMode = false)) = true := by
  decide +kernel

end Dcc
