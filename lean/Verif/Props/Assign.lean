import Verif.Lemmas.RxAddrRange
import Verif.Props.Restart
import Verif.Props.RxLogon
/-!
C114: the number LOGON_ASSIGN carries and the number a decoder announces.
-/
namespace Dcc
open Spec

/-- The number in the two bytes of an address, as RCN-218 prints it: fourteen bits, 0 to 10239 are long addresses,
56 in the upper six bits marks a short address in the lower eight. -/
def Spec.assignedNumber : List Byte → Option Nat
  | b :: c :: _ =>
    if b.toNat % 64 < 40 then some (b.toNat % 64 * 256 + c.toNat)
    else if b.toNat % 64 = 56 ∧ c.toNat ≤ 127 then some c.toNat
    else none
  | _ => none

/-- The decoder listens to a number and, but for packets to everyone, to no other. -/
def Spec.ListensOnly (s : Rx) (n : Nat) : Prop := ∀ k, 0 < k → (Active s k ↔ k = n)

/-- What LOGON_ASSIGN does to the addresses. -/
theorem assign_addrs (e : Env) (s : Rx) (t rand : Nat) (hr : Reachable e s)
    (hc : Completes e s t) (ha : logonAccepted s.link.packet) (hen : s.cfg.logonEnabled = true)
    (hq : s.q.logon = []) (b : Byte) (bs : List Byte) (a : Address) (haa : AssignedAddress (b :: bs) a)
    (hcmd : logonCommand s.link.packet = some (.assign s.cfg.did (b :: bs))) :
    ∃ s', s.step e (.receive t rand) = .ok s' ∧ s'.addrs.logon = a ∧ s'.addrs.consist.value = 0#16 ∧
      s'.addrs.primary = if a.value.toNat ≠ 0 ∧ b.toNat / 64 ≠ 3 then a else s.addrs.primary := by
  obtain ⟨s', m, h1, -, h2, -, h3, h4⟩ := C52_assign_answered e s t rand hr hc ha hen hq _ a haa hcmd
  refine ⟨s', h1, h3, h4, ?_⟩
  rcases C52_protocol e s s' t rand hr h1 with h | ⟨c, -, h5, h6⟩
  · have h7 := congrArg LogonView.answer h
    simp only [logonView] at h7
    rw [h2, hq] at h7
    cases h7
  · rw [hcmd] at h5
    cases h5
    cases h6 with
    | assign _ _ _ a' ha' _ _ hv =>
      have hl := congrArg LogonView.logon hv
      have hp := congrArg LogonView.primary hv
      simp only [logonView] at hl hp
      rw [hp, ← hl, h3]
      simp only [List.head?_cons, Option.any_some, decide_eq_true_eq]

/-- What an address decoded from one byte is. -/
theorem decode_first (b : Byte) (bs : List Byte) :
    (b.toNat = 0 → decodeAddress (b :: bs) = .ok { value := 0#16, type := .broadcast }) ∧
    (1 ≤ b.toNat ∧ b.toNat ≤ 127 → decodeAddress (b :: bs) = .ok { value := b.setWidth 16, type := .short }) ∧
    (128 ≤ b.toNat ∧ b.toNat ≤ 191 →
      decodeAddress (b :: bs) = .ok { value := b.setWidth 16, type := .accessory }) := by
  refine ⟨fun h => ?_, fun h => ?_, fun h => ?_⟩
  · rw [show b = 0#8 from BitVec.eq_of_toNat_eq h]; rfl
  · unfold decodeAddress
    dsimp only
    rw [if_neg (fun h0 => by rw [h0] at h; simp at h), if_pos (BitVec.le_def.mpr (by simpa using h.2))]
  · unfold decodeAddress
    dsimp only
    rw [if_neg (fun h0 => by rw [h0] at h; simp at h),
      if_neg (fun h0 => by have := BitVec.le_def.mp h0; simp at this; omega),
      if_pos (BitVec.le_def.mpr (by simpa using h.2))]

/-- The address a long number with `11` is decoded to. -/
theorem decode_marked (b c : Byte) (bs : List Byte) (h : b.toNat / 64 = 3) (h' : b.toNat % 64 < 40) :
    ∃ v : BitVec 16, decodeAddress (b :: c :: bs) = .ok { value := v, type := .long } ∧
      v.toNat = b.toNat % 64 * 256 + c.toNat := by
  have hb := b.isLt
  have hc := c.isLt
  refine ⟨((b.setWidth 16 <<< 8) ||| c.setWidth 16) &&& 0x3FFF#16, ?_, ?_⟩
  · unfold decodeAddress
    dsimp only
    rw [if_neg (fun h0 => by rw [h0] at h; simp at h),
      if_neg (fun h0 => by have := BitVec.le_def.mp h0; simp at this; omega),
      if_neg (fun h0 => by have := BitVec.le_def.mp h0; simp at this; omega),
      if_pos (BitVec.le_def.mpr (by simp; omega))]
  · rw [and3FFF_toNat, concat16_toNat]
    omega

theorem width16 (b : Byte) : (b.setWidth 16).toNat = b.toNat := by
  rw [BitVec.toNat_setWidth, Nat.mod_eq_of_lt (Nat.lt_trans b.isLt (by decide))]

theorem listens_logon {s : Rx} {n : Nat} (h : s.addrs.logon.type.isLoco = true) (hv : s.addrs.logon.value.toNat = n)
    (h0 : n ≠ 0) : ListensOnly s n := by
  intro k _
  unfold Active
  rw [if_neg (fun h => h0 (by rw [← hv, h]; rfl)), hv]
  exact ⟨fun h => h.2, fun h' => ⟨h, h'⟩⟩

/-- **C114** (in part) LOGON_ASSIGN gives the decoder the number it carries, and the decoder listens to no other, if
the address is a long one assigned for the session (`11` in the upper two bits) or a short one.  With `11` its own
address remains as it is, otherwise it becomes that number. -/
theorem C114_obeyed_partial (e : Env) (s : Rx) (t rand : Nat) (hr : Reachable e s)
    (hc : Completes e s t) (ha : logonAccepted s.link.packet) (hen : s.cfg.logonEnabled = true)
    (hq : s.q.logon = []) (b : Byte) (bs : List Byte) (n : Nat) (hn : assignedNumber (b :: bs) = some n) (h0 : n ≠ 0)
    (hcmd : logonCommand s.link.packet = some (.assign s.cfg.did (b :: bs)))
    (hk : b.toNat / 64 = 3 ∨ b.toNat % 64 = 56) :
    ∃ s', s.step e (.receive t rand) = .ok s' ∧ ListensOnly s' n ∧
      (b.toNat / 64 = 3 → s'.addrs.primary = s.addrs.primary) ∧
      (b.toNat / 64 ≠ 3 → s'.addrs.primary.value.toNat = n ∧ s'.addrs.primary.type.isLoco = true) := by
  match bs, hn, hcmd with
  | c :: cs, hn, hcmd =>
  have : ∃ a, AssignedAddress (b :: c :: cs) a ∧ a.type.isLoco = true ∧ a.value.toNat = n := by
    rw [assignedNumber] at hn
    split at hn
    · rename_i h1
      cases hn
      obtain ⟨v, h2, h3⟩ := decode_marked b c cs (by omega) h1
      exact ⟨_, ⟨b, _, rfl, .inl ⟨h1, h2⟩⟩, rfl, h3⟩
    · split at hn
      · rename_i h1
        cases hn
        exact ⟨_, ⟨b, _, rfl, .inr ⟨h1.1, (decode_first c cs).2.1 (by omega)⟩⟩, rfl, width16 c⟩
      · cases hn
  obtain ⟨a, h1, h2, h3⟩ := this
  obtain ⟨s', g1, g2, -, g4⟩ := assign_addrs e s t rand hr hc ha hen hq b _ a h1 hcmd
  refine ⟨s', g1, listens_logon (by rw [g2]; exact h2) (by rw [g2]; exact h3) h0, fun h => ?_, fun h => ?_⟩
  · rw [g4, if_neg (fun h' => h'.2 h)]
  · rw [g4, if_pos ⟨by omega, h⟩]
    exact ⟨h3, h2⟩

/-- **C114** What a long address does that is to become the decoder's own (no `11` in the upper two bits): its first
byte is taken for an address.  With 0 the decoder keeps its own number, a byte below 128 becomes its own (short)
address, any other is the address of an accessory decoder and the decoder listens to nothing but packets to
everyone. -/
theorem C114_overwriting (e : Env) (s : Rx) (t rand : Nat) (hr : Reachable e s)
    (hc : Completes e s t) (ha : logonAccepted s.link.packet) (hen : s.cfg.logonEnabled = true)
    (hq : s.q.logon = []) (b : Byte) (bs : List Byte)
    (hcmd : logonCommand s.link.packet = some (.assign s.cfg.did (b :: bs)))
    (hk : b.toNat / 64 ≠ 3) (hl : b.toNat % 64 < 40) :
    ∃ s', s.step e (.receive t rand) = .ok s' ∧
      (b.toNat = 0 → s'.addrs.primary = s.addrs.primary ∧
        ∀ k, 0 < k → (Active s' k ↔ s.addrs.primary.type.isLoco = true ∧ k = s.addrs.primary.value.toNat)) ∧
      (1 ≤ b.toNat ∧ b.toNat ≤ 127 → ListensOnly s' b.toNat ∧
        s'.addrs.primary = { value := b.setWidth 16, type := .short }) ∧
      (128 ≤ b.toNat → (∀ k, ¬ Active s' k) ∧
        s'.addrs.primary = { value := b.setWidth 16, type := .accessory }) := by
  have hb := b.isLt
  obtain ⟨d1, d2, d3⟩ := decode_first b bs
  by_cases c1 : b.toNat = 0
  · obtain ⟨s', g1, g2, g3, g4⟩ := assign_addrs e s t rand hr hc ha hen hq b bs _
      ⟨b, _, rfl, .inl ⟨hl, d1 c1⟩⟩ hcmd
    rw [if_neg (fun h => h.1 rfl)] at g4
    refine ⟨s', g1, fun _ => ⟨g4, fun k hk0 => ?_⟩, fun h => by omega, fun h => by omega⟩
    unfold Active
    rw [g2, if_pos rfl, g3, g4]
    constructor
    · rintro (h | h)
      · exact h
      · have := h.2; simp at this; omega
    · exact .inl
  by_cases c2 : b.toNat ≤ 127
  · obtain ⟨s', g1, g2, g3, g4⟩ := assign_addrs e s t rand hr hc ha hen hq b bs _
      ⟨b, _, rfl, .inl ⟨hl, d2 ⟨by omega, c2⟩⟩⟩ hcmd
    rw [if_pos ⟨by rw [width16]; exact c1, hk⟩] at g4
    exact ⟨s', g1, fun h => by omega,
      fun _ => ⟨listens_logon (by rw [g2]; rfl) (by rw [g2]; exact width16 b) c1, g4⟩, fun h => by omega⟩
  · obtain ⟨s', g1, g2, g3, g4⟩ := assign_addrs e s t rand hr hc ha hen hq b bs _
      ⟨b, _, rfl, .inl ⟨hl, d3 ⟨by omega, by omega⟩⟩⟩ hcmd
    rw [if_pos ⟨by rw [width16]; exact c1, hk⟩] at g4
    refine ⟨s', g1, fun h => by omega, fun h => by omega, fun _ => ⟨fun k => ?_, g4⟩⟩
    unfold Active
    rw [g2, if_neg (fun h => c1 (by rw [← width16 b]; exact congrArg BitVec.toNat h))]
    exact fun h => by cases h.1

/-- **C114** fails: a decoder that is to have a long address for its own does not listen to it (unless it had that
number before, or the number is 64). -/
theorem C114_obeyed_false (e : Env) (s : Rx) (t rand : Nat) (hr : Reachable e s)
    (hc : Completes e s t) (ha : logonAccepted s.link.packet) (hen : s.cfg.logonEnabled = true)
    (hq : s.q.logon = []) (b : Byte) (bs : List Byte) (n : Nat) (hn : assignedNumber (b :: bs) = some n) (h0 : n ≠ 0)
    (hcmd : logonCommand s.link.packet = some (.assign s.cfg.did (b :: bs)))
    (hk : b.toNat / 64 ≠ 3) (hl : b.toNat % 64 < 40) (h1 : n ≠ s.addrs.primary.value.toNat) (h2 : n ≠ 64) :
    ∃ s', s.step e (.receive t rand) = .ok s' ∧ ¬ Active s' n := by
  obtain ⟨s', g1, g2, g3, g4⟩ := C114_overwriting e s t rand hr hc ha hen hq b bs hcmd hk hl
  have hb := b.isLt
  match bs, hn with
  | c :: cs, hn =>
  rw [assignedNumber, if_pos hl] at hn
  cases hn
  refine ⟨s', g1, fun h => ?_⟩
  by_cases c1 : b.toNat = 0
  · exact h1 (((g2 c1).2 _ (by omega)).mp h).2
  by_cases c2 : b.toNat ≤ 127
  · have := ((g3 ⟨by omega, c2⟩).1 _ (by omega)).mp h
    by_cases c3 : b.toNat < 64
    · rw [Nat.mod_eq_of_lt c3] at this
      omega
    · have c4 : b.toNat % 64 = b.toNat - 64 := by omega
      rw [c4] at this h2
      omega
  · exact (g4 (by omega)).1 _ h

/-- **C114** The answer to SELECT announces, in the coding of LOGON_ASSIGN, the decoder's own number; with `11` for
its upper two bits LOGON_ASSIGN gives the decoder that number for the session. -/
theorem C114_announced (e : Env) (s : Rx) (t rand : Nat) (hr : Reachable e s)
    (hc : Completes e s t) (ha : logonAccepted s.link.packet) (hen : s.cfg.logonEnabled = true)
    (has : s.logon.assigned = false) (hq : s.q.logon = [])
    (hcmd : logonCommand s.link.packet = some (.select s.cfg.did)) :
    ∃ s' m, ∃ b c : Byte, s.step e (.receive t rand) = .ok s' ∧ s'.q.logon = [m] ∧
      read m / 2 ^ 40 = b.toNat ∧ read m / 2 ^ 32 % 256 = c.toNat ∧
      assignedNumber [b, c] = some s.addrs.primary.value.toNat ∧
      assignedNumber [b ||| 0x40#8, c] = some s.addrs.primary.value.toNat ∧ (b ||| 0x40#8).toNat / 64 = 3 ∧
      b.toNat % 64 < 40 := by
  obtain ⟨s', m, h1, h2, h3⟩ := C52_select_answered e s t rand hr hc ha hen has hq hcmd
  have hv := hr.ranged.primary
  generalize hx : s.addrs.primary.value.toNat = v at hv
  have h4 := h2.2.2
  rw [infoWord, withCrc, hx] at h4
  generalize crcMsg _ = k at h4
  simp only [List.cons_append, List.nil_append, number, List.length_cons, List.length_nil, BitVec.toNat_ofNat] at h4
  have hk := k.isLt
  have hb : (BitVec.ofNat 8 (128 + v / 256)).toNat = 128 + v / 256 := by
    rw [BitVec.toNat_ofNat]; omega
  have hc' : (BitVec.ofNat 8 (v % 256)).toNat = v % 256 := by
    rw [BitVec.toNat_ofNat]; omega
  have hor : ∀ b : Byte, b.toNat / 64 = 2 → (b ||| 0x40#8).toNat = b.toNat + 64 := by decide +kernel
  have ho := hor (BitVec.ofNat 8 (128 + v / 256)) (by rw [hb]; omega)
  refine ⟨s', m, BitVec.ofNat 8 (128 + v / 256), BitVec.ofNat 8 (v % 256), h1, ?_, ?_, ?_, ?_, ?_, ?_, ?_⟩
  · exact congrArg LogonView.answer h3
  · rw [hb, h4]; omega
  · rw [hc', h4]; omega
  · rw [assignedNumber, hb, hc', if_pos (by omega)]; congr 1; omega
  · rw [assignedNumber, ho, hb, hc', if_pos (by omega)]; congr 1; omega
  · rw [ho, hb]; omega
  · rw [hb]; omega

/-- **C114** fails: a decoder with a short address announces a long one. -/
theorem C114_announced_false (e : Env) (s : Rx) (t rand : Nat) (hr : Reachable e s)
    (hc : Completes e s t) (ha : logonAccepted s.link.packet) (hen : s.cfg.logonEnabled = true)
    (has : s.logon.assigned = false) (hq : s.q.logon = [])
    (hcmd : logonCommand s.link.packet = some (.select s.cfg.did)) (_hs : s.addrs.primary.type = .short) :
    ∃ s' m, s.step e (.receive t rand) = .ok s' ∧ s'.q.logon = [m] ∧ read m / 2 ^ 40 % 64 ≠ 56 := by
  obtain ⟨s', m, b, c, h1, h2, h3, -, -, -, -, h4⟩ := C114_announced e s t rand hr hc ha hen has hq hcmd
  exact ⟨s', m, h1, h2, by rw [h3]; omega⟩

/-- **C114** The number that became the decoder's own is still its own, as a long address, when it is switched on
again: the first packet executed has stored it. -/
theorem C114_kept (e : Env) (m : BitVec 32 → Byte) (s s' : Rx) (hr : Reachable e s) (now : Int)
    (rand : Nat) (p : Packet) (hs : s.logon.store = true) (hmode : s.serviceMode = false)
    (hf : front s = some p) (hcv : cvRequest s p = false) (hn : isConsistControl p = false)
    (h : s.step e (.execute now rand) = .ok s') (hown : s.addrs.primary = s.addrs.logon)
    (e' : Env) (hm : MemoryLike e' (mem m s'.trace)) (t : Rx) (ht : ({} : Rx).run e' [.init] = .ok t) :
    t.addrs.primary.type = .long ∧ ListensOnly t s.addrs.primary.value.toNat := by
  have hst := C53_stored_partial e m s s' hr now rand p hs hmode hf hcv hn h
  obtain ⟨-, -, -, j0, -, jR⟩ := switched_on hm hst ht
  simp only [Rx.step, bind_eq_ok, pure_eq_ok, Except.ok.injEq] at h
  obtain ⟨⟨s1, ret⟩, h1, rfl⟩ := h
  obtain ⟨calls, h2, h3⟩ := plain_calls e s s1 hr now rand ret p hmode hf hcv hn h1
  have hmem : mem m s1.trace = mem (mem m s.trace) (storeWrites s) := by
    rw [h2, mem_append_quiet _ _ _ fun ev hev => ?_]
    · exact (prepared_writes e s now m).trans (if_pos hs)
    · have := (h3 ev hev).1
      cases ev <;> first | rfl | cases this
  have heq : s.addrs.primary.eq s.addrs.logon = true := by
    rw [← hown]; unfold Address.eq; split <;> simp
  have hv := hr.ranged.primary
  rw [hmem] at jR
  generalize hM : mem (mem m s.trace) (storeWrites s) = M at jR
  have hw : storeWrites s = primaryWrites s.addrs.primary.value ++
      logonWrites s.logon.cidBack s.logon.sessionBack s.addrs.logon.value := by
    unfold storeWrites
    rw [if_pos heq]
  rw [hw] at hM
  have c16 : (M 16#32).toNat = 192 + s.addrs.primary.value.toNat / 256 := by
    rw [← hM]
    have : ∀ v : BitVec 16, v.toNat < 10240 → (0xC0#8 ||| (v >>> 8).setWidth 8).toNat = 192 + v.toNat / 256 := by
      intro v hv
      have hor : ∀ b : Byte, b.toNat < 64 → (0xC0#8 ||| b).toNat = 192 + b.toNat := by decide +kernel
      rw [hor _ (by rw [high8_toNat]; omega), high8_toNat]
    rw [← this _ hv]
    simp [primaryWrites, logonWrites, mem]
  have c17 : (M 17#32).toNat = s.addrs.primary.value.toNat % 256 := by
    rw [← hM]; simp [primaryWrites, logonWrites, mem]
  have c28 : (M 28#32).getLsbD 5 = true := by
    have : ∀ b : Byte, (setBit b 5#32 true).getLsbD 5 = true := by decide +kernel
    rw [← this (mem m s.trace 28#32), ← hM]
    simp [primaryWrites, logonWrites, mem]
  have c18 : M 18#32 = 0#8 ∧ M 19#32 = 0#8 := by
    rw [← hM]; constructor <;> simp [primaryWrites, logonWrites, mem]
  have hpb : primaryByte M = M 16#32 := if_pos c28
  have htype : t.addrs.primary.type = .long := by
    have := jR.primaryType
    rw [hpb, c16] at this
    obtain ⟨c, hc, h4, h5, h6⟩ := this
    rw [← h6]
    simp only [firstByteClass, List.mem_cons, List.not_mem_nil, or_false] at hc
    rcases hc with rfl | rfl | rfl | rfl | rfl | rfl | rfl | rfl <;> first | rfl | (simp only at h4 h5; omega)
  have hval : t.addrs.primary.value.toNat = s.addrs.primary.value.toNat := by
    rw [jR.primaryValue, primaryNumber, hpb, c16, c17, if_pos (by omega)]
    omega
  have hcon : t.addrs.consist.value.toNat = 0 := by
    rw [jR.consistValue, c18.1, c18.2]; rfl
  refine ⟨htype, fun k hk => ?_⟩
  unfold Active
  rw [if_pos j0, htype, hval, hcon]
  constructor
  · rintro (h | h)
    · exact h.2
    · omega
  · exact fun h => .inl ⟨rfl, h⟩

/-- The decoder of the examples of C52, at the end of LOGON_ASSIGN with the long address 1000 for the session. -/
example : holdsAfter (({} : Rx).run logonEnv (.init :: lastHalf (checked [254#8, 0xE0#8, 145#8, 1#8, 2#8, 3#8,
    4#8, 0xC3#8, 0xE8#8, 0#8]))) (fun s => completesNow (.assign [1#8, 2#8, 3#8, 4#8]
      (s.link.packet.drop 7)) s && decide (assignedNumber (s.link.packet.drop 7) = some 1000)) = true := by
  decide +kernel

/-- The same with the short address 17 for its own. -/
example : holdsAfter (({} : Rx).run logonEnv (.init :: lastHalf (checked [254#8, 0xE0#8, 145#8, 1#8, 2#8, 3#8,
    4#8, 0x78#8, 17#8, 0#8]))) (fun s => completesNow (.assign [1#8, 2#8, 3#8, 4#8]
      (s.link.packet.drop 7)) s && decide (assignedNumber (s.link.packet.drop 7) = some 17)) = true := by
  decide +kernel

/-- The same with the long address 1000 for its own, which the theorems say fails. -/
example : holdsAfter (({} : Rx).run logonEnv (.init :: lastHalf (checked [254#8, 0xE0#8, 145#8, 1#8, 2#8, 3#8,
    4#8, 0x83#8, 0xE8#8, 0#8]))) (fun s => completesNow (.assign [1#8, 2#8, 3#8, 4#8]
      (s.link.packet.drop 7)) s && decide (assignedNumber (s.link.packet.drop 7) = some 1000 ∧
        s.addrs.primary.value = 3#16)) = true := by
  decide +kernel

/-- The same at the end of SELECT, with a short address. -/
example : holdsAfter (({} : Rx).run logonEnv (.init :: lastHalf (checked [254#8, 0xD0#8, 145#8, 1#8, 2#8, 3#8,
    4#8, 0xFF#8]))) (fun s => completesNow (.select [1#8, 2#8, 3#8, 4#8]) s &&
      decide (s.addrs.primary.type = .short)) = true := by decide +kernel

/-- The decoder gets the short address 17 for its own and a packet for it: the hypotheses of `C114_kept`. -/
def ownExample : List RxOp :=
  [.init] ++ hears (checked [254#8, 0xE0#8, 145#8, 1#8, 2#8, 3#8, 4#8, 0x78#8, 17#8, 0#8]) ++
    hears [17#8, 0x3F#8, 0x85#8, 0xAB#8]

example : holdsAfter (({} : Rx).run logonEnv ownExample) (fun s =>
    s.logon.store && !s.serviceMode && decide (s.addrs.primary = s.addrs.logon ∧ s.addrs.primary.value = 17#16) &&
    decide (front s = some [17#8, 0x3F#8, 0x85#8, 0xAB#8] ∧ cvRequest s [17#8, 0x3F#8, 0x85#8, 0xAB#8] = false ∧
      isConsistControl [17#8, 0x3F#8, 0x85#8, 0xAB#8] = false) &&
    holdsAfter (s.step logonEnv (.execute 0 0)) (fun _ => true)) = true := by decide +kernel

end Dcc
