import Verif.Lemmas.RxCvShort
import Verif.Props.RxConfig
/-!
C64, C65: short form CV access and consist control.
-/
namespace Dcc
open Spec

/-- Executing a short form packet. -/
theorem execute_short (e : Env) (ops : List RxOp) (s s' : Rx) (now : Int) (rand : Nat) (ret : Bool)
    (p : Packet) (b : Byte) (hr : ({} : Rx).run e ops = .ok s) (hm : s.serviceMode = false)
    (hf : front s = some p) (hc : cvRequest s p = true) (hb : (afterAddress p).head? = some b)
    (h240 : 240 ≤ b.toNat) (hk : s.cfg.cvsLocked = false → KeepsUnlocked e s.trace)
    (h : s.execute e now rand = .ok (s', ret)) :
    ∃ stores calls, LogonStores s stores ∧ s'.trace = s.trace ++ stores ++ calls ∧
      (s.cfg.cvsLocked = true → calls = []) ∧
      (s.cfg.cvsLocked = false → ∃ ws,
        shortWrites (repeats (cvHistory e {} ops ++ [p])) (afterAddress p) = some ws ∧
        accesses calls = ws.map (Kind.write, ·) ∧
        ∀ m, mem m calls = ws.foldl applyWrite m) := by
  rw [← count_snoc e ops s hr p (cvRequest_ne_nil hc)]
  exact execute_short_count e s s' now rand ret p b (Reachable.of_run hr).lengths hm hf hc hb h240 hk h

/-- **C64** What executing a short form CV packet does, for every history: the packet writes CV23 or
CV24 at once, CV17, CV18 and CV29 bit 5, or CV31 and CV32, the second time it is executed in a row
among the CV packets of the decoder.  It makes no other access, and none at all if the decoder is
locked. -/
theorem C64_short_form (e : Env) (ops : List RxOp) (s s' : Rx) (now : Int) (rand : Nat) (ret : Bool)
    (p : Packet) (b : Byte) (hr : ({} : Rx).run e ops = .ok s) (hm : s.serviceMode = false)
    (hf : front s = some p) (hc : cvRequest s p = true) (hb : (afterAddress p).head? = some b)
    (h240 : 240 ≤ b.toNat) (hk : s.cfg.cvsLocked = false → KeepsUnlocked e s.trace)
    (h : s.execute e now rand = .ok (s', ret)) :
    ∃ stores calls, LogonStores s stores ∧ s'.trace = s.trace ++ stores ++ calls ∧
      (s.cfg.cvsLocked = true → calls = []) ∧
      (s.cfg.cvsLocked = false → ∃ ws,
        shortWrites (repeats (cvHistory e {} ops ++ [p])) (afterAddress p) = some ws ∧
        accesses calls = ws.map (Kind.write, ·)) := by
  obtain ⟨stores, calls, h1, h2, h3, h4⟩ :=
    execute_short e ops s s' now rand ret p b hr hm hf hc hb h240 hk h
  refine ⟨stores, calls, h1, h2, h3, fun hl => ?_⟩
  obtain ⟨ws, g1, g2, -⟩ := h4 hl
  exact ⟨ws, g1, g2⟩

/-- A decoder with address 3 hears the short form packet for CV17 and CV18 for the second time. -/
def Spec.shortSession : List RxOp :=
  .init :: hears [3#8, 0xF4#8, 5#8, 7#8, 0xF5#8] ++ [.execute 0 0] ++
    hears [3#8, 0xF4#8, 5#8, 7#8, 0xF5#8]

/-- The hypotheses of `C64_short_form` hold in a run. -/
example : holdsAfter (({} : Rx).run exampleEnv shortSession) (fun s =>
      decide (s.serviceMode = false ∧ front s = some [3#8, 0xF4#8, 5#8, 7#8, 0xF5#8] ∧
        cvRequest s [3#8, 0xF4#8, 5#8, 7#8, 0xF5#8] = true ∧ s.cfg.cvsLocked = false)) &&
    decide (shortWrites (repeats (cvHistory exampleEnv {} shortSession ++
      [[3#8, 0xF4#8, 5#8, 7#8, 0xF5#8]])) (afterAddress [3#8, 0xF4#8, 5#8, 7#8, 0xF5#8]) =
      some [.byte 16 0xC5#8, .byte 17 7#8, .bit 28 true 5]) = true := by
  decide +kernel

/-! ### With a memory of CVs -/

theorem run_store {e : Env} {m : BitVec 32 → Byte} (hm : MemoryLike e m) (ops : List RxOp)
    (s s' : Rx) (hr : Reachable e s) (hst : s.logon.store = false)
    (ha : Along (fun s => s.logon.assigned = false) e s ops) (h : s.run e ops = .ok s') :
    s'.logon.store = false := by
  induction ops generalizing s with
  | nil => cases h; exact hst
  | cons op ops ih =>
    rw [Rx.run, bind_eq_ok] at h
    obtain ⟨s1, h1, h2⟩ := h
    unfold Along at ha
    rw [h1] at ha
    have ha1 : s1.logon.assigned = false := by
      obtain _ | ⟨op2, ops2⟩ := ops
      · exact ha.2
      · exact ha.2.1
    exact ih s1 (hr.step op h1) (step_keeps hm s s1 hr hst op h1 ha1).2 ha.2 h2

/-- **C64** With a memory of CVs: if a decoder that is not locked executes the short form packet for
the long address the second time, the new address is its primary address. -/
theorem C64_long_address (e : Env) (m : BitVec 32 → Byte) (hmem : MemoryLike e m) (ops : List RxOp)
    (s s' : Rx) (now : Int) (rand : Nat) (ret : Bool) (p : Packet) (b0 b1 b2 : Byte)
    (rest : List Byte) (hi : .init ∈ ops) (ha : Along (fun s => s.logon.assigned = false) e {} ops)
    (hr : ({} : Rx).run e ops = .ok s) (hm : s.serviceMode = false) (hl : s.cfg.cvsLocked = false)
    (hf : front s = some p) (hc : cvRequest s p = true) (hb : afterAddress p = b0 :: b1 :: b2 :: rest)
    (h4 : b0.toNat = 0xF4) (h40 : b1.toNat % 64 < 40)
    (h2 : repeats (cvHistory e {} ops ++ [p]) = 2) (h : s.execute e now rand = .ok (s', ret)) :
    s'.addrs.primary.type = .long ∧
      s'.addrs.primary.value.toNat = (b1.toNat % 64) * 256 + b2.toNat := by
  have hr' := Reachable.of_run hr
  have hR := C45_configuration e m hmem ops s hi ha hr
  have hst := run_store hmem ops {} s .start rfl ha hr
  have hR' := (keeps_execute hmem s s' hr' hst now rand ret h).out hR
  obtain ⟨stores, calls, h1, h3, -, h5⟩ := execute_short e ops s s' now rand ret p b0 hr hm hf hc
    (by rw [hb]; rfl) (by omega) (memory_keeps hmem hR) h
  obtain ⟨ws, g1, -, g2⟩ := h5 hl
  rw [hb, h2] at g1
  have hws : shortWrites 2 (b0 :: b1 :: b2 :: rest) =
      some [.byte 16 (0xC0#8 ||| b1), .byte 17 b2, .bit 28 true 5] := by
    simp [shortWrites, h4]
  rw [hws] at g1
  cases g1
  rw [h1.none hst, List.append_nil] at h3
  have hc16 : mem m s'.trace 16#32 = 0xC0#8 ||| b1 := by
    rw [h3, mem_append, g2]; rfl
  have hc17 : mem m s'.trace 17#32 = b2 := by
    rw [h3, mem_append, g2]; rfl
  have hc28 : (mem m s'.trace 28#32).getLsbD 5 = true := by
    rw [h3, mem_append, g2]
    show (setBit (mem m s.trace 28#32) 5#32 true).getLsbD 5 = true
    generalize mem m s.trace 28#32 = x
    revert x
    decide +kernel
  have hpb : primaryByte (mem m s'.trace) = 0xC0#8 ||| b1 := by
    unfold primaryByte; rw [hc28, if_pos rfl, hc16]
  have hn : (0xC0#8 ||| b1).toNat = 192 + b1.toNat % 64 := by
    clear g2 hpb hc16 hws h40 hb
    revert b1
    decide +kernel
  have ht := hR'.primaryType
  have hv := hR'.primaryValue
  unfold primaryNumber at hv
  rw [hpb] at ht hv
  rw [hn, hc17, if_pos (by omega)] at hv
  refine ⟨?_, by rw [hv, Nat.add_sub_cancel_left]⟩
  generalize 0xC0#8 ||| b1 = x at ht hn
  obtain ⟨t, -, ht'⟩ := C03_classes_partition x
  have hlong : HasClass x.toNat .long :=
    ⟨(192, 231, .long), by simp [firstByteClass], show 192 ≤ _ by omega, show _ ≤ 231 by omega, rfl⟩
  rw [ht' _ ht, ht' _ hlong]

/-- The further hypotheses of `C64_long_address` hold in that run. -/
example : .init ∈ shortSession ∧ Along (fun s => s.logon.assigned = false) exampleEnv {} shortSession ∧
    repeats (cvHistory exampleEnv {} shortSession ++ [[3#8, 0xF4#8, 5#8, 7#8, 0xF5#8]]) = 2 := by
  decide +kernel

/-- **C65** With a memory of CVs: executing a consist control packet `0001...D AAAAAAAA` stores address
and direction in CV19, and if CV20 is zero the consist address of the decoder is the one in the
packet, with the direction in the packet; the decoder listens to it unless automatic logon assigned
another address. -/
theorem C65_consist_control (e : Env) (m : BitVec 32 → Byte) (hmem : MemoryLike e m)
    (ops : List RxOp) (s s' : Rx) (now : Int) (rand : Nat) (ret : Bool) (p : Packet) (b0 b1 : Byte)
    (rest : List Byte) (hi : .init ∈ ops) (ha : Along (fun s => s.logon.assigned = false) e {} ops)
    (hr : ({} : Rx).run e ops = .ok s) (hm : s.serviceMode = false) (hl : s.cfg.cvsLocked = false)
    (hf : front s = some p) (hd : ForDecoder s p) (hb : afterAddress p = b0 :: b1 :: rest)
    (h16 : 16 ≤ b0.toNat ∧ b0.toNat < 32) (h7 : b1.toNat < 128)
    (h20 : mem m s.trace 19#32 = 0#8) (h : s.execute e now rand = .ok (s', ret)) :
    (mem m s'.trace 18#32).toNat = 128 * (b0.toNat % 2) + b1.toNat ∧
      s'.addrs.consist.value.toNat = b1.toNat ∧
      s'.addrs.consist.reversed = decide (b0.toNat % 2 = 1) ∧
      (s.addrs.logon.value = 0#16 → Active s' b1.toNat) ∧
      accesses (s'.trace.drop s.trace.length) =
        [(.write, .byte 18 (BitVec.ofNat 8 (128 * (b0.toNat % 2) + b1.toNat)))] := by
  have hr' := Reachable.of_run hr
  have hR := C45_configuration e m hmem ops s hi ha hr
  have hst := run_store hmem ops {} s .start rfl ha hr
  have hR' := (keeps_execute hmem s s' hr' hst now rand ret h).out hR
  obtain ⟨n, s2, hn, -, hs', hI⟩ := operations_front e s s' now rand ret p b0 hr'.lengths hm hf hd
    (by rw [hb]; rfl) h
  have hx := instrCase_consist hI h16
  obtain ⟨stores, ht, hS⟩ := prepared_trace e s now
  have hu := prepared_unlocked ht hS hm hl (memory_keeps hmem hR hl)
  rw [hS.none hst, List.append_nil] at ht
  have hlog : s'.addrs.logon = s.addrs.logon := by
    obtain ⟨-, rfl, -⟩ | ⟨p, rest, s1, s3, -, -, -, hp, -, hf, rfl⟩ :=
      execute_cases e s s' now rand ret h
    · rfl
    · exact hf.logonAddr.trans (by rw [hp.addrs])
  unfold Rx.consistControl at hx
  rw [hb, byteAt_zero, byteAt_succ, byteAt_zero, ok_bind, ok_bind] at hx
  have hv : ((b0 <<< 7) ||| b1) = BitVec.ofNat 8 (128 * (b0.toNat % 2) + b1.toNat) := by
    have key : ∀ b1 : Byte, b1.toNat < 128 → ((0x80#8 ||| b1) = BitVec.ofNat 8 (128 + b1.toNat)) ∧
        ((0#8 ||| b1) = BitVec.ofNat 8 (0 + b1.toNat)) := by decide +kernel
    have k0 : ∀ b0 : Byte, (b0.toNat % 2 = 1 → b0 <<< 7 = 0x80#8) ∧
        (b0.toNat % 2 = 0 → b0 <<< 7 = 0#8) := by decide +kernel
    rcases Nat.mod_two_eq_zero_or_one b0.toNat with h0 | h0
    · rw [(k0 b0).2 h0, h0, (key b1 h7).2]
    · rw [(k0 b0).1 h0, h0, (key b1 h7).1]
  rw [hv] at hx
  obtain ⟨-, evs, e1, e2, e3⟩ := (wrote_byte hu 18 _ (by omega) (by omega) (by omega)).out _ hx
  have htr : s'.trace = s.trace ++ evs := by rw [hs']; show s2.trace = _; rw [e1, ht]
  have hc18 : mem m s'.trace 18#32 = BitVec.ofNat 8 (128 * (b0.toNat % 2) + b1.toNat) := by
    rw [htr, mem_append, e3]; rfl
  have hc19 : mem m s'.trace 19#32 = 0#8 := by
    rw [htr, mem_append, e3]; exact h20
  have hlt : 128 * (b0.toNat % 2) + b1.toNat < 256 := by omega
  have hN : (mem m s'.trace 18#32).toNat = 128 * (b0.toNat % 2) + b1.toNat := by
    rw [hc18, BitVec.toNat_ofNat, Nat.mod_eq_of_lt (by omega)]
  have hcv := hR'.consistValue
  rw [hN, hc19] at hcv
  have hcv' : s'.addrs.consist.value.toNat = b1.toNat := by
    rw [hcv, show (0#8).toNat = 0 from rfl]; omega
  refine ⟨hN, hcv', ?_, fun h0 => ?_, ?_⟩
  · rw [hR'.consistReversed, hc18]
    have key : ∀ x : Byte, x.getLsbD 7 = decide (128 ≤ x.toNat) := by decide +kernel
    rw [key, ← hc18, hN, decide_eq_decide]
    omega
  · unfold Active
    rw [hlog, if_pos h0, hR'.consistType]
    exact .inr ⟨rfl, hcv'.symm⟩
  · rw [htr, List.drop_left, e2]
    rfl

/-- A decoder with address 3 hears a consist control packet. -/
def Spec.consistSession : List RxOp := .init :: hears [3#8, 0x13#8, 5#8, 0x15#8]

/-- The hypotheses of `C65_consist_control` hold in a run. -/
example : .init ∈ consistSession ∧
    Along (fun s => s.logon.assigned = false) exampleEnv {} consistSession ∧
    holdsAfter (({} : Rx).run exampleEnv consistSession) (fun s =>
      decide (s.serviceMode = false ∧ s.cfg.cvsLocked = false ∧
        front s = some [3#8, 0x13#8, 5#8, 0x15#8] ∧ ForDecoder s [3#8, 0x13#8, 5#8, 0x15#8] ∧
        mem exampleCvs s.trace 19#32 = 0#8 ∧ s.addrs.logon.value = 0#16)) = true := by
  decide +kernel

end Dcc
