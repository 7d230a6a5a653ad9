import Verif.Lemmas.RxRegister
import Verif.Spec.Memory
/-! Register and paged mode: C42. -/
namespace Dcc
open Spec

/-- The calls for a register mode packet: those of the access, or the acknowledgement that the page
register has the value in the packet. -/
def Spec.registerCalls (e : Env) (tr : List Event) (locked : Bool) (page : Byte) (w : Bool) (reg : Nat)
    (v : Byte) : List Event :=
  if reg = 5 then (if !w ∧ v = page then [.serviceAck] else [])
  else actionCalls e tr true locked (registerRequest page w reg v)

theorem register_calls (e : Env) (s : Rx) (b0 v c : Byte) (cv : Nat) (hm : s.serviceMode = true)
    (h5 : b0.toNat % 8 ≠ 5) (hlt : cv < 4294967296)
    (hcv : if b0.toNat % 8 < 4 then
        BitVec.ofNat 32 (4 * s.indexReg.toNat + (b0.toNat % 8) + 4294967292) = BitVec.ofNat 32 cv
      else cv = if b0.toNat % 8 = 4 then 28 else b0.toNat % 8) :
    Post (s.registerMode e [b0, v, c]) (fun s' => Calls s s' (actionCalls e s.trace true
      s.cfg.cvsLocked (some (if b0.getLsbD 3 then .write else .verify, .byte cv v)))) := by
  have hw := calls_writeByte e s cv hlt v
  have hv := calls_verifyByte e s cv v
  rw [hm] at hw hv
  have key : Post (if b0.getLsbD 3 = true then s.cvWriteByte e (BitVec.ofNat 32 cv) v
      else s.cvVerifyByte e (BitVec.ofNat 32 cv) v) (fun s' => Calls s s' (actionCalls e s.trace true
      s.cfg.cvsLocked (some (if b0.getLsbD 3 then .write else .verify, .byte cv v)))) := by
    split
    · exact hw
    · exact hv
  rw [registerMode_eq]
  split at hcv
  · rename_i h4
    rw [if_pos h4, hcv]
    exact key
  · rename_i h4
    rw [if_neg h4]
    split at hcv
    · rename_i h4; rw [if_pos h4, ← hcv]; exact key
    · rename_i h4; rw [if_neg h4, if_neg h5, ← hcv]; exact key

/-- **C42** In service mode a register mode packet with page register `p` in 1..255 makes exactly one
access, each time it is executed: data register `r` accesses CV number 4(p-1)+r+1, register 4 CV29,
registers 6 and 7 CV7 and CV8; register 5 is the page register (`page`: the value written to it last
in the whole history, 1 in the beginning).  Missing: page register 0, see below. -/
theorem C42_register_mapping_partial (e : Env) (ops : List RxOp) (s s' : Rx) (now : Int) (rand : Nat)
    (ret : Bool) (p : Packet) (w : Bool) (reg : Nat) (v : Byte) (hr : ({} : Rx).run e ops = .ok s)
    (hm : s.serviceMode = true) (hf : front s = some p) (hp : registerPacket p = some (w, reg, v))
    (h0 : page e ops ≠ 0#8) (h : s.execute e now rand = .ok (s', ret)) :
    ∃ stores quiet, LogonStores s stores ∧ (∀ ev ∈ quiet, ev.isQuiet = true) ∧
      s'.trace = s.trace ++ stores ++
        registerCalls e (s.trace ++ stores) s.cfg.cvsLocked (page e ops) w reg v ++ quiet := by
  have hr' := Reachable.of_run hr
  obtain ⟨stores, ht, hs⟩ := prepared_trace e s now
  obtain ⟨m1, m2, m3⟩ := prepared_modes e s now
  obtain ⟨b0, c, hpe, h1, h2, rfl, rfl⟩ := registerPacket_eq hp
  obtain ⟨s2, h3, rfl⟩ := execute_register e s s' now rand ret p b0 v c hr' hm hf hpe ⟨h1, h2⟩ h
  have hi : (s.prepared e now).indexReg = page e ops :=
    (prepare_total e s now).2.indexReg.trans (indexReg_of_history e ops s hr)
  refine ⟨stores, ?_⟩
  have hgoal : ∀ calls, Calls (s.prepared e now) s2 calls → ∃ quiet, LogonStores s stores ∧
      (∀ ev ∈ quiet, ev.isQuiet = true) ∧ s2.popFront.trace = s.trace ++ stores ++ calls ++ quiet := by
    rintro calls ⟨quiet, g1, g2, -⟩
    exact ⟨quiet, hs, g2, by rw [← ht]; exact g1⟩
  apply hgoal
  unfold registerCalls
  have hpg : 1 ≤ (page e ops).toNat := by
    rcases Nat.eq_zero_or_pos (page e ops).toNat with h | h
    · exact absurd (BitVec.eq_of_toNat_eq h) h0
    · exact h
  by_cases h5 : b0.toNat % 8 = 5
  · rw [if_pos h5]
    rw [registerMode_eq, if_neg (by omega), if_neg (by omega), if_pos h5, hi] at h3
    split at h3
    · rename_i hw
      cases h3
      rw [if_neg (by rw [hw]; simp)]
      exact .of_eq (List.append_nil _).symm
    · rename_i hw
      split at h3
      · rename_i hv
        cases h3
        refine .of_eq ?_
        rw [if_pos ⟨by rw [eq_false_of_ne_true hw]; rfl, hv.symm⟩]; rfl
      · rename_i hv
        cases h3
        refine .of_eq ?_
        rw [if_neg (fun h => hv h.2.symm)]; simp
  · rw [if_neg h5]
    have hlt := (page e ops).isLt
    have hq : registerRequest (page e ops) (b0.getLsbD 3) (b0.toNat % 8) v =
        some (if b0.getLsbD 3 then .write else .verify,
          .byte (if b0.toNat % 8 < 4 then 4 * ((page e ops).toNat - 1) + b0.toNat % 8
            else if b0.toNat % 8 = 4 then 28 else b0.toNat % 8) v) := by
      unfold registerRequest registerCv
      by_cases h4 : b0.toNat % 8 < 4
      · simp [h4]
      · by_cases h4' : b0.toNat % 8 = 4
        · simp [h4']
        · simp [h4, h4', h5]
    rw [hq]
    have := (register_calls e (s.prepared e now) b0 v c
      (if b0.toNat % 8 < 4 then 4 * ((page e ops).toNat - 1) + b0.toNat % 8
            else if b0.toNat % 8 = 4 then 28 else b0.toNat % 8) (by rw [m1]; exact hm) h5
      (by split <;> (try split) <;> omega) ?_).out _ h3
    · rw [m2, ht] at this
      exact this
    · rw [hi]
      split
      · apply BitVec.eq_of_toNat_eq
        simp only [BitVec.toNat_ofNat]
        omega
      · rfl

/-- **C42** With a page register in 1..255 the accessed CV is one of CV1..CV1024. -/
theorem C42_register_range_partial (page : Byte) (reg cv : Nat) (hreg : reg < 8)
    (h : registerCv page reg = some cv) : cv < 1024 := by
  have := page.isLt
  unfold registerCv at h
  split at h
  · cases h; omega
  split at h
  · cases h; omega
  split at h <;> cases h
  omega

/-- **C42** The last clause is false: with page register 0 a data register accesses the CV numbers
4294967293 to 4294967296. -/
theorem C42_page_zero_false (e : Env) (ops : List RxOp) (s s' : Rx) (now : Int) (rand : Nat)
    (ret : Bool) (p : Packet) (w : Bool) (reg : Nat) (v : Byte) (hr : ({} : Rx).run e ops = .ok s)
    (hm : s.serviceMode = true) (hf : front s = some p) (hp : registerPacket p = some (w, reg, v))
    (h0 : page e ops = 0#8) (hreg : reg < 4) (hl : s.cfg.cvsLocked = false)
    (h : s.execute e now rand = .ok (s', ret)) :
    ∃ stores quiet, LogonStores s stores ∧ (∀ ev ∈ quiet, ev.isQuiet = true) ∧
      s'.trace = s.trace ++ stores ++ accessCalls e (s.trace ++ stores) true
        (if w then .write else .verify) (.byte (4294967292 + reg) v) ++ quiet := by
  have hr' := Reachable.of_run hr
  obtain ⟨stores, ht, hs⟩ := prepared_trace e s now
  obtain ⟨m1, m2, m3⟩ := prepared_modes e s now
  obtain ⟨b0, c, hpe, h1, h2, rfl, rfl⟩ := registerPacket_eq hp
  obtain ⟨s2, h3, rfl⟩ := execute_register e s s' now rand ret p b0 v c hr' hm hf hpe ⟨h1, h2⟩ h
  have hi : (s.prepared e now).indexReg = 0#8 :=
    ((prepare_total e s now).2.indexReg.trans (indexReg_of_history e ops s hr)).trans h0
  have := (register_calls e (s.prepared e now) b0 v c (4294967292 + b0.toNat % 8)
    (by rw [m1]; exact hm) (by omega) (by omega) ?_).out _ h3
  · rw [m2, ht, hl] at this
    simp only [actionCalls, permitted, Bool.not_false, Bool.true_or, if_true] at this
    obtain ⟨quiet, g1, g2, -⟩ := this
    exact ⟨stores, quiet, hs, g2, by rw [ht] at g1; exact g1⟩
  · rw [if_pos hreg, hi]
    congr 1
    simp; omega

/-- A decoder in service mode whose page register is set to `page`, and then a packet that verifies
data register 2. -/
def Spec.pagedSession (page : Byte) : List RxOp :=
  .init :: hears [0#8, 0#8, 0#8] ++ [.execute 0 0] ++ hears [0x7D#8, page, 0x7D#8 ^^^ page] ++
    [.execute 0 0] ++ hears [0x72#8, 9#8, 0x7B#8]

/-- The hypotheses hold for page 3: CV11 is verified. -/
example : holdsAfter (({} : Rx).run exampleEnv (pagedSession 3#8)) (fun s =>
    decide (s.serviceMode = true ∧ front s = some [0x72#8, 9#8, 0x7B#8] ∧
      registerPacket [0x72#8, 9#8, 0x7B#8] = some (false, 2, 9#8) ∧
      page exampleEnv (pagedSession 3#8) = 3#8) &&
    holdsAfter (s.run exampleEnv [.execute 0 0]) (fun s' =>
      decide (verifies s'.trace = verifies s.trace ++ [.byte 10 9#8]))) = true := by decide +kernel

/-- The hypotheses hold for page 0: CV4294967295 is verified. -/
example : holdsAfter (({} : Rx).run exampleEnv (pagedSession 0#8)) (fun s =>
    decide (s.serviceMode = true ∧ front s = some [0x72#8, 9#8, 0x7B#8] ∧
      page exampleEnv (pagedSession 0#8) = 0#8 ∧ s.cfg.cvsLocked = false) &&
    holdsAfter (s.run exampleEnv [.execute 0 0]) (fun s' =>
      decide (verifies s'.trace = verifies s.trace ++ [.byte 4294967294 9#8]))) = true := by
  decide +kernel

end Dcc
