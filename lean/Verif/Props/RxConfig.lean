import Verif.Lemmas.RxConfig
import Verif.Props.Address
/-!
C45, C67: the configuration of a decoder always reflects its CVs; reading it stays within bounds.
-/
namespace Dcc
open Spec

theorem run_keeps {e : Env} {m : BitVec 32 → Byte} (hm : MemoryLike e m) (ops : List RxOp)
    (s s' : Rx) (hr : Reachable e s) (hst : s.logon.store = false)
    (ha : Along (fun s => s.logon.assigned = false) e s ops) (h : s.run e ops = .ok s')
    (hR : Reflects (mem m s.trace) s ∨ .init ∈ ops) : Reflects (mem m s'.trace) s' := by
  induction ops generalizing s with
  | nil =>
    cases h
    exact hR.resolve_right (by simp)
  | cons op ops ih =>
    rw [Rx.run, bind_eq_ok] at h
    obtain ⟨s1, h1, h2⟩ := h
    unfold Along at ha
    rw [h1] at ha
    have ha1 : s1.logon.assigned = false := by
      obtain _ | ⟨op2, ops2⟩ := ops
      · exact ha.2
      · exact ha.2.1
    obtain ⟨k1, k2⟩ := step_keeps hm s s1 hr hst op h1 ha1
    refine ih s1 (hr.step op h1) k2 ha.2 h2 ?_
    rcases hR with hR | hR
    · exact .inl (k1.out hR)
    · rw [List.mem_cons] at hR
      rcases hR with rfl | hR
      · exact .inl (init_reflects hm h1).1
      · exact .inr hR

/-- **C45** With a CV store that behaves like memory, after any calls among which `init()` was called
once, as long as automatic logon assigned no address: addresses, direction flags, speed step mode,
lock and BiDi switches are the ones in the CVs. -/
theorem C45_configuration (e : Env) (m : BitVec 32 → Byte) (hm : MemoryLike e m) (ops : List RxOp)
    (s : Rx) (hi : .init ∈ ops) (ha : Along (fun s => s.logon.assigned = false) e {} ops)
    (h : ({} : Rx).run e ops = .ok s) : Reflects (mem m s.trace) s :=
  run_keeps hm ops {} s .start rfl ha h (.inr hi)

theorem Spec.Reflects.unique {c : BitVec 32 → Byte} {s s' : Rx} (h : Reflects c s)
    (h' : Reflects c s') : s'.addrs.primary = s.addrs.primary ∧ s'.addrs.consist = s.addrs.consist ∧
      { s'.cfg with did := s.cfg.did } = s.cfg := by
  have hp : s'.addrs.primary = s.addrs.primary := by
    obtain ⟨t, -, ht⟩ := C03_classes_partition (primaryByte c)
    have h1 := (ht _ h'.primaryType).trans (ht _ h.primaryType).symm
    have h2 := BitVec.eq_of_toNat_eq (h'.primaryValue.trans h.primaryValue.symm)
    have h3 := h'.primaryReversed.trans h.primaryReversed.symm
    cases hx : s'.addrs.primary
    cases hy : s.addrs.primary
    simp_all
  have hk : s'.addrs.consist = s.addrs.consist := by
    have h1 := h'.consistType.trans h.consistType.symm
    have h2 := BitVec.eq_of_toNat_eq (h'.consistValue.trans h.consistValue.symm)
    have h3 := h'.consistReversed.trans h.consistReversed.symm
    cases hx : s'.addrs.consist
    cases hy : s.addrs.consist
    simp_all
  refine ⟨hp, hk, ?_⟩
  have h1 := h'.f0Exception.trans h.f0Exception.symm
  have h2 := Bool.eq_iff_iff.mpr (h'.locked.trans h.locked.symm)
  have h3 := h'.channel1.trans h.channel1.symm
  have h4 := h'.channel2.trans h.channel2.symm
  have h5 := h'.logon.trans h.logon.symm
  have h6 := h'.channel2Consist.trans h.channel2Consist.symm
  cases hx : s'.cfg
  cases hy : s.cfg
  simp_all

/-- **C45** in the words of the API: calling `init()` once more changes no address and no switch. -/
theorem C45_init_idempotent (e : Env) (m : BitVec 32 → Byte) (hm : MemoryLike e m) (ops : List RxOp)
    (s s' : Rx) (hi : .init ∈ ops) (ha : Along (fun s => s.logon.assigned = false) e {} ops)
    (h : ({} : Rx).run e ops = .ok s) (h' : s.init e = .ok s') :
    s'.addrs.primary = s.addrs.primary ∧ s'.addrs.consist = s.addrs.consist ∧
      { s'.cfg with did := s.cfg.did } = s.cfg := by
  have hR := C45_configuration e m hm ops s hi ha h
  obtain ⟨h1, h2⟩ := init_reflects hm h'
  rw [h2] at h1
  exact hR.unique h1

/-- A decoder with address 3 is given the address 4 and consist address 5. -/
def Spec.configSession : List RxOp :=
  .init :: hears [3#8, 0xEC#8, 0#8, 4#8, 0xEB#8] ++ hears [3#8, 0xEC#8, 0#8, 4#8, 0xEB#8] ++
    List.replicate 2 (.execute 0 0) ++ hears [4#8, 0x13#8, 5#8, 0x12#8] ++ [.execute 0 0]

/-- The hypotheses hold in a run. -/
example : MemoryLike exampleEnv exampleCvs ∧ .init ∈ configSession ∧
    Along (fun s => s.logon.assigned = false) exampleEnv {} configSession ∧
    holdsAfter (({} : Rx).run exampleEnv configSession) (fun s =>
      decide (s.addrs.primary.value = 4#16 ∧ s.addrs.consist.value = 5#16 ∧
        s.addrs.consist.reversed = true ∧ mem exampleCvs s.trace 18#32 = 0x85#8)) = true :=
  ⟨⟨fun _ _ => rfl⟩, by decide +kernel, by decide +kernel, by decide +kernel⟩

/-- CVs whose configuration can be read: not a first byte of a long address in CV1 while CV29 selects
CV1. -/
def Spec.Readable (c : BitVec 32 → Byte) : Prop :=
  (c 28#32).getLsbD 5 = true ∨ ¬ (192 ≤ (c 0#32).toNat ∧ (c 0#32).toNat ≤ 231)

theorem decode_two (b c : Byte) : ∃ a, decodeAddress [b, c] = .ok a := by
  obtain ⟨a, h, -⟩ := C03_decode_class b c []
  exact ⟨a, h⟩

/-- **C67** Reading the configuration does not fault, for any user class whatsoever, if CV1 does not
hold the first byte of a long address. -/
theorem C67_init_partial (e : Env)
    (h1 : ∀ tr, ¬ (192 ≤ (e.readCv tr 0#32).toNat ∧ (e.readCv tr 0#32).toNat ≤ 231)) (s : Rx) :
    ∃ s', s.init e = .ok s' := by
  obtain ⟨cv29, prim, v, evs, a29, hP, -, -, h⟩ := init_eq e s
  rw [h]
  unfold PrimaryBytes at hP
  split at hP
  · obtain ⟨x, y, rfl, -, -⟩ := hP
    obtain ⟨a, ha⟩ := decode_two x y
    rw [ha]
    exact ⟨_, rfl⟩
  · obtain ⟨x, rfl, evs', -, hx⟩ := hP
    cases hd : decodeAddress [x] with
    | ok a => exact ⟨_, rfl⟩
    | error f =>
      have key : ∀ x : Byte, ∀ f, decodeAddress [x] = .error f → 192 ≤ x.toNat ∧ x.toNat ≤ 231 := by
        intro x f h
        refine Classical.byContradiction fun hn => ?_
        have key : ∀ x : Byte, ¬ (192 ≤ x.toNat ∧ x.toNat ≤ 231) →
            (decodeAddress [x]).toBool = true := by decide +kernel
        have := key x hn
        rw [h] at this
        cases this
      have := key x f hd
      rw [hx] at this
      exact absurd this (h1 _)

/-- **C67** With a memory of CVs: reading the configuration faults exactly if CV29 selects the short
address and CV1 holds 192 to 231. -/
theorem C67_init_exact (e : Env) (m : BitVec 32 → Byte) (hm : MemoryLike e m) (s : Rx) :
    (Readable (mem m s.trace) → ∃ s', s.init e = .ok s') ∧
    (¬ Readable (mem m s.trace) → s.init e = .error .oob) := by
  obtain ⟨cv29, prim, v, evs, a29, hP, -, -, h⟩ := init_eq e s
  have e29 := a29.mem hm
  unfold PrimaryBytes at hP
  unfold Readable
  rw [h, ← e29]
  cases h5 : cv29.getLsbD 5
  · rw [h5, if_neg Bool.false_ne_true] at hP
    obtain ⟨x, rfl, hx⟩ := hP
    rw [← hx.mem hm]
    have key : ∀ x : Byte, (¬ (192 ≤ x.toNat ∧ x.toNat ≤ 231) → (decodeAddress [x]).toBool = true) ∧
      (192 ≤ x.toNat ∧ x.toNat ≤ 231 → decodeAddress [x] = .error .oob) := by decide +kernel
    refine ⟨fun hr => ?_, fun hr => ?_⟩
    · have := (key x).1 (hr.resolve_left Bool.false_ne_true)
      cases hd : decodeAddress [x] with
      | ok a => exact ⟨_, rfl⟩
      | error f => rw [hd] at this; cases this
    · rw [(key x).2 (Classical.byContradiction fun hn => hr (.inr hn))]
      rfl
  · rw [h5, if_pos rfl] at hP
    obtain ⟨x, y, rfl, -, -⟩ := hP
    obtain ⟨a, ha⟩ := decode_two x y
    rw [ha]
    exact ⟨fun _ => ⟨_, rfl⟩, fun hr => absurd (.inl rfl) hr⟩

/-- Two packets for the decoder with address 3 that write 200 to CV1. -/
def Spec.badAddressSession : List RxOp :=
  .init :: hears [3#8, 0xEC#8, 0#8, 200#8, 0x27#8] ++ hears [3#8, 0xEC#8, 0#8, 200#8, 0x27#8] ++
    [.execute 0 0]

/-- **C67** is false: after two packets on the track that write 200 to CV1 the decoder reads behind
the value of CV1. -/
theorem C67_init_false : ∃ s : Rx, ({} : Rx).run exampleEnv badAddressSession = .ok s ∧
    s.step exampleEnv (.execute 0 0) = .error .oob := by
  have h : holdsAfter (({} : Rx).run exampleEnv badAddressSession) (fun s =>
      decide (s.step exampleEnv (.execute 0 0) = .error .oob)) = true := by decide +kernel
  obtain ⟨s, h1, h2⟩ := holdsAfter_ok h
  exact ⟨s, h1, of_decide_eq_true h2⟩

/-- A class that hides the top bit of its CVs. -/
def Spec.sevenBitEnv : Env :=
  { exampleEnv with readCv := fun tr cv => mem exampleCvs tr cv &&& 0x7F#8 }

/-- It meets the hypothesis of `C67_init_partial`. -/
example : ∀ tr, ¬ (192 ≤ (sevenBitEnv.readCv tr 0#32).toNat ∧
    (sevenBitEnv.readCv tr 0#32).toNat ≤ 231) := by
  have key : ∀ b : Byte, ¬ (192 ≤ (b &&& 0x7F#8).toNat ∧ (b &&& 0x7F#8).toNat ≤ 231) := by
    decide +kernel
  exact fun tr => key _

example : Readable exampleCvs ∧ ¬ Readable (fun cv => if cv = 0#32 then 200#8 else 0#8) := by
  unfold Readable
  decide

end Dcc
