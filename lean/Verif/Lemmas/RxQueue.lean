import Verif.Spec.Bidi
import Verif.Lemmas.RxMode
/-! What the calls of public methods do to the queues with BiDi datagrams. -/
namespace Dcc
open Spec

theorem prepared_adr (e : Env) (s : Rx) (now : Int) : (s.prepared e now).q.adr = s.adrQueue := by
  unfold Rx.prepared
  obtain ⟨evs, h, -⟩ := logonStore_eq e { s with q := { s.q with adr := s.adrQueue } }
  rw [h]
  have h1 : ∀ x : Rx, (x.updateTimepoints now).q = x.q := by
    intro x; unfold Rx.updateTimepoints; dsimp only; split <;> rfl
  have h2 : ∀ x : Rx, x.updateQos.q = x.q := by
    intro x; unfold Rx.updateQos; split <;> rfl
  rw [h1, h2]
  split <;> rfl

/-- The queues only some calls touch. -/
structure SameQueues (s s' : Rx) : Prop where
  adr : s'.q.adr = s.q.adr
  dyn : s'.q.dyn = s.q.dyn
  blockDyn : s'.q.blockDyn = s.q.blockDyn

theorem SameQueues.refl (s : Rx) : SameQueues s s := ⟨rfl, rfl, rfl⟩

theorem execute_queues (e : Env) (s s' : Rx) (now : Int) (rand : Nat)
    (h : s.step e (.execute now rand) = .ok s') :
    s'.q.adr = (if (front s).isSome then s.adrQueue else s.q.adr) ∧ s'.q.dyn = s.q.dyn ∧
      s'.q.blockDyn = s.q.blockDyn ∧ s'.q.logon = s.q.logon := by
  simp only [Rx.step, bind_eq_ok, pure_eq_ok, Except.ok.injEq] at h
  obtain ⟨⟨s1, ret⟩, h1, rfl⟩ := h
  rcases execute_cases e s s1 now rand ret h1 with ⟨hc, rfl, -⟩ | ⟨p, rest, s2, s3, hp, hd, h2, f1, -, f2, rfl⟩
  · have hf : front s1 = none := by
      unfold front
      rcases hc with hc | hc
      · rw [hc, if_pos rfl]
      · rw [hc]; split <;> rfl
    rw [hf]
    exact ⟨rfl, rfl, rfl, rfl⟩
  · have hf : front s = some p := front_eq.mpr ⟨hp, rest, hd⟩
    rw [(prepare_total e s now).1] at h2
    cases h2
    rw [hf]
    exact ⟨f2.qadr.trans (prepared_adr e s now), f2.qdyn.trans f1.qdyn, f2.blockDyn.trans f1.blockDyn,
      f2.qlogon.trans f1.qlogon⟩

/-- Calls that neither execute packets nor handle BiDi data leave these queues alone. -/
theorem other_queues (e : Env) (s s' : Rx) (op : RxOp) (hroom : s.deque.length ≤ e.rxDeque)
    (h : s.step e op = .ok s') (h1 : op.isExecute = false) (h2 : ∀ ds, op ≠ .datagram ds)
    (h3 : op ≠ .biDiChannel1) (h4 : op ≠ .biDiChannel2) : SameQueues s s' := by
  cases op with
  | init =>
    obtain ⟨cv29, prim, a, v, evs, -, -, -, -, -, rfl⟩ := init_ok e s s' h
    exact ⟨rfl, rfl, rfl⟩
  | enable =>
    simp only [Rx.step, Rx.enable, Except.ok.injEq] at h
    subst h
    split <;> exact ⟨rfl, rfl, rfl⟩
  | disable =>
    simp only [Rx.step, Rx.disable, Except.ok.injEq] at h
    subst h
    split <;> exact ⟨rfl, rfl, rfl⟩
  | receive t r =>
    have f := (receive_frame e s hroom t r).out _ h
    exact ⟨f.adr, f.dyn, f.blockDyn⟩
  | execute now rand => cases h1
  | datagram ds => exact absurd rfl (h2 ds)
  | biDiChannel1 => exact absurd rfl h3
  | biDiChannel2 => exact absurd rfl h4
  | callbackByte i v =>
    simp only [Rx.step] at h
    split at h
    · have f := (frame_callbackByte s _ v).out _ h
      exact ⟨f.qadr, f.qdyn, f.blockDyn⟩
    · cases h; exact .refl s
  | callbackBit i v =>
    simp only [Rx.step] at h
    split at h
    · have f := (frame_callbackBit s _ v).out _ h
      exact ⟨f.qadr, f.qdyn, f.blockDyn⟩
    · cases h; exact .refl s

theorem newCalls_append {s s' : Rx} {evs : List Event} (h : s'.trace = s.trace ++ evs) :
    newCalls s s' = evs := by
  rw [newCalls, h, List.drop_left]

theorem newCalls_self {s s' : Rx} (h : s'.trace = s.trace) : newCalls s s' = [] :=
  newCalls_append (by rw [h, List.append_nil])

/-! ### Channel 1 -/

theorem SameDecoder.iff_eq (a b : Address) : SameDecoder a b ↔ a.eq b = true := by
  unfold SameDecoder Address.eq
  split
  · rename_i h
    simp only [Bool.and_eq_true] at h
    simp [h]
  · rename_i h
    simp only [Bool.and_eq_true] at h
    simp [h]

theorem channel1_loco (s : Rx) (h : afterLoco s = true) : s.biDiChannel1 = s.appAdr := by
  unfold afterLoco at h
  unfold Rx.biDiChannel1
  cases ht : s.addrs.received.type <;> rw [ht] at h <;> first
    | rfl
    | exact absurd h (by decide)

theorem channel1_other (s : Rx) (h : afterLoco s = false) : s.biDiChannel1.q = s.q := by
  unfold afterLoco at h
  unfold Rx.biDiChannel1
  cases ht : s.addrs.received.type <;> rw [ht] at h <;> first
    | rfl
    | exact absurd h (by decide)
    | (dsimp only; unfold Rx.appLogon1; split <;> rfl)

theorem and_low (v : BitVec 16) (k : Nat) (hk : k ≤ 16) :
    (v &&& BitVec.ofNat 16 (2 ^ k - 1)).toNat = v.toNat % 2 ^ k := by
  rw [BitVec.toNat_and, BitVec.toNat_ofNat]
  have h2 : 2 ^ k ≤ 2 ^ 16 := Nat.pow_le_pow_right (by omega) hk
  have h3 : 0 < 2 ^ k := Nat.two_pow_pos k
  rw [Nat.mod_eq_of_lt (by omega), Nat.and_two_pow_sub_one_eq_mod]

theorem reportData_eq (as : Addresses) (a : Address) :
    reportData as.consist a = (adrHighData as a, adrLowData as a) := by
  unfold reportData adrHighData adrLowData
  have hs : (a.value.toNat = as.consist.value.toNat ∧ (a.type = as.consist.type ∨
      a.type.isLoco = true ∧ as.consist.type.isLoco = true)) ↔ a.eq as.consist = true := by
    rw [← SameDecoder.iff_eq, SameDecoder, BitVec.toNat_inj]
  dsimp only
  by_cases hc : a.eq as.consist = true
  · rw [if_pos (hs.mpr hc), if_pos hc, if_pos hc, (hs.mpr hc).1]
    congr 1
    generalize as.consist.value = v
    have hv := and_low v 7 (by omega)
    have e7 : BitVec.ofNat 16 (2 ^ 7 - 1) = 0x7F#16 := rfl
    rw [e7] at hv
    rw [BitVec.toNat_or, hv]
    cases as.consist.reversed
    · simp
    · rw [if_pos rfl]
      have : ((BitVec.ofBool true).setWidth 16 <<< 7 : BitVec 16).toNat = 2 ^ 7 := by decide
      rw [this]
      have h1 : v.toNat % 2 ^ 7 < 2 ^ 7 := Nat.mod_lt _ (by decide)
      have h2 := Nat.two_pow_add_eq_or_of_lt h1 1
      omega
  · rw [if_neg (fun h => hc (hs.mp h)), if_neg hc, if_neg hc]
    generalize a.value = v
    have h8 := and_low v 8 (by omega)
    have e8 : BitVec.ofNat 16 (2 ^ 8 - 1) = 0xFF#16 := rfl
    rw [e8] at h8
    rw [h8]
    have hlt : (v < 128#16) ↔ v.toNat < 128 := by rw [BitVec.lt_def]; rfl
    by_cases h : v.toNat < 128
    · rw [if_pos h, if_pos (hlt.mpr h)]
      congr 1
      omega
    · rw [if_neg h, if_neg (fun h' => h (hlt.mp h'))]
      congr 1
      have hsh : ((v &&& 0x3F00#16) >>> 8) = ((v >>> 8) &&& 0x3F#16) := by bits16
      have h6 := and_low (v >>> 8) 6 (by omega)
      have e6 : BitVec.ofNat 16 (2 ^ 6 - 1) = 0x3F#16 := rfl
      rw [e6] at h6
      rw [hsh, BitVec.toNat_or, h6, BitVec.toNat_ushiftRight, Nat.shiftRight_eq_div_pow]
      have e80 : (0x80#16).toNat = 2 ^ 7 * 1 := rfl
      have h1 : v.toNat / 2 ^ 8 % 2 ^ 6 < 2 ^ 7 := Nat.lt_of_lt_of_le (Nat.mod_lt _ (by decide)) (by decide)
      have h2 := Nat.two_pow_add_eq_or_of_lt h1 1
      rw [e80, ← h2]

theorem reportedAddress_eq (s : Rx) : reportedAddress s = adrTarget s.addrs := by
  unfold reportedAddress adrTarget
  have h0 : ∀ v : BitVec 16, v.toNat = 0 ↔ v = 0#16 := fun v => by
    rw [← BitVec.toNat_inj]; rfl
  have hl : ∀ v : BitVec 16, v.toNat < 128 ↔ v < 128#16 := fun v => by rw [BitVec.lt_def]; rfl
  have hp : ∀ v : BitVec 16, v ≠ 0#16 → 0#16 < v := fun v h => by
    rw [BitVec.lt_def]
    have := mt (h0 v).mp h
    show 0 < v.toNat
    omega
  by_cases h1 : s.addrs.logon.value = 0#16
  · rw [if_neg (show ¬ s.addrs.logon.value.toNat ≠ 0 from fun h => h ((h0 _).mpr h1)),
      if_neg (show ¬ s.addrs.logon.value ≠ 0#16 from fun h => h h1)]
    by_cases h2 : s.addrs.consist.value = 0#16
    · rw [if_pos ((h0 _).mpr h2), if_pos h2]
    · rw [if_neg (fun h => h2 ((h0 _).mp h)), if_neg h2]
      by_cases h3 : s.addrs.consist.value < 128#16
      · rw [if_pos ((hl _).mpr h3), if_pos ⟨hp _ h2, h3⟩]
      · rw [if_neg (fun h => h3 ((hl _).mp h)), if_neg (fun h => h3 h.2)]
  · rw [if_pos (show s.addrs.logon.value.toNat ≠ 0 from fun h => h1 ((h0 _).mp h)), if_pos h1]

theorem read_b12 (id data : Nat) (hid : id < 16) (hd : data < 256) :
    read (idBytes .b12 id data) = word12 id data :=
  (idBytes_spec .b12 id data hid hd).2.2

/-- The queue of address datagrams holds the words due. -/
theorem adrQueue_words (s : Rx) :
    s.adrQueue.map read = if s.cfg.ch1AddrEnabled && (s.q.adr.map read).isEmpty then reportWords s
      else s.q.adr.map read := by
  unfold Rx.adrQueue reportWords
  rw [reportedAddress_eq]
  have he : (s.q.adr.map read).isEmpty = true ↔ s.q.adr = [] := by simp
  by_cases h : s.cfg.ch1AddrEnabled = true ∧ s.q.adr = []
  · rw [if_pos h, if_pos (by rw [Bool.and_eq_true, he]; exact h)]
    cases adrTarget s.addrs with
    | none => rfl
    | some a =>
      dsimp only
      rw [reportData_eq]
      simp only [adrPair, List.map_cons, List.map_nil]
      rw [read_b12 1 _ (by omega) (adrHighData_lt ..), read_b12 2 _ (by omega) (adrLowData_lt ..)]
  · rw [if_neg h, if_neg (by rw [Bool.and_eq_true, he]; exact h)]

end Dcc
