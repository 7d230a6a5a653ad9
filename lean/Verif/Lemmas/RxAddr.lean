import Verif.Lemmas.RxTotal
import Verif.Lemmas.Address
import Verif.Spec.Exec
/-! Which packets reach the instructions. -/
namespace Dcc
open Spec (locoNumber afterAddress Active ForDecoder target LogonStores)

theorem decode_loco (p : Packet) (n : Nat) (h : locoNumber p = some n) :
    ∃ a, decodeAddress p = .ok a ∧ a.value = BitVec.ofNat 16 n ∧ n < 16384 ∧
      ((a.type = .broadcast ∧ n = 0 ∧ afterAddress p = p.drop 1) ∨
       (a.type = .short ∧ n ≠ 0 ∧ afterAddress p = p.drop 1) ∨
       (a.type = .long ∧ afterAddress p = p.drop 2)) := by
  obtain _ | ⟨b, rest⟩ := p
  · simp [locoNumber] at h
  have h0 : b = 0#8 ↔ b.toNat = 0 := by
    constructor
    · rintro rfl; rfl
    · intro h; exact BitVec.eq_of_toNat_eq h
  unfold locoNumber at h
  unfold decodeAddress
  dsimp only at h ⊢
  by_cases h1 : b.toNat ≤ 127
  · rw [if_pos h1] at h
    cases h
    have hv : b.setWidth 16 = BitVec.ofNat 16 b.toNat := by
      apply BitVec.eq_of_toNat_eq; simp
    by_cases h2 : b.toNat = 0
    · rw [if_pos (h0.mpr h2)]
      refine ⟨_, rfl, hv, by omega, .inl ⟨rfl, h2, ?_⟩⟩
      simp [afterAddress, h1]
    · rw [if_neg (fun hb => h2 (h0.mp hb)), if_pos (by simpa [BitVec.le_def] using h1)]
      refine ⟨_, rfl, hv, by omega, .inr (.inl ⟨rfl, h2, ?_⟩)⟩
      simp [afterAddress, h1]
  · rw [if_neg h1] at h
    split at h
    · rename_i h2
      obtain _ | ⟨c, rest⟩ := rest
      · simp at h
      simp only [List.head?_cons, Option.map_some, Option.some.injEq] at h
      subst h
      have hb := b.isLt
      have hc := c.isLt
      rw [if_neg (fun hb => by rw [h0] at hb; omega), if_neg (by simpa [BitVec.le_def] using h1),
        if_neg (by simp [BitVec.le_def]; omega), if_pos (by simp [BitVec.le_def]; omega)]
      refine ⟨_, rfl, ?_, by omega, .inr (.inr ⟨rfl, ?_⟩)⟩
      · apply BitVec.eq_of_toNat_eq
        rw [and3FFF_toNat, concat16_toNat, BitVec.toNat_ofNat]
        omega
      · simp [afterAddress, h1]
    · cases h

theorem decode_other (p : Packet) (hl : 2 ≤ p.length) (h : locoNumber p = none) :
    ∃ a, decodeAddress p = .ok a ∧ a.type ≠ .broadcast ∧ a.type ≠ .short ∧ a.type ≠ .long := by
  obtain _ | ⟨b, _ | ⟨c, rest⟩⟩ := p
  · simp at hl
  · simp at hl
  unfold locoNumber at h
  dsimp only at h
  split at h
  · cases h
  split at h
  · simp at h
  rename_i h1 h2
  have hb := b.isLt
  have h0 : b = 0#8 ↔ b.toNat = 0 := by
    constructor
    · rintro rfl; rfl
    · intro h; exact BitVec.eq_of_toNat_eq h
  unfold decodeAddress
  dsimp only
  rw [if_neg (fun hb => by rw [h0] at hb; omega), if_neg (by simpa [BitVec.le_def] using h1)]
  split
  · exact ⟨_, rfl, by simp⟩
  rename_i h3
  rw [if_neg (by simp [BitVec.le_def] at h3 ⊢; omega)]
  split
  · exact ⟨_, rfl, by simp⟩
  split
  · exact ⟨_, rfl, by simp⟩
  split
  · exact ⟨_, rfl, by simp⟩
  · exact ⟨_, rfl, by simp⟩

theorem ofNat16_eq_iff (n : Nat) (v : BitVec 16) (hn : n < 16384) :
    BitVec.ofNat 16 n = v ↔ n = v.toNat := by
  constructor
  · rintro rfl; simp; omega
  · intro h; apply BitVec.eq_of_toNat_eq; simp [← h]; omega

theorem Address.eq_loco (a b : Address) (ha : a.type.isLoco = true) :
    a.eq b = true ↔ b.type.isLoco = true ∧ a.value = b.value := by
  unfold Address.eq
  cases hb : b.type.isLoco
  · simp only [ha, Bool.and_false, Bool.false_eq_true, if_false, false_and, iff_false]
    simp only [Bool.and_eq_true, beq_iff_eq, not_and]
    intro _ ht
    rw [← ht, ha] at hb
    cases hb
  · simp [ha]

theorem effectiveAddress_eq (s : Rx) (a : Address) (n : Nat) (hv : a.value = BitVec.ofNat 16 n)
    (hn : n < 16384) (ht : (a.type = .broadcast ∧ n = 0) ∨ a.type.isLoco = true) :
    (s.effectiveAddress a).map (·.value) =
      if n = 0 ∨ Active s n then some (target s n) else none := by
  have h0 : a.value = 0#16 ↔ n = 0 := by
    rw [hv, ofNat16_eq_iff n _ hn]; simp
  unfold Rx.effectiveAddress
  by_cases hz : n = 0
  · rw [if_pos (h0.mpr hz), if_pos (.inl hz)]
    simp [target, hz, hv]
  · have ht : a.type.isLoco = true := by
      rcases ht with ⟨_, h⟩ | h
      · exact absurd h hz
      · exact h
    rw [if_neg (fun h => hz (h0.mp h))]
    by_cases hl : s.addrs.logon.value = 0#16
    · by_cases ha : Active s n
      · have hb : (a.eq s.addrs.primary || a.eq s.addrs.consist) = true := by
          unfold Active at ha
          rw [if_pos hl] at ha
          rw [Bool.or_eq_true, Address.eq_loco a _ ht, Address.eq_loco a _ ht, hv,
            ofNat16_eq_iff n _ hn, ofNat16_eq_iff n _ hn]
          exact ha
        rw [if_pos (by simp [hb, hl]), if_pos (.inr ha)]
        simp [target, hl, hv]
      · have hb : ¬ (a.eq s.addrs.primary || a.eq s.addrs.consist) = true := by
          rw [Bool.or_eq_true, Address.eq_loco a _ ht, Address.eq_loco a _ ht, hv,
            ofNat16_eq_iff n _ hn, ofNat16_eq_iff n _ hn]
          unfold Active at ha
          rw [if_pos hl] at ha
          exact ha
        rw [if_neg (by simp only [Bool.and_eq_true, not_and]; exact fun h => absurd h hb),
          if_neg (by
            rw [Address.eq_loco a _ ht, hl]
            exact fun h => hz (h0.mp h.2)),
          if_neg (by simp [hz, ha])]
        rfl
    · rw [if_neg (by simp [hl])]
      have hiff : a.eq s.addrs.logon = true ↔ Active s n := by
        rw [Address.eq_loco a _ ht, hv, ofNat16_eq_iff n _ hn]
        unfold Active
        rw [if_neg hl]
      by_cases ha : Active s n
      · rw [if_pos (hiff.mpr ha), if_pos (.inr ha)]
        simp [target, hz, hl]
      · rw [if_neg (fun h => ha (hiff.mp h)), if_neg (by simp [hz, ha])]
        rfl

/-- Executing a packet in operations mode. -/
theorem operations_for (e : Env) (s : Rx) (p : Packet) (rand n : Nat) (h : locoNumber p = some n)
    (hf : n = 0 ∨ Active s n) : s.executeOperations e p rand = (do
      return (← s.executeInstruction e (target s n) p (afterAddress p) rand, true)) := by
  obtain ⟨a, ha, hv, hn, ht⟩ := decode_loco p n h
  have he := effectiveAddress_eq s a n hv hn (by
    rcases ht with ⟨h1, h2, _⟩ | ⟨h1, _⟩ | ⟨h1, _⟩
    · exact .inl ⟨h1, h2⟩
    · exact .inr (by rw [h1]; rfl)
    · exact .inr (by rw [h1]; rfl))
  rw [if_pos hf] at he
  obtain ⟨x, hx, hx2⟩ := Option.map_eq_some_iff.mp he
  have key : ∀ bs, s.executeOperationsAddressed e a p bs rand = (do
      return (← s.executeInstruction e (target s n) p bs rand, true)) := by
    intro bs
    unfold Rx.executeOperationsAddressed
    rw [hx, ← hx2]
  unfold Rx.executeOperations
  rw [ha, ok_bind]
  rcases ht with ⟨h1, _, h3⟩ | ⟨h1, _, h3⟩ | ⟨h1, h3⟩ <;> rw [h1, h3] <;> exact key _

theorem operations_foreign (e : Env) (s : Rx) (p : Packet) (rand : Nat) (hl : 2 ≤ p.length)
    (hf : ¬ ForDecoder s p) : s.executeOperations e p rand = .ok (s, false) := by
  unfold Rx.executeOperations
  cases h : locoNumber p with
  | none =>
    obtain ⟨a, ha, h1, h2, h3⟩ := decode_other p hl h
    rw [ha, ok_bind]
    cases ht : a.type <;> first | rfl | (exact absurd ht (by assumption))
  | some n =>
    obtain ⟨a, ha, hv, hn, ht⟩ := decode_loco p n h
    have hf' : ¬ (n = 0 ∨ Active s n) := fun hh => hf ⟨n, h, hh⟩
    have he := effectiveAddress_eq s a n hv hn (by
      rcases ht with ⟨h1, h2, _⟩ | ⟨h1, _⟩ | ⟨h1, _⟩
      · exact .inl ⟨h1, h2⟩
      · exact .inr (by rw [h1]; rfl)
      · exact .inr (by rw [h1]; rfl))
    rw [if_neg hf', Option.map_eq_none_iff] at he
    have key : ∀ bs, s.executeOperationsAddressed e a p bs rand = .ok (s, false) := by
      intro bs
      unfold Rx.executeOperationsAddressed
      rw [he]
    rw [ha, ok_bind]
    rcases ht with ⟨h1, _⟩ | ⟨h1, _⟩ | ⟨h1, _⟩ <;> rw [h1] <;> exact key _

/-- The preparation writes logon data and nothing else. -/
theorem prepared_trace (e : Env) (s : Rx) (now : Int) :
    ∃ evs, (s.prepared e now).trace = s.trace ++ evs ∧ LogonStores s evs := by
  unfold Rx.prepared
  obtain ⟨evs, h, he⟩ := logonStore_eq e { s with q := { s.q with adr := s.adrQueue } }
  have ht : ∀ x : Rx, (x.updateQos.updateTimepoints now).trace = x.trace := by
    intro x
    unfold Rx.updateTimepoints Rx.updateQos
    dsimp only
    split <;> split <;> rfl
  rw [ht, h]
  cases hs : s.logon.store
  · exact ⟨[], by simp, ⟨by simp, by simp, fun _ => rfl⟩⟩
  · have hk : ∀ ev ∈ evs, ev.isWrite = true ∧ ∃ cv ∈ Spec.logonCvs, ev.writtenCv = some cv := ?_
    · exact ⟨evs, by simp, ⟨fun ev h => (hk ev h).1, fun ev h => (hk ev h).2, by simp [hs]⟩⟩
    intro ev hev
    have hm : ev.erase ∈ storeWrites { s with q := { s.q with adr := s.adrQueue } } := by
      rw [← he]; exact List.mem_map_of_mem hev
    have hw : ∀ x ∈ storeWrites { s with q := { s.q with adr := s.adrQueue } },
        x.isWrite = true ∧ ∃ cv ∈ Spec.logonCvs, x.writtenCv = some cv := by
      intro x hx
      unfold storeWrites at hx
      rcases List.mem_append.mp hx with hx | hx
      · split at hx
        · simp only [primaryWrites, List.mem_cons, List.not_mem_nil, or_false] at hx
          rcases hx with rfl | rfl | rfl <;> exact ⟨rfl, _, by decide, rfl⟩
        · simp at hx
      · simp only [logonWrites, List.mem_cons, List.not_mem_nil, or_false] at hx
        rcases hx with rfl | rfl | rfl | rfl | rfl | rfl | rfl <;> exact ⟨rfl, _, by decide, rfl⟩
    have := hw _ hm
    cases ev <;> exact this

theorem Active.congr {s s' : Rx} (h : s'.addrs = s.addrs) (n : Nat) : Active s' n ↔ Active s n := by
  unfold Active; rw [h]

theorem ForDecoder.congr {s s' : Rx} (h : s'.addrs = s.addrs) (p : Packet) :
    ForDecoder s' p ↔ ForDecoder s p := by
  unfold ForDecoder
  simp only [Active.congr h]

theorem target_congr {s s' : Rx} (h : s'.addrs = s.addrs) (n : Nat) : target s' n = target s n := by
  unfold target; rw [h]

theorem execute_front (e : Env) (s : Rx) (now : Int) (rand : Nat) (p : Packet) (rest : List Packet)
    (hp : s.packetEnd = false) (hd : s.deque = p :: rest) :
    s.execute e now rand = (do
      let (s2, ret) ← if s.serviceMode then (s.prepared e now).executeService e p
        else (s.prepared e now).executeOperations e p rand
      return (s2.popFront, ret)) := by
  obtain ⟨h1, h2⟩ := prepare_total e s now
  rw [execute_eq, if_neg (by simp [hp, hd]), h1, ok_bind]
  unfold Rx.executeFront
  rw [h2.deque, hd]
  dsimp only
  have : (s.prepared e now).serviceMode = s.serviceMode := by simp [Rx.serviceMode, h2.mode]
  rw [this]
  cases s.serviceMode <;> rfl

/-- `execute` in operations mode on a packet for the decoder. -/
theorem execute_for (e : Env) (s : Rx) (now : Int) (rand n : Nat) (p : Packet) (rest : List Packet)
    (hp : s.packetEnd = false) (hd : s.deque = p :: rest) (hm : s.serviceMode = false)
    (h : locoNumber p = some n) (hf : n = 0 ∨ Active s n) :
    s.execute e now rand = (do
      let s2 ← (s.prepared e now).executeInstruction e (target s n) p (afterAddress p) rand
      return (s2.popFront, true)) := by
  have ha := (prepare_total e s now).2.addrs
  rw [execute_front e s now rand p rest hp hd, hm, if_neg Bool.false_ne_true,
    operations_for e _ p rand n h (by rwa [Active.congr ha]), target_congr ha]
  simp only [bind_assoc, pure_eq_ok, ok_bind]

/-- `execute` in operations mode on a packet for someone else. -/
theorem execute_foreign (e : Env) (s : Rx) (now : Int) (rand : Nat) (p : Packet)
    (rest : List Packet) (hp : s.packetEnd = false) (hd : s.deque = p :: rest)
    (hm : s.serviceMode = false) (hl : 2 ≤ p.length) (hf : ¬ ForDecoder s p) :
    s.execute e now rand = .ok ((s.prepared e now).popFront, false) := by
  have ha := (prepare_total e s now).2.addrs
  rw [execute_front e s now rand p rest hp hd, hm, if_neg Bool.false_ne_true,
    operations_foreign e _ p rand hl (by rwa [ForDecoder.congr ha])]
  rfl

end Dcc
