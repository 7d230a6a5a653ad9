import Verif.Lemmas.RxCvCount
/-! Executing CV packets. -/
namespace Dcc
open Spec

theorem Calls.trans {a b c : Rx} {x : List Event} (h : b.trace = a.trace) (g : Calls b c x) :
    Calls a c x := by
  obtain ⟨q, h1, h2⟩ := g
  exact ⟨q, by rw [h1, h], h2⟩

theorem count_fields (s : Rx) (p : Packet) : (s.countOwnEqualCvPackets p).trace = s.trace ∧
    (s.countOwnEqualCvPackets p).mode = s.mode ∧ (s.countOwnEqualCvPackets p).cfg = s.cfg ∧
    (s.countOwnEqualCvPackets p).addrs = s.addrs := by
  unfold Rx.countOwnEqualCvPackets
  split <;> exact ⟨rfl, rfl, rfl, rfl⟩

/-- What a decoder does about the `n`-th of identical packets. -/
def modeAction (service : Bool) (n : Nat) (bs : List Byte) : Option (Kind × Access) :=
  if service then directAction n bs else longAction n bs

theorem longAction_two (bs : List Byte) : longAction 2 bs = longRequest bs := by
  unfold longAction
  split <;> rename_i h <;> simp [h]

theorem calls_cvLong (e : Env) (s : Rx) (addr : BitVec 16) (p : Packet) (bs : List Byte)
    (hb : ¬ (addr ≠ 0#16 ∧ addr = s.addrs.consist.value)) (hl : 3 ≤ bs.length) :
    Post (s.cvLong e addr p bs) (fun s' => Calls s s' (actionCalls e s.trace s.serviceMode
      s.cfg.cvsLocked (modeAction s.serviceMode (countPacket s.cvCount p).2 bs))) := by
  unfold Rx.cvLong
  rw [if_neg hb]
  have hc : (s.countOwnEqualCvPackets p).ownEqualCvPackets = (countPacket s.cvCount p).2 := by
    rw [← count_cvCount]; rfl
  obtain ⟨f1, f2, f3, f4⟩ := count_fields s p
  have f2' : (s.countOwnEqualCvPackets p).serviceMode = s.serviceMode := by
    unfold Rx.serviceMode; rw [f2]
  dsimp only
  rw [hc, f2']
  unfold modeAction
  split
  · rename_i h
    obtain ⟨h1, h2⟩ := h
    refine Post.ok (.of_eq ?_)
    rw [h1, if_pos rfl, f1]
    simp [directAction, h2, actionCalls]
  · rename_i h
    have hb := calls_longBody e (s.countOwnEqualCvPackets p) bs hl
    rw [hc, f1, f2', f3] at hb
    refine hb.mono fun s' h1 => .trans f1 ?_
    cases hs : s.serviceMode
    · rw [hs] at h1; exact h1
    · have h2 : (countPacket s.cvCount p).2 = 2 := by
        rw [hs] at h; simpa using h
      rw [hs, h2, longAction_two] at h1
      rw [h2]
      exact h1

theorem prepared_calls {e : Env} {s s' : Rx} {now : Int} {stores calls : List Event}
    (ht : (s.prepared e now).trace = s.trace ++ stores) (h : Calls (s.prepared e now) s' calls) :
    ∃ quiet, (∀ ev ∈ quiet, ev.isQuiet = true) ∧
      s'.trace = s.trace ++ stores ++ calls ++ quiet ∧ (calls = [] → quiet = []) := by
  obtain ⟨quiet, h1, h2, h3⟩ := h
  exact ⟨quiet, h2, by rw [h1, ht], h3⟩

theorem prepared_modes (e : Env) (s : Rx) (now : Int) :
    (s.prepared e now).serviceMode = s.serviceMode ∧ (s.prepared e now).cfg = s.cfg ∧
    (s.prepared e now).addrs = s.addrs := by
  have f := (prepare_total e s now).2
  exact ⟨by unfold Rx.serviceMode; rw [f.mode], f.cfg, f.addrs⟩

/-- Executing a long form CV access packet in operations mode ends in `cvLong`. -/
theorem execute_isLong (e : Env) (s s' : Rx) (now : Int) (rand : Nat) (ret : Bool) (p : Packet)
    (hv : ∀ p ∈ s.deque, 2 ≤ p.length)
    (hm : s.serviceMode = false) (hf : front s = some p) (hc : cvRequest s p = true)
    (hl : ∀ b, (afterAddress p).head? = some b → b.toNat < 240)
    (h : s.execute e now rand = .ok (s', ret)) :
    ∃ s2 addr, ¬ (addr ≠ 0#16 ∧ addr = (s.prepared e now).addrs.consist.value) ∧
      (s.prepared e now).cvLong e addr p (afterAddress p) = .ok s2 ∧
      s'.trace = s2.trace ∧ s'.q.pom = s2.q.pom := by
  obtain ⟨-, -, m3⟩ := prepared_modes e s now
  cases exec_cases e s s' now rand ret hv h with
  | idle h _ _ => obtain ⟨h1, r, h2⟩ := front_eq.mp hf; rcases h with h | h <;> simp_all
  | foreign q rest hp hd hm' hfd _ _ =>
    have hfr := front_eq.mpr ⟨hp, rest, hd⟩
    rw [hf] at hfr; cases hfr
    exfalso
    apply hfd
    unfold cvRequest at hc
    rw [hm] at hc
    simp only [Bool.false_eq_true, if_false] at hc
    split at hc
    · cases hc
    · rename_i n hn
      simp only [Bool.and_eq_true, Bool.or_eq_true, decide_eq_true_eq] at hc
      exact ⟨n, hn, hc.1.1⟩
  | service q rest s2 hp hd hm' _ _ => rw [hm] at hm'; cases hm'
  | operations q rest n s2 hp hd hm' hn ha h hs' _ =>
    have hfr := front_eq.mpr ⟨hp, rest, hd⟩
    rw [hf] at hfr; cases hfr
    obtain ⟨b, hb, hi⟩ := instruction_cases e _ s2 _ p _ rand h
    rw [cvRequest_operations s p n b hm hn ha hb] at hc
    simp only [Bool.and_eq_true, Bool.not_eq_true', decide_eq_false_iff_not, decide_eq_true_eq] at hc
    have hlb := hl b hb
    have hd : decodeInstructionByte b = .cvLong := (decode_cv b).1.mpr ⟨hc.2, hlb⟩
    cases hi with
    | enter _ hb _ => rw [hb] at hc; simp at hc
    | control hd' _ _ => rw [hd] at hd'; cases hd'
    | consist hd' _ => rw [hd] at hd'; cases hd'
    | drives hd' _ =>
      rw [hd] at hd'
      rcases hd' with h | h | h | h | h
      · cases h
      · cases h
      · cases h
      · rw [h] at hc; simp at hc
      · rw [h] at hc; simp at hc
    | searches hd' _ _ _ => rw [hd] at hd'; cases hd'
    | cvShort hd' _ => rw [hd] at hd'; cases hd'
    | cvLong _ h => exact ⟨s2, _, by rw [m3]; exact hc.1, h, by rw [hs']; rfl, by rw [hs']; rfl⟩

/-- Executing a long form CV access packet in operations mode. -/
theorem execute_cvLong (e : Env) (s s' : Rx) (now : Int) (rand : Nat) (ret : Bool) (p : Packet)
    (hv : ∀ p ∈ s.deque, 2 ≤ p.length)
    (hm : s.serviceMode = false) (hf : front s = some p) (hc : cvRequest s p = true)
    (hl : ∀ b, (afterAddress p).head? = some b → b.toNat < 240) (h3 : 3 ≤ (afterAddress p).length)
    (h : s.execute e now rand = .ok (s', ret)) :
    ∃ stores quiet, LogonStores s stores ∧ (∀ ev ∈ quiet, ev.isQuiet = true) ∧
      s'.trace = s.trace ++ stores ++ actionCalls e (s.trace ++ stores) false s.cfg.cvsLocked
        (longAction (countPacket s.cvCount p).2 (afterAddress p)) ++ quiet ∧
      (actionCalls e (s.trace ++ stores) false s.cfg.cvsLocked
        (longAction (countPacket s.cvCount p).2 (afterAddress p)) = [] → quiet = []) := by
  obtain ⟨stores, ht, hs⟩ := prepared_trace e s now
  obtain ⟨m1, m2, -⟩ := prepared_modes e s now
  obtain ⟨s2, addr, ha, h, hs2, -⟩ := execute_isLong e s s' now rand ret p hv hm hf hc hl h
  rw [hs2]
  have h1 := (calls_cvLong e _ _ p _ ha h3).out _ h
  rw [m1, m2, hm, prepared_cvCount, ht] at h1
  obtain ⟨quiet, h2, h3, h4⟩ := prepared_calls ht h1
  exact ⟨stores, quiet, hs, h2, h3, h4⟩

/-- Executing a direct mode packet in service mode. -/
theorem execute_direct (e : Env) (s s' : Rx) (now : Int) (rand : Nat) (ret : Bool) (p : Packet)
    (hv : ∀ p ∈ s.deque, 2 ≤ p.length)
    (hm : s.serviceMode = true) (hf : front s = some p) (hc : cvRequest s p = true)
    (h : s.execute e now rand = .ok (s', ret)) :
    ∃ stores quiet, LogonStores s stores ∧ (∀ ev ∈ quiet, ev.isQuiet = true) ∧
      s'.trace = s.trace ++ stores ++ actionCalls e (s.trace ++ stores) true s.cfg.cvsLocked
        (directAction (countPacket s.cvCount p).2 p) ++ quiet ∧
      (actionCalls e (s.trace ++ stores) true s.cfg.cvsLocked
        (directAction (countPacket s.cvCount p).2 p) = [] → quiet = []) := by
  obtain ⟨stores, ht, hs⟩ := prepared_trace e s now
  obtain ⟨m1, m2, m3⟩ := prepared_modes e s now
  have hq : p.length = 4 ∧ ∃ b, p.head? = some b ∧ 112 ≤ b.toNat ∧ b.toNat ≤ 127 := by
    unfold cvRequest at hc
    rw [hm, if_pos rfl] at hc
    simp only [Bool.and_eq_true, decide_eq_true_eq, Option.any_eq_true] at hc
    exact hc
  obtain ⟨hl, b, hb, h7⟩ := hq
  cases exec_cases e s s' now rand ret hv h with
  | idle h _ _ => obtain ⟨h1, r, h2⟩ := front_eq.mp hf; rcases h with h | h <;> simp_all
  | foreign q rest hp hd hm' hfd _ _ => rw [hm] at hm'; cases hm'
  | operations q rest n s2 hp hd hm' hn ha h hs' _ => rw [hm] at hm'; cases hm'
  | service q rest s2 hp hd hm' h hs' =>
    have hfr := front_eq.mpr ⟨hp, rest, hd⟩
    rw [hf] at hfr; cases hfr
    have hs2 : s2.trace = s'.trace := by rw [hs']; rfl
    rw [← hs2]
    cases (service_cases e _ s2 p ret h).1 with
    | ignored h1 _ =>
      exfalso
      rcases h1 with ⟨r, rfl⟩ | ⟨c, r, rfl, -, -, h1⟩
      · cases hb; simp at h7
      · exact h1 hl
    | leave c r hc' _ hn _ =>
      rw [hc'] at hb; cases hb
      exact absurd ((nibble7 _).mpr h7) hn
    | register _ _ _ _ hl' _ => omega
    | direct c r _ _ _ h =>
      have h1 := (calls_cvLong e _ _ p p (by simp) (by omega)).out _ h
      rw [m1, m2, hm, prepared_cvCount, ht] at h1
      obtain ⟨quiet, h2, h3, h4⟩ := prepared_calls ht h1
      exact ⟨stores, quiet, hs, h2, h3, h4⟩

theorem cvLong_exec (e : Env) (s : Rx) (addr : BitVec 16) (p : Packet) (bs : List Byte) :
    Post (s.cvLong e addr p bs) (fun s' => ExecFrame s s' ∧ s'.mode = s.mode) := by
  unfold Rx.cvLong
  split
  · exact Post.ok ⟨.refl s, rfl⟩
  have hc : ExecFrame s (s.countOwnEqualCvPackets p) := by
    unfold Rx.countOwnEqualCvPackets
    split <;> frame_rfl
  dsimp only
  split
  · exact Post.ok ⟨hc, (count_fields s p).2.1⟩
  · exact (cv_longBody ..).mono fun s' h => ⟨hc.trans h.exec, h.mode.trans (count_fields s p).2.1⟩

/-- What executing a direct mode packet leaves. -/
theorem direct_frame (e : Env) (s s' : Rx) (now : Int) (rand : Nat) (ret : Bool) (p : Packet)
    (hv : ∀ p ∈ s.deque, 2 ≤ p.length)
    (hm : s.serviceMode = true) (hf : front s = some p) (hc : cvRequest s p = true)
    (h : s.execute e now rand = .ok (s', ret)) :
    s'.mode = s.mode ∧ s'.link = s.link ∧ s'.deque = s.deque.tail ∧ s'.logon.store = false := by
  have hq : p.length = 4 ∧ ∃ b, p.head? = some b ∧ 112 ≤ b.toNat ∧ b.toNat ≤ 127 := by
    unfold cvRequest at hc
    rw [hm, if_pos rfl] at hc
    simp only [Bool.and_eq_true, decide_eq_true_eq, Option.any_eq_true] at hc
    exact hc
  obtain ⟨hl, b, hb, h7⟩ := hq
  have f := (prepare_total e s now).2
  cases exec_cases e s s' now rand ret hv h with
  | idle h _ _ => obtain ⟨h1, r, h2⟩ := front_eq.mp hf; rcases h with h | h <;> simp_all
  | foreign q rest hp hd hm' hfd _ _ => rw [hm] at hm'; cases hm'
  | operations q rest n s2 hp hd hm' hn ha h hs' _ => rw [hm] at hm'; cases hm'
  | service q rest s2 hp hd hm' h hs' =>
    have hfr := front_eq.mpr ⟨hp, rest, hd⟩
    rw [hf] at hfr; cases hfr
    cases (service_cases e _ s2 p ret h).1 with
    | ignored h1 _ =>
      exfalso
      rcases h1 with ⟨r, rfl⟩ | ⟨c, r, rfl, -, -, h1⟩
      · cases hb; simp at h7
      · exact h1 hl
    | leave c r hc' _ hn _ =>
      rw [hc'] at hb; cases hb
      exact absurd ((nibble7 _).mpr h7) hn
    | register _ _ _ _ hl' _ => omega
    | direct c r _ _ _ h =>
      obtain ⟨h1, h2⟩ := (cvLong_exec e _ _ p p).out _ h
      rw [hs']
      refine ⟨h2.trans f.mode, h1.link.trans f.link, ?_, h1.store.trans f.stored⟩
      simp [Rx.popFront, h1.deque, f.deque]

theorem count_snoc (e : Env) (ops : List RxOp) (s : Rx) (h : ({} : Rx).run e ops = .ok s) (p : Packet)
    (hp : p ≠ []) : (countPacket s.cvCount p).2 = repeats (cvHistory e {} ops ++ [p]) := by
  have hne : ∀ q ∈ cvHistory e {} ops ++ [p], q ≠ [] := by
    intro q hq
    rw [List.mem_append] at hq
    rcases hq with hq | hq
    · exact cvHistory_ne_nil e ops {} q hq
    · simp at hq; rw [hq]; exact hp
  have := fold_count _ hne
  rw [List.foldl_append, fold_count _ (cvHistory_ne_nil e ops {}), ← count_of_history e ops s h] at this
  simp only [List.foldl_cons, List.foldl_nil] at this
  rw [this]

theorem Reachable.lengths {e : Env} {s : Rx} (hr : Reachable e s) : ∀ p ∈ s.deque, 2 ≤ p.length :=
  fun p hp => Nat.le_of_succ_le (hr.recvInv.valid p hp).1.min

theorem Reachable.of_run {e : Env} {s : Rx} {ops : List RxOp} (h : ({} : Rx).run e ops = .ok s) :
    Reachable e s := Reachable.run .start ops h

end Dcc
