import Verif.Lemmas.RxCvCalls
/-! The count of identical CV packets. -/
namespace Dcc
open Spec

/-- What a packet does to the last packet and the count. -/
def countPacket (c : Packet × Nat) (p : Packet) : Packet × Nat :=
  if c.1 = p then (c.1, c.2 + 1) else (p, 1)

/-- The last CV packet and the count. -/
def Rx.cvCount (s : Rx) : Packet × Nat := (s.lastOwnCvPacket, s.ownEqualCvPackets)

theorem count_cvCount (s : Rx) (p : Packet) :
    (s.countOwnEqualCvPackets p).cvCount = countPacket s.cvCount p := by
  unfold Rx.countOwnEqualCvPackets countPacket Rx.cvCount
  dsimp only
  split <;> rfl

theorem CvFrame.cvCount {s s' : Rx} (h : CvFrame s s') : s'.cvCount = s.cvCount := by
  unfold Rx.cvCount; rw [h.last, h.count]

theorem cvLong_count (e : Env) (s : Rx) (addr : BitVec 16) (p : Packet) (bs : List Byte) :
    Post (s.cvLong e addr p bs) (fun s' => s'.cvCount =
      if addr ≠ 0#16 ∧ addr = s.addrs.consist.value then s.cvCount else countPacket s.cvCount p) := by
  unfold Rx.cvLong
  split
  · exact Post.ok rfl
  dsimp only
  split
  · exact Post.ok (count_cvCount s p)
  · exact (cv_longBody ..).mono fun s' h => h.cvCount.trans (count_cvCount s p)

theorem cvShort_count (e : Env) (s : Rx) (addr : BitVec 16) (p : Packet) (bs : List Byte) :
    Post (s.cvShort e addr p bs) (fun s' => s'.cvCount =
      if addr ≠ 0#16 ∧ addr = s.addrs.consist.value then s.cvCount else countPacket s.cvCount p) := by
  unfold Rx.cvShort
  split
  · exact Post.ok rfl
  · exact (cv_shortBody ..).mono fun s' h => h.cvCount.trans (count_cvCount s p)

theorem decode_cv (b : Byte) : (decodeInstructionByte b = .cvLong ↔ 224 ≤ b.toNat ∧ b.toNat < 240) ∧
    (decodeInstructionByte b = .cvShort ↔ 240 ≤ b.toNat) := by revert b; decide +kernel

theorem prepared_cvCount (e : Env) (s : Rx) (now : Int) : (s.prepared e now).cvCount = s.cvCount := by
  have f := (prepare_total e s now).2
  unfold Rx.cvCount; rw [f.lastOwnCvPacket, f.ownEqualCvPackets]

theorem cvRequest_operations (s : Rx) (p : Packet) (n : Nat) (b : Byte) (hm : s.serviceMode = false)
    (hn : locoNumber p = some n) (hf : n = 0 ∨ Active s n) (hb : (afterAddress p).head? = some b) :
    cvRequest s p = (!decide (target s n ≠ 0#16 ∧ target s n = s.addrs.consist.value) &&
      decide (224 ≤ b.toNat)) := by
  unfold cvRequest
  rw [hm, hn, hb]
  have : (decide (n = 0) || decide (Active s n)) = true := by simpa using hf
  simp only [Bool.false_eq_true, if_false, this, Bool.true_and, Option.any_some, Bool.decide_and]

theorem execute_count (e : Env) (s s' : Rx) (now : Int) (rand : Nat) (ret : Bool)
    (hv : ∀ p ∈ s.deque, 2 ≤ p.length) (h : s.execute e now rand = .ok (s', ret)) :
    s'.cvCount = ((front s).toList.filter (cvRequest s)).foldl countPacket s.cvCount := by
  cases exec_cases e s s' now rand ret hv h with
  | idle h hs _ =>
    have : front s = none := by
      unfold front
      rcases h with h | h <;> simp [h]
    rw [this, hs]; rfl
  | foreign p rest hp hd hm hf hs _ =>
    have hfr : front s = some p := front_eq.mpr ⟨hp, rest, hd⟩
    have : cvRequest s p = false := by
      unfold cvRequest
      rw [hm]
      simp only [Bool.false_eq_true, if_false]
      split
      · rfl
      · rename_i n hn
        have : ¬ (n = 0 ∨ Active s n) := fun h => hf ⟨n, hn, h⟩
        have : (decide (n = 0) || decide (Active s n)) = false := by simpa using this
        rw [this]; rfl
    rw [hfr, hs]
    simp only [Option.toList_some, List.filter_cons, this]
    exact prepared_cvCount e s now
  | operations p rest n s2 hp hd hm hn hf h hs _ =>
    have hfr : front s = some p := front_eq.mpr ⟨hp, rest, hd⟩
    obtain ⟨b, hb, hc⟩ := instruction_cases e _ s2 _ p _ rand h
    have hq := cvRequest_operations s p n b hm hn hf hb
    have hs' : s'.cvCount = s2.cvCount := by rw [hs]; rfl
    have hp := prepared_cvCount e s now
    have hcon : (s.prepared e now).addrs.consist = s.addrs.consist := by
      rw [(prepare_total e s now).2.addrs]
    rw [hs', hfr]
    simp only [Option.toList_some]
    obtain ⟨d1, d2⟩ := decode_cv b
    have other : decodeInstructionByte b ≠ .cvLong → decodeInstructionByte b ≠ .cvShort →
        s2.cvCount = s.cvCount → s2.cvCount = (List.filter (cvRequest s) [p]).foldl countPacket s.cvCount := by
      intro h1 h2 h3
      have : ¬ 224 ≤ b.toNat := by
        intro h; rw [Ne, d1] at h1; rw [Ne, d2] at h2; omega
      rw [h3]
      simp [hq, this]
    have cv : 224 ≤ b.toNat → s2.cvCount = (if target s n ≠ 0#16 ∧ target s n = s.addrs.consist.value
        then s.cvCount else countPacket s.cvCount p) →
        s2.cvCount = (List.filter (cvRequest s) [p]).foldl countPacket s.cvCount := by
      intro h1 h2
      rw [h2]
      by_cases hc : target s n ≠ 0#16 ∧ target s n = s.addrs.consist.value
      · rw [if_pos hc, List.filter_cons, hq, decide_eq_true hc]; rfl
      · rw [if_neg hc, List.filter_cons, hq, decide_eq_false hc, decide_eq_true h1]; rfl
    cases hc with
    | enter ha hb h => exact other (by rw [hb]; decide) (by rw [hb]; decide) (by rw [h]; exact hp)
    | control hd hb h => exact other (by rw [hd]; decide) (by rw [hd]; decide) (by rw [h]; exact hp)
    | consist hd h =>
      exact other (by rw [hd]; decide) (by rw [hd]; decide)
        (((instr_consist e _ _).out _ h).cvCount.trans hp)
    | drives hd h =>
      obtain ⟨evs, m, rfl, -⟩ := h
      refine other ?_ ?_ hp
      · rcases hd with h | h | h | h | h <;> rw [h] <;> decide
      · rcases hd with h | h | h | h | h <;> rw [h] <;> decide
    | searches hd _ _ h =>
      obtain ⟨b, q, rfl⟩ := h
      exact other (by rw [hd]; decide) (by rw [hd]; decide) hp
    | cvLong hd h =>
      have := (cvLong_count e _ _ p _).out _ h
      rw [hcon, hp] at this
      exact cv (d1.mp hd).1 this
    | cvShort hd h =>
      have := (cvShort_count e _ _ p _).out _ h
      rw [hcon, hp] at this
      exact cv (by have := d2.mp hd; omega) this
  | service p rest s2 hp hd hm h hs =>
    have hfr : front s = some p := front_eq.mpr ⟨hp, rest, hd⟩
    have hs' : s'.cvCount = s2.cvCount := by rw [hs]; rfl
    have hp := prepared_cvCount e s now
    rw [hs', hfr]
    simp only [Option.toList_some]
    have hq : cvRequest s p = (decide (p.length = 4) &&
        p.head?.any (fun b => 112 ≤ b.toNat && b.toNat ≤ 127)) := by
      unfold cvRequest; rw [hm, if_pos rfl]
    have other : cvRequest s p = false → s2.cvCount = s.cvCount →
        s2.cvCount = (List.filter (cvRequest s) [p]).foldl countPacket s.cvCount := by
      intro h1 h2
      rw [h2]; simp [h1]
    cases (service_cases e _ s2 p ret h).1 with
    | ignored h1 hs =>
      refine other ?_ (by rw [hs, hp])
      rw [hq]
      rcases h1 with ⟨rest, rfl⟩ | ⟨b, rest, rfl, -, -, h1⟩
      · simp
      · rw [decide_eq_false h1]; rfl
    | leave b rest hb h0 h7 hs =>
      refine other ?_ (by rw [hs]; exact hp)
      rw [Ne, nibble7] at h7
      rw [hq, hb]
      simp only [List.head?_cons, Option.any_some, Bool.and_eq_false_iff, decide_eq_false_iff_not]
      omega
    | register b rest hb h7 hl h =>
      refine other (by rw [hq]; simp [hl]) ?_
      rcases (cv_registerMode e _ p).out _ h with h | ⟨b, h⟩
      · exact h.cvCount.trans hp
      · rw [h]; exact hp
    | direct b rest hb h7 hl h =>
      have hc := (cvLong_count e _ _ p _).out _ h
      rw [if_neg (by simp), hp] at hc
      rw [hc]
      rw [nibble7] at h7
      have : cvRequest s p = true := by
        rw [hq, decide_eq_true hl, hb]
        simp [h7]
      simp [this]

theorem step_count (e : Env) (s s' : Rx) (op : RxOp) (hr : Reachable e s)
    (h : s.step e op = .ok s') : s'.cvCount =
      (if op.isExecute then (front s).toList.filter (cvRequest s) else []).foldl countPacket s.cvCount := by
  cases op with
  | init => exact ((cv_init e s).out _ h).cvCount
  | enable =>
    simp only [Rx.step, Rx.enable, Except.ok.injEq] at h
    subst h
    split <;> rfl
  | disable =>
    simp only [Rx.step, Rx.disable, Except.ok.injEq] at h
    subst h
    split <;> rfl
  | receive t r =>
    have f := (receive_frame e s hr.recvInv.room t r).out _ h
    show s'.cvCount = s.cvCount
    unfold Rx.cvCount; rw [f.lastOwnCvPacket, f.ownEqualCvPackets]
  | execute now rand =>
    simp only [Rx.step, bind_eq_ok] at h
    obtain ⟨⟨s2, r⟩, h1, h2⟩ := h
    cases h2
    exact execute_count e s s2 now rand r (fun p hp => by
      have := (hr.recvInv.valid p hp).1.min; omega) h1
  | datagram ds =>
    obtain ⟨q, b, rfl⟩ := datagram_eq e s s' ds h
    rfl
  | biDiChannel1 =>
    simp only [Rx.step, Except.ok.injEq] at h
    obtain ⟨q, evs, h1, h2⟩ := channel1_adds s
    rw [← h, h1]; rfl
  | biDiChannel2 =>
    obtain ⟨q, evs, rfl, h2⟩ := (channel2_adds s).out _ h
    rfl
  | callbackByte i v =>
    simp only [Rx.step] at h
    split at h
    · rw [callbackByte_eq] at h
      cases h
      exact (CvFrame.answerByte ..).cvCount
    · cases h; rfl
  | callbackBit i v =>
    simp only [Rx.step] at h
    split at h
    · rw [callbackBit_eq] at h
      cases h
      exact (CvFrame.answerBit ..).cvCount
    · cases h; rfl

theorem run_count (e : Env) (ops : List RxOp) : ∀ (s s' : Rx), Reachable e s → s.run e ops = .ok s' →
    s'.cvCount = (cvHistory e s ops).foldl countPacket s.cvCount := by
  induction ops with
  | nil => intro s s' _ h; cases h; rfl
  | cons op ops ih =>
    intro s s' hr h
    simp only [Rx.run, bind_eq_ok] at h
    obtain ⟨s1, h1, h2⟩ := h
    rw [ih s1 s' (.step op hr h1) h2, step_count e s s1 op hr h1]
    simp only [cvHistory, h1, List.foldl_append]

theorem repeats_snoc (h : List Packet) (p : Packet) :
    repeats (h ++ [p]) = if h.getLast? = some p then repeats h + 1 else 1 := by
  unfold repeats
  rw [List.reverse_append]
  simp only [List.reverse_cons, List.reverse_nil, List.nil_append, List.singleton_append]
  rw [← List.head?_reverse]
  cases h.reverse with
  | nil => simp
  | cons q r =>
    simp only [List.head?_cons, Option.some.injEq]
    by_cases hq : q = p
    · subst hq; simp; omega
    · simp [hq]

theorem fold_count (h : List Packet) (hne : ∀ p ∈ h, p ≠ []) :
    h.foldl countPacket ([], 0) = (h.getLast?.getD [], repeats h) := by
  rw [← List.reverse_reverse h]
  generalize hg : h.reverse = g
  have hne : ∀ p ∈ g, p ≠ [] := fun p hp => hne p (by rw [← List.mem_reverse, hg]; exact hp)
  clear hg
  induction g with
  | nil => rfl
  | cons p g ih =>
    have ih := ih fun p hp => hne p (List.mem_cons_of_mem _ hp)
    rw [List.reverse_cons, List.foldl_append, ih]
    simp only [List.foldl_cons, List.foldl_nil, countPacket, repeats_snoc]
    have hp := hne p (by simp)
    cases hg : g.reverse.getLast? with
    | none => simp [Ne.symm hp]
    | some q =>
      by_cases hq : q = p
      · subst hq; simp
      · simp [hq]

theorem cvRequest_ne_nil {s : Rx} {p : Packet} (h : cvRequest s p = true) : p ≠ [] := by
  rintro rfl
  unfold cvRequest at h
  cases s.serviceMode <;> simp [locoNumber] at h

theorem cvHistory_ne_nil (e : Env) (ops : List RxOp) : ∀ s, ∀ p ∈ cvHistory e s ops, p ≠ [] := by
  induction ops with
  | nil => intro s p hp; cases hp
  | cons op ops ih =>
    intro s p hp
    unfold cvHistory at hp
    split at hp
    · cases hp
    · rw [List.mem_append] at hp
      rcases hp with hp | hp
      · split at hp
        · rw [List.mem_filter] at hp
          exact cvRequest_ne_nil hp.2
        · cases hp
      · exact ih _ p hp

/-- The count a decoder keeps is the number of identical packets at the end of the history. -/
theorem count_of_history (e : Env) (ops : List RxOp) (s : Rx) (h : ({} : Rx).run e ops = .ok s) :
    s.cvCount = ((cvHistory e {} ops).getLast?.getD [], repeats (cvHistory e {} ops)) := by
  rw [run_count e ops {} s .start h]
  exact fold_count _ (cvHistory_ne_nil e ops {})

theorem cvHistory_snoc (e : Env) (op : RxOp) (ops : List RxOp) : ∀ (s s1 s2 : Rx),
    s.run e ops = .ok s1 → s1.step e op = .ok s2 →
    cvHistory e s (ops ++ [op]) = cvHistory e s ops ++
      (if op.isExecute then (front s1).toList.filter (cvRequest s1) else []) := by
  induction ops with
  | nil => intro s s1 s2 h h2; cases h; simp [cvHistory, h2]
  | cons o ops ih =>
    intro s s1 s2 h h2
    simp only [Rx.run, bind_eq_ok] at h
    obtain ⟨s0, h0, h1⟩ := h
    simp only [List.cons_append, cvHistory, h0, List.append_assoc]
    rw [ih s0 s1 s2 h1 h2]

end Dcc
