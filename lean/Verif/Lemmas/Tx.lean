import Verif.Spec.Tx
/-! Helper lemmas about the transmitter. -/
namespace Dcc

/-! ### Timings -/

theorem and_bit (b : Byte) (i : Nat) (h : i < 8) : (b &&& (1#8 <<< i) ≠ 0#8) ↔ b.getLsbD i = true := by
  have key : ∀ b : Byte, ∀ i : Fin 8, (b &&& (1#8 <<< i.val) ≠ 0#8) ↔ b.getLsbD i.val = true := by
    decide +kernel
  exact key b ⟨i, h⟩

theorem bitLoop_eq (cfg : TxConfig) (b : Byte) : bitLoop cfg b 8 = Spec.wave cfg (Spec.byteBits b) := by
  simp only [bitLoop, Spec.wave, Spec.byteBits, List.flatMap_cons, List.flatMap_nil, and_bit, Nat.reduceLT]
  repeat (congr 1; · split <;> rfl)

theorem wave_append (cfg : TxConfig) (a b : List Bool) :
    Spec.wave cfg (a ++ b) = Spec.wave cfg a ++ Spec.wave cfg b := by simp [Spec.wave]

theorem byteLoop_eq (cfg : TxConfig) (bs : List Byte) :
    byteLoop cfg bs = Spec.wave cfg (bs.flatMap (fun b => false :: Spec.byteBits b)) := by
  induction bs with
  | nil => rfl
  | cons b bs ih =>
    rw [byteLoop, List.flatMap_cons, wave_append, ih, bitLoop_eq]
    simp [Spec.wave, List.replicate]

theorem wave_ones (cfg : TxConfig) (k : Nat) :
    Spec.wave cfg (List.replicate k true) = List.replicate (k * 2) cfg.bit1.toNat := by
  induction k with
  | zero => rfl
  | succ k ih =>
    rw [List.replicate_succ, show (k + 1) * 2 = (k * 2 + 1) + 1 by omega, List.replicate_succ,
      List.replicate_succ, ← ih]
    simp [Spec.wave]

theorem timingsOf_eq (cfg : TxConfig) (bs : List Byte) : timingsOf cfg bs = Spec.packetWave cfg bs := by
  rw [timingsOf, Spec.packetWave, Spec.frameBits, wave_append, wave_append, wave_ones, byteLoop_eq]
  rfl

theorem wave_length (cfg : TxConfig) (bits : List Bool) : (Spec.wave cfg bits).length = 2 * bits.length := by
  induction bits with
  | nil => rfl
  | cons b bits ih =>
    have : Spec.wave cfg (b :: bits) = Spec.wave cfg [b] ++ Spec.wave cfg bits := wave_append cfg [b] bits
    rw [this, List.length_append, ih]
    cases b <;> simp [Spec.wave] <;> omega

theorem flatMap_bits_length (bs : List Byte) :
    (bs.flatMap (fun b => false :: Spec.byteBits b)).length = 9 * bs.length := by
  induction bs with
  | nil => rfl
  | cons b bs ih =>
    rw [List.flatMap_cons, List.length_append, ih]; simp [Spec.byteBits]; omega

theorem frameBits_length (p : Nat) (bs : List Byte) :
    (Spec.frameBits p bs).length = p + 9 * bs.length + 1 := by
  simp only [Spec.frameBits, List.length_append, List.length_replicate, flatMap_bits_length,
    List.length_cons, List.length_nil]

theorem packetWave_length (cfg : TxConfig) (bs : List Byte) :
    (Spec.packetWave cfg bs).length = 2 * (cfg.numPreamble.toNat + 9 * bs.length + 1) := by
  rw [Spec.packetWave, wave_length, frameBits_length]

theorem packetWave_pos (cfg : TxConfig) (bs : List Byte) : 0 < (Spec.packetWave cfg bs).length := by
  rw [packetWave_length]; omega

theorem bytes2timings_ok (bs : List Byte) (cfg : TxConfig) (h : bs.length ≤ maxPacketSize) :
    bytes2timings bs cfg = .ok (Spec.packetWave cfg bs) := by
  rw [bytes2timings, timingsOf_eq, if_pos]
  rw [packetWave_length, timingsCapacity]
  have := cfg.numPreamble.isLt
  simp only [maxPacketSize] at *
  omega

theorem idle_eq : idleTimings = Spec.idleWave := timingsOf_eq _ _

theorem wave_mem (cfg : TxConfig) (bits : List Bool) : ∀ d ∈ Spec.wave cfg bits,
    d = cfg.bit1.toNat ∨ d = cfg.bit0.toNat := by
  intro d hd
  simp only [Spec.wave, List.mem_flatMap] at hd
  obtain ⟨b, _, hd⟩ := hd
  cases b <;> simp at hd <;> simp [hd]

/-! ### Ring -/

theorem mod_lt_two (x m : Nat) (h : x < 2 * m) : x % m = if x < m then x else x - m := by
  split
  · exact Nat.mod_eq_of_lt ‹_›
  · rw [Nat.mod_eq_sub_mod (by omega), Nat.mod_eq_of_lt (by omega)]

namespace Tx

/-- The queued packets, oldest first. -/
def queue (n : Nat) (s : Tx) : List (List Nat) :=
  (List.range (s.size n)).map fun k => s.slots ((s.first + k) % (n + 1))

/-- Ring invariant: indices in range, and the slot being sent is the one in front of `first`. -/
structure RingOk (n : Nat) (s : Tx) : Prop where
  first_le : s.first ≤ n
  last_le : s.last ≤ n
  packet_eq : ∀ i, s.packet = some i → i ≤ n ∧ (i + 1) % (n + 1) = s.first

theorem size_le (n : Nat) (s : Tx) : s.size n ≤ n := by
  have := Nat.mod_lt (s.last + (n + 1) - s.first) (show 0 < n + 1 by omega)
  simp only [size]; omega

theorem queue_length (n : Nat) (s : Tx) : (s.queue n).length = s.size n := by simp [queue]

theorem size_val {n : Nat} {s : Tx} (h : RingOk n s) :
    s.size n = if s.first ≤ s.last then s.last - s.first else s.last + (n + 1) - s.first := by
  have h1 := h.first_le; have h2 := h.last_le
  rw [size, mod_lt_two _ _ (by omega)]
  split <;> split <;> omega

theorem empty_iff {n : Nat} {s : Tx} (h : RingOk n s) : s.empty = true ↔ s.queue n = [] := by
  have h1 := h.first_le; have h2 := h.last_le
  rw [← List.length_eq_zero_iff, queue_length, size_val h, empty, beq_iff_eq]
  split <;> omega

theorem pushBack_ok {n : Nat} {s : Tx} (h : RingOk n s) (hf : s.full n = false) (t : List Nat) :
    RingOk n (s.pushBack n t) ∧ (s.pushBack n t).queue n = s.queue n ++ [t] ∧
    (s.pushBack n t).current = s.current := by
  have h1 := h.first_le; have h2 := h.last_le
  have hlt : s.size n < n := by
    have := size_le n s
    simp only [full, beq_eq_false_iff_ne] at hf
    omega
  have hl : (s.last + 1) % (n + 1) = if s.last + 1 < n + 1 then s.last + 1 else s.last + 1 - (n + 1) :=
    mod_lt_two _ _ (by omega)
  have hr : RingOk n (s.pushBack n t) := by
    refine ⟨h1, ?_, h.packet_eq⟩
    simp only [pushBack]; rw [hl]; split <;> omega
  have hsz : (s.pushBack n t).size n = s.size n + 1 := by
    have e := size_val h
    rw [size_val hr]
    simp only [pushBack, hl]
    split at e <;> split <;> split <;> omega
  refine ⟨hr, ?_, ?_⟩
  · rw [queue, hsz, List.range_succ, List.map_append, queue]
    have e := size_val h
    congr 1
    · apply List.map_congr_left
      intro k hk
      have hk := List.mem_range.mp hk
      simp only [pushBack]
      rw [if_neg]
      rw [mod_lt_two _ _ (by omega)]
      split at e <;> split <;> omega
    · simp only [List.map_cons, List.map_nil, pushBack]
      rw [if_pos]
      rw [mod_lt_two _ _ (by omega)]
      split at e <;> split <;> omega
  · simp only [current, pushBack]
    cases hp : s.packet with
    | none => rfl
    | some i =>
      obtain ⟨hi, he⟩ := h.packet_eq i hp
      simp only
      rw [if_neg]
      rw [mod_lt_two _ _ (by omega)] at he
      have e := size_val h
      split at e <;> split at he <;> omega

theorem popFront_ok {n : Nat} {s : Tx} (h : RingOk n s) (t : List Nat) (q : List (List Nat))
    (hq : s.queue n = t :: q) (s' : Tx)
    (hs' : s' = { ({ s with packet := some s.first } : Tx).popFront n with packetCount := 0, bidiCount := 0 }) :
    RingOk n s' ∧ s'.queue n = q ∧ s'.current = t := by
  have h1 := h.first_le; have h2 := h.last_le
  have hsz : s.size n = q.length + 1 := by rw [← queue_length, hq]; rfl
  have hl : (s.first + 1) % (n + 1) = if s.first + 1 < n + 1 then s.first + 1 else s.first + 1 - (n + 1) :=
    mod_lt_two _ _ (by omega)
  have hr : RingOk n s' := by
    subst hs'
    refine ⟨?_, h2, ?_⟩
    · simp only [popFront]; rw [hl]; split <;> omega
    · intro i hi
      simp only [popFront, Option.some.injEq] at hi
      subst hi
      exact ⟨h1, rfl⟩
  have hsz' : s'.size n = q.length := by
    have e := size_val h
    have e' := size_val hr
    rw [e']
    subst hs'
    simp only [popFront, hl]
    split at e <;> split <;> split <;> omega
  rw [queue, hsz, List.range_succ_eq_map, List.map_cons] at hq
  obtain ⟨ht, hq⟩ := List.cons.inj hq
  refine ⟨hr, ?_, ?_⟩
  · rw [queue, hsz']
    refine Eq.trans ?_ hq
    rw [List.map_map]
    apply List.map_congr_left
    intro k hk
    have hk := List.mem_range.mp hk
    subst hs'
    simp only [popFront, Function.comp]
    congr 1
    rw [hl]
    have := size_le n s
    rw [mod_lt_two (s.first + k.succ) _ (by omega)]
    split
    · rw [mod_lt_two _ _ (by omega)]; split <;> split <;> omega
    · rw [mod_lt_two _ _ (by omega)]; split <;> split <;> omega
  · subst hs'
    simp only [current, popFront]
    rw [← ht, Nat.add_zero, Nat.mod_eq_of_lt (by omega)]

end Tx

/-! ### History invariant -/

/-- Everything transmitted so far is a sequence of finished segments and a current one; their queued
packets followed by the queue are the accepted packets. -/
structure TxInv (n : Nat) (P : TxConfig → Prop) (h : TxHist) (done : List Spec.Segment)
    (cur : Spec.Segment) : Prop where
  ring : Tx.RingOk n h.s
  cfg : P h.s.cfg
  acc_ok : ∀ a ∈ h.acc, P a.1 ∧ a.2.length ≤ maxPacketSize
  out_eq : h.out = (done ++ [cur]).flatMap Spec.Segment.outs
  done_ok : ∀ g ∈ done, g.Ok P ∧ g.Complete P
  cur_ok : cur.Ok P
  acc_eq : h.acc.map (fun a => Spec.packetWave a.1 a.2) =
    (done ++ [cur]).filterMap Spec.Segment.frame ++ h.s.queue n
  cur_wave : cur.wave = h.s.current
  cur_pos : 0 < cur.wave.length
  cur_halves : cur.halves.length = h.s.packetCount
  cur_cut : cur.cut.length = h.s.bidiCount

theorem accepted_iff (c : TxConfig) : c.accepted = true ↔ Spec.ValidConfig c := by
  simp only [TxConfig.accepted, Spec.ValidConfig, Bool.and_eq_true, decide_eq_true_eq, BitVec.le_def,
    BitVec.toNat_ofNat, Nat.reducePow, Nat.reduceMod, and_assoc]

theorem packetTiming_eq (s : Tx) (d : Nat) (h : s.current[s.packetCount]? = some d) :
    s.packetTiming = .ok ({ s with packetCount := s.packetCount + 1 },
      Spec.halfOut s.cfg s.packetCount d) := by
  simp only [Tx.packetTiming, h, Spec.halfOut]
  congr 2
  split <;> simp

theorem bidiTiming_eq (s : Tx) (h : s.bidiCount ≤ 4) :
    ∃ o, s.bidiTiming = ({ s with bidiCount := s.bidiCount + 1 }, o) ∧
      (Spec.cutOut s.cfg)[s.bidiCount]? = some o := by
  have : s.bidiCount = 0 ∨ s.bidiCount = 1 ∨ s.bidiCount = 2 ∨ s.bidiCount = 3 ∨ s.bidiCount = 4 := by
    omega
  rcases this with h | h | h | h | h <;> simp [Tx.bidiTiming, Spec.cutOut, h, bidiTCS, bidiTTS1, bidiTTS2, bidiTTC2, bidiTCE]

theorem TxInv.idle_pos : 0 < Spec.idleWave.length := packetWave_pos _ _

theorem getElem?_snoc {α} (l : List α) (x y : α) (i : Nat) (h : (l ++ [x])[i]? = some y) :
    l[i]? = some y ∨ (i = l.length ∧ y = x) := by
  rw [List.getElem?_append] at h
  split at h
  · exact .inl h
  · rcases Nat.lt_or_ge (i - l.length) 1 with h1 | h1
    · have : i - l.length = 0 := by omega
      rw [this] at h
      simp at h
      exact .inr ⟨by omega, h.symm⟩
    · rw [List.getElem?_eq_none (by simpa using h1)] at h
      cases h

theorem TxInv.initial (n : Nat) (P : TxConfig → Prop) (cfg : TxConfig) (hP : P cfg) :
    TxInv n P { s := { cfg := cfg } } [] ⟨none, [], []⟩ where
  ring := ⟨by simp, by simp, by simp⟩
  cfg := hP
  acc_ok := by simp
  out_eq := by simp [Spec.Segment.outs]
  done_ok := by simp
  cur_ok := ⟨by simp, by simp, by simp, by simp, by simp⟩
  acc_eq := by simp [Tx.queue, Tx.size]
  cur_wave := by rw [Tx.current]; exact idle_eq.symm
  cur_pos := TxInv.idle_pos
  cur_halves := rfl
  cur_cut := rfl

theorem TxInv.bytes {n P h done cur} (i : TxInv n P h done cur) (bs : List Byte) (h' : TxHist)
    (hs : h.step n (.bytes bs) = .ok h') : TxInv n P h' done cur := by
  simp only [TxHist.step] at hs
  rw [bind_eq_ok] at hs
  obtain ⟨s', hb, hs⟩ := hs
  simp only [pure_eq_ok, Except.ok.injEq] at hs
  subst hs
  rw [Tx.bytes] at hb
  by_cases hf : h.s.full n = true
  · rw [if_pos hf] at hb
    cases hb
    simp only [hf, if_true]
    exact i
  · rw [if_neg hf] at hb
    split at hb
    · rename_i hlen
      rw [bytes2timings_ok _ _ hlen] at hb
      simp only [ok_bind, pure_eq_ok, Except.ok.injEq] at hb
      subst hb
      have hf : h.s.full n = false := by simpa using hf
      obtain ⟨p1, p2, p3⟩ := Tx.pushBack_ok i.ring hf (Spec.packetWave h.s.cfg bs)
      simp only [hf, Bool.false_eq_true, if_false]
      exact {
        ring := p1
        cfg := i.cfg
        acc_ok := by
          intro a ha
          rcases List.mem_append.mp ha with ha | ha
          · exact i.acc_ok a ha
          · simp only [List.mem_singleton] at ha
            subst ha
            exact ⟨i.cfg, hlen⟩
        out_eq := i.out_eq
        done_ok := i.done_ok
        cur_ok := i.cur_ok
        acc_eq := by
          simp only [List.map_append, List.map_cons, List.map_nil]
          rw [i.acc_eq, p2, List.append_assoc]
        cur_wave := by simp only; rw [p3]; exact i.cur_wave
        cur_pos := i.cur_pos
        cur_halves := i.cur_halves
        cur_cut := i.cur_cut }
    · cases hb

theorem TxInv.init {n P h done cur} (i : TxInv n P h done cur) (cfg : TxConfig) (hP : P cfg)
    (h' : TxHist) (hs : h.step n (.init cfg) = .ok h') : TxInv n P h' done cur := by
  simp only [TxHist.step] at hs
  rw [bind_eq_ok] at hs
  obtain ⟨s', hb, hs⟩ := hs
  simp only [pure_eq_ok, Except.ok.injEq] at hs
  subst hs
  rw [Tx.init] at hb
  split at hb
  · cases hb
    exact { i with cfg := hP, ring := ⟨i.ring.1, i.ring.2, i.ring.3⟩ }
  · cases hb

/-- A new segment and its first half bit. -/
theorem newSegment_ok {P : TxConfig → Prop} (c : TxConfig) (hc : P c) (f : Option (List Nat)) (d : Nat)
    (hd : (f.getD Spec.idleWave)[0]? = some d) :
    (⟨f, [Spec.halfOut c 0 d], []⟩ : Spec.Segment).Ok P := by
  have h0 : 0 < (f.getD Spec.idleWave).length := by
    rcases Nat.eq_zero_or_pos (f.getD Spec.idleWave).length with h | h
    · rw [List.length_eq_zero_iff.mp h] at hd; cases hd
    · exact h
  refine ⟨h0, ?_, by simp, by simp, by simp⟩
  intro i o hi
  rcases i with _ | i
  · simp at hi; exact ⟨c, d, hc, hd, hi.symm⟩
  · simp at hi

theorem TxInv.transmit {n P h done cur} (i : TxInv n P h done cur) :
    ∃ h' done' cur', h.step n .transmit = .ok h' ∧ TxInv n P h' done' cur' ∧
      ((done' = done ∧ cur'.frame = cur.frame ∧ h'.s.queue n = h.s.queue n) ∨
       (cur.Complete P ∧ done' = done ++ [cur] ∧ cur'.frame = (h.s.queue n).head? ∧
          h'.s.queue n = (h.s.queue n).tail)) := by
  by_cases h1 : h.s.packetCount < h.s.current.length
  · -- half bit
    obtain ⟨d, hd⟩ : ∃ d, h.s.current[h.s.packetCount]? = some d := ⟨_, List.getElem?_eq_getElem h1⟩
    have hstep : h.s.transmit n = .ok ({ h.s with packetCount := h.s.packetCount + 1 },
        Spec.halfOut h.s.cfg h.s.packetCount d) := by
      rw [Tx.transmit, if_pos h1, packetTiming_eq _ d hd]
    refine ⟨_, done, ⟨cur.frame, cur.halves ++ [Spec.halfOut h.s.cfg h.s.packetCount d], cur.cut⟩,
      by rw [TxHist.step, hstep]; rfl, ?_, .inl ⟨rfl, rfl, by rfl⟩⟩
    have hcut : cur.cut = [] := by
      rcases Decidable.em (cur.cut = []) with h | h
      · exact h
      · have := i.cur_ok.cut_after h
        rw [i.cur_halves, i.cur_wave] at this
        omega
    exact {
      ring := ⟨i.ring.1, i.ring.2, i.ring.3⟩
      cfg := i.cfg
      acc_ok := i.acc_ok
      out_eq := by
        simp only [i.out_eq, List.flatMap_append, List.flatMap_cons, List.flatMap_nil,
          Spec.Segment.outs, hcut, List.append_nil, List.append_assoc]
      done_ok := i.done_ok
      cur_ok := {
        halves_le := by
          simp only [List.length_append, List.length_cons, List.length_nil, i.cur_halves]
          show _ ≤ cur.wave.length
          rw [i.cur_wave]; omega
        halves_eq := by
          intro j o hj
          rcases getElem?_snoc _ _ _ _ hj with hj | ⟨hj, ho⟩
          · exact i.cur_ok.halves_eq j o hj
          · refine ⟨h.s.cfg, d, i.cfg, ?_, ?_⟩
            · show cur.wave[j]? = _
              rw [hj, i.cur_halves, i.cur_wave, hd]
            · rw [ho, hj, i.cur_halves]
        cut_le := i.cur_ok.cut_le
        cut_after := by intro hc; exact absurd hcut hc
        cut_eq := i.cur_ok.cut_eq }
      acc_eq := by
        simp only [List.filterMap_append, List.filterMap_cons, List.filterMap_nil]
        have := i.acc_eq
        simp only [List.filterMap_append, List.filterMap_cons, List.filterMap_nil] at this
        exact this
      cur_wave := i.cur_wave
      cur_pos := i.cur_pos
      cur_halves := by simp [i.cur_halves]
      cur_cut := i.cur_cut }
  · have hall : cur.halves.length = cur.wave.length := by
      have := i.cur_ok.halves_le
      rw [i.cur_halves, i.cur_wave] at *
      omega
    by_cases h2 : h.s.cfg.bidi = true ∧ h.s.bidiCount ≤ 4
    · -- cutout phase
      obtain ⟨o, ho, hcut⟩ := bidiTiming_eq h.s h2.2
      have hstep : h.s.transmit n = .ok ({ h.s with bidiCount := h.s.bidiCount + 1 }, o) := by
        rw [Tx.transmit, if_neg h1, if_pos h2, ho]
      refine ⟨_, done, ⟨cur.frame, cur.halves, cur.cut ++ [o]⟩,
        by rw [TxHist.step, hstep]; rfl, ?_, .inl ⟨rfl, rfl, by rfl⟩⟩
      exact {
        ring := ⟨i.ring.1, i.ring.2, i.ring.3⟩
        cfg := i.cfg
        acc_ok := i.acc_ok
        out_eq := by
          simp only [i.out_eq, List.flatMap_append, List.flatMap_cons, List.flatMap_nil,
            Spec.Segment.outs, List.append_nil, List.append_assoc]
        done_ok := i.done_ok
        cur_ok := {
          halves_le := i.cur_ok.halves_le
          halves_eq := i.cur_ok.halves_eq
          cut_le := by
            simp only [List.length_append, List.length_cons, List.length_nil, i.cur_cut]; omega
          cut_after := fun _ => hall
          cut_eq := by
            intro j x hj
            rcases getElem?_snoc _ _ _ _ hj with hj | ⟨hj, hx⟩
            · exact i.cur_ok.cut_eq j x hj
            · exact ⟨h.s.cfg, i.cfg, h2.1, by rw [hj, i.cur_cut, hx]; exact hcut⟩ }
        acc_eq := by
          simp only [List.filterMap_append, List.filterMap_cons, List.filterMap_nil]
          have := i.acc_eq
          simp only [List.filterMap_append, List.filterMap_cons, List.filterMap_nil] at this
          exact this
        cur_wave := i.cur_wave
        cur_pos := i.cur_pos
        cur_halves := i.cur_halves
        cur_cut := by simp [i.cur_cut] }
    · -- next packet
      have hcomp : cur.Ok P ∧ cur.Complete P := by
        refine ⟨i.cur_ok, hall, ?_⟩
        by_cases hb : h.s.cfg.bidi = true
        · left
          have := i.cur_ok.cut_le
          have hc := i.cur_cut
          have : ¬ h.s.bidiCount ≤ 4 := fun hx => h2 ⟨hb, hx⟩
          omega
        · right
          exact ⟨h.s.cfg, i.cfg, by simpa using hb⟩
      -- the state after choosing the next packet
      have hnext : ∃ (s2 : Tx) (f : Option (List Nat)),
          (if h.s.empty then ({ ({ h.s with packet := none } : Tx) with packetCount := 0, bidiCount := 0 } : Tx)
            else { ({ h.s with packet := some h.s.first } : Tx).popFront n with packetCount := 0, bidiCount := 0 }) = s2 ∧
          Tx.RingOk n s2 ∧ s2.current = f.getD Spec.idleWave ∧ 0 < s2.current.length ∧ s2.cfg = h.s.cfg ∧
          s2.packetCount = 0 ∧ s2.bidiCount = 0 ∧ h.s.queue n = f.toList ++ s2.queue n := by
        by_cases he : h.s.empty = true
        · refine ⟨{ h.s with packet := none, packetCount := 0, bidiCount := 0 }, none, by rw [if_pos he], ⟨i.ring.1, i.ring.2, by simp⟩, ?_, ?_, rfl, rfl, rfl, ?_⟩
          · simp only [Tx.current, Option.getD_none]; exact idle_eq
          · simp only [Tx.current]; rw [idle_eq]; exact TxInv.idle_pos
          · simp [Tx.queue, Tx.size]
        · have hq : h.s.queue n ≠ [] := fun hx => he ((Tx.empty_iff i.ring).mpr hx)
          obtain ⟨t, q, htq⟩ := List.exists_cons_of_ne_nil hq
          obtain ⟨p1, p2, p3⟩ := Tx.popFront_ok i.ring t q htq _ rfl
          refine ⟨_, some t, by rw [if_neg he], p1, ?_, ?_, rfl, rfl, rfl, ?_⟩
          · rw [p3]; rfl
          · rw [p3]
            have : t ∈ h.acc.map (fun a => Spec.packetWave a.1 a.2) := by
              rw [i.acc_eq, htq]; simp
            obtain ⟨a, _, ha⟩ := List.mem_map.mp this
            rw [← ha]
            exact packetWave_pos _ _
          · rw [htq, p2]; rfl
      obtain ⟨s2, f, hs2, r1, r2, r3, r4, r5, r6, r7⟩ := hnext
      obtain ⟨d, hd⟩ : ∃ d, s2.current[0]? = some d := ⟨_, List.getElem?_eq_getElem r3⟩
      have hstep : h.s.transmit n = .ok ({ s2 with packetCount := s2.packetCount + 1 },
          Spec.halfOut h.s.cfg 0 d) := by
        rw [Tx.transmit, if_neg h1, if_neg h2]
        have : (let s1 := if h.s.empty = true then ({ h.s with packet := none } : Tx)
            else ({ h.s with packet := some h.s.first } : Tx).popFront n
          ({ s1 with packetCount := 0, bidiCount := 0 } : Tx)) = s2 := by
          rw [← hs2]
          simp only
          split <;> rfl
        simp only at this ⊢
        rw [this, packetTiming_eq s2 d (by rw [r5]; exact hd), r4, r5]
      refine ⟨_, done ++ [cur], ⟨f, [Spec.halfOut h.s.cfg 0 d], []⟩,
        by rw [TxHist.step, hstep]; rfl, ?_, .inr ⟨hcomp.2, rfl, ?_, ?_⟩⟩
      rotate_left
      · rw [r7]
        cases f
        · simp only [Option.toList_none, List.nil_append]
          have : h.s.queue n = s2.queue n := by simpa using r7
          by_cases he : h.s.empty = true
          · rw [← this, (Tx.empty_iff i.ring).mp he]; rfl
          · exfalso
            have hq : h.s.queue n ≠ [] := fun hx => he ((Tx.empty_iff i.ring).mpr hx)
            obtain ⟨t, q, htq⟩ := List.exists_cons_of_ne_nil hq
            obtain ⟨p1, p2, p3⟩ := Tx.popFront_ok i.ring t q htq _ rfl
            rw [if_neg he] at hs2
            rw [hs2] at p2
            rw [p2, htq] at this
            have := congrArg List.length this
            simp at this
        · rfl
      · rw [r7]
        cases f
        · simp only [Option.toList_none, List.nil_append]
          have : h.s.queue n = s2.queue n := by simpa using r7
          by_cases he : h.s.empty = true
          · have h0 := (Tx.empty_iff i.ring).mp he
            rw [← this, h0]
            rw [h0] at this
            exact this.symm
          · exfalso
            have hq : h.s.queue n ≠ [] := fun hx => he ((Tx.empty_iff i.ring).mpr hx)
            obtain ⟨t, q, htq⟩ := List.exists_cons_of_ne_nil hq
            obtain ⟨p1, p2, p3⟩ := Tx.popFront_ok i.ring t q htq _ rfl
            rw [if_neg he] at hs2
            rw [hs2] at p2
            rw [p2, htq] at this
            have := congrArg List.length this
            simp at this
        · rfl
      exact {
        ring := ⟨r1.1, r1.2, r1.3⟩
        cfg := by simp only; rw [r4]; exact i.cfg
        acc_ok := i.acc_ok
        out_eq := by
          simp only [i.out_eq, List.flatMap_append, List.flatMap_cons, List.flatMap_nil,
            Spec.Segment.outs, List.append_nil, List.append_assoc]
        done_ok := by
          intro g hg
          rcases List.mem_append.mp hg with hg | hg
          · exact i.done_ok g hg
          · simp only [List.mem_singleton] at hg; subst hg; exact hcomp
        cur_ok := newSegment_ok _ i.cfg f d (by rw [← r2]; exact hd)
        acc_eq := by
          have e := i.acc_eq
          rw [r7] at e
          simp only [e, List.filterMap_append, List.filterMap_cons, List.filterMap_nil, List.append_assoc]
          cases cur.frame <;> cases f <;> simp [Tx.queue, Tx.size]
        cur_wave := by simp only [Tx.current] at *; exact r2.symm
        cur_pos := by simp only [Spec.Segment.wave]; rw [← r2]; exact r3
        cur_halves := by simp [r5]
        cur_cut := by simp [r6] }

/-- Configurations in force during a history. -/
def OpsConfig (P : TxConfig → Prop) (ops : List TxOp) : Prop := ∀ c, .init c ∈ ops → P c

theorem TxInv.run {n P} (ops : List TxOp) : ∀ {h done cur}, TxInv n P h done cur → OpsConfig P ops →
    ∀ h', h.run n ops = .ok h' → ∃ done' cur', TxInv n P h' done' cur' := by
  induction ops with
  | nil => intro h done cur i _ h' hr; cases hr; exact ⟨done, cur, i⟩
  | cons op ops ih =>
    intro h done cur i hc h' hr
    rw [TxHist.run, bind_eq_ok] at hr
    obtain ⟨h1, hs, hr⟩ := hr
    have hc' : OpsConfig P ops := fun c hm => hc c (List.mem_cons_of_mem _ hm)
    cases op with
    | init c => exact ih (i.init c (hc c (by simp)) h1 hs) hc' h' hr
    | bytes bs => exact ih (i.bytes bs h1 hs) hc' h' hr
    | transmit =>
      obtain ⟨h2, d2, c2, e2, i2, _⟩ := i.transmit
      rw [hs] at e2
      cases e2
      exact ih i2 hc' h' hr


theorem TxInv.describes {n P h done cur} (i : TxInv n P h done cur) :
    Spec.Describes P h done cur (h.s.queue n) := ⟨i.out_eq, i.done_ok, i.cur_ok, i.acc_eq⟩

theorem run_init_valid {n} (ops : List TxOp) : ∀ {h h' : TxHist}, h.run n ops = .ok h' →
    OpsConfig Spec.ValidConfig ops := by
  induction ops with
  | nil => intro h h' _ c hc; cases hc
  | cons op ops ih =>
    intro h h' hr
    rw [TxHist.run, bind_eq_ok] at hr
    obtain ⟨h1, hs, hr⟩ := hr
    intro c hc
    rcases List.mem_cons.mp hc with hc | hc
    · subst hc
      simp only [TxHist.step] at hs
      rw [bind_eq_ok] at hs
      obtain ⟨s', hb, _⟩ := hs
      rw [Tx.init] at hb
      split at hb
      · rename_i ha; exact (accepted_iff c).mp ha
      · cases hb
    · exact ih hr c hc

/-- Invariant of every history that starts with a fresh object. -/
theorem TxInv.reachable {n} (ops : List TxOp) (h : TxHist)
    (hr : ({ s := {} } : TxHist).run n ops = .ok h) :
    ∃ done cur, TxInv n Spec.ValidConfig h done cur :=
  TxInv.run ops (TxInv.initial n _ {} (by simp [Spec.ValidConfig])) (run_init_valid ops hr) h hr

/-- Invariant of every history that starts with `init(cfg)`. -/
theorem TxInv.reachable_init {n} {P : TxConfig → Prop} (cfg : TxConfig) (hP : P cfg) (ops : List TxOp)
    (hops : OpsConfig P ops) (h : TxHist)
    (hr : ({ s := {} } : TxHist).run n (.init cfg :: ops) = .ok h) :
    ∃ done cur, TxInv n P h done cur := by
  rw [TxHist.run, bind_eq_ok] at hr
  obtain ⟨h1, hs, hr⟩ := hr
  simp only [TxHist.step] at hs
  rw [bind_eq_ok] at hs
  obtain ⟨s', hb, hs⟩ := hs
  simp only [pure_eq_ok, Except.ok.injEq] at hs
  subst hs
  rw [Tx.init] at hb
  split at hb
  · cases hb
    exact TxInv.run ops (TxInv.initial n P cfg hP) hops h hr
  · cases hb

/-- Invariant of every history that starts with `init(cfg)` and has no further `init`. -/
theorem TxInv.reachable_fixed {n} (cfg : TxConfig) (ops : List TxOp) (hno : ∀ c, .init c ∉ ops)
    (h : TxHist) (hr : ({ s := {} } : TxHist).run n (.init cfg :: ops) = .ok h) :
    ∃ done cur, TxInv n (· = cfg) h done cur :=
  TxInv.reachable_init (P := (· = cfg)) cfg rfl ops (fun c hc => absurd hc (hno c)) h hr

/-- Once `transmit` was called, at least one half bit of the current packet was sent. -/
theorem TxInv.started {n} (ops : List TxOp) : ∀ {P h done cur h'}, TxInv n P h done cur →
    OpsConfig P ops → (h.out ≠ [] → 0 < h.s.packetCount) → h.run n ops = .ok h' → h'.out ≠ [] →
    0 < h'.s.packetCount := by
  induction ops with
  | nil => intro P h done cur h' _ _ h0 hr; cases hr; exact h0
  | cons op ops ih =>
    intro P h done cur h' i hc h0 hr
    rw [TxHist.run, bind_eq_ok] at hr
    obtain ⟨h1, hs, hr⟩ := hr
    have hc' : OpsConfig P ops := fun c hm => hc c (List.mem_cons_of_mem _ hm)
    cases op with
    | init c =>
      refine ih (i.init c (hc c (by simp)) h1 hs) hc' ?_ hr
      simp only [TxHist.step] at hs
      rw [bind_eq_ok] at hs
      obtain ⟨s', hb, hs⟩ := hs
      simp only [pure_eq_ok, Except.ok.injEq] at hs
      subst hs
      rw [Tx.init] at hb
      split at hb
      · cases hb; exact h0
      · cases hb
    | bytes bs =>
      refine ih (i.bytes bs h1 hs) hc' ?_ hr
      simp only [TxHist.step] at hs
      rw [bind_eq_ok] at hs
      obtain ⟨s', hb, hs⟩ := hs
      simp only [pure_eq_ok, Except.ok.injEq] at hs
      subst hs
      have : s'.packetCount = h.s.packetCount := by
        rw [Tx.bytes] at hb
        split at hb
        · cases hb; rfl
        · split at hb
          · rw [bind_eq_ok] at hb
            obtain ⟨t, _, hb⟩ := hb
            cases hb; rfl
          · cases hb
      simp only [this]
      exact h0
    | transmit =>
      obtain ⟨h2, d2, c2, e2, i2, _⟩ := i.transmit
      rw [hs] at e2
      cases e2
      refine ih i2 hc' (fun _ => ?_) hr
      simp only [TxHist.step] at hs
      rw [bind_eq_ok] at hs
      obtain ⟨⟨s', o⟩, hb, hs⟩ := hs
      simp only [pure_eq_ok, Except.ok.injEq] at hs
      subst hs
      have hpt : ∀ (s s' : Tx) o, s.packetTiming = .ok (s', o) → 0 < s'.packetCount := by
        intro s s' o hb
        rw [Tx.packetTiming] at hb
        split at hb
        · cases hb
        · cases hb; exact Nat.succ_pos _
      rw [Tx.transmit] at hb
      split at hb
      · exact hpt _ _ _ hb
      · rename_i hn
        split at hb
        · have hpos := i.cur_pos
          rw [i.cur_wave] at hpos
          have : s'.packetCount = h.s.packetCount := by
            simp only [Except.ok.injEq, Tx.bidiTiming] at hb
            split at hb <;> · cases hb; rfl
          simp only [this]
          omega
        · exact hpt _ _ _ hb

/-! ### Fixed configuration: exact stream -/

theorem halves_eq_take {cfg : TxConfig} {g : Spec.Segment} (h : g.Ok (· = cfg)) :
    g.halves = (Spec.packetOuts cfg g.wave).take g.halves.length := by
  apply List.ext_getElem?
  intro i
  rw [List.getElem?_take]
  split
  · rename_i hi
    obtain ⟨c, d, hc, hd, ho⟩ := h.halves_eq i _ (List.getElem?_eq_getElem hi)
    subst hc
    rw [List.getElem?_eq_getElem hi, ho, Spec.packetOuts, List.getElem?_mapIdx, hd]
    rfl
  · rename_i hi
    exact List.getElem?_eq_none (by omega)

theorem cut_eq_take {cfg : TxConfig} {g : Spec.Segment} (h : g.Ok (· = cfg)) :
    g.cut = (if cfg.bidi then Spec.cutOut cfg else []).take g.cut.length := by
  apply List.ext_getElem?
  intro i
  rw [List.getElem?_take]
  split
  · rename_i hi
    obtain ⟨c, hc, hb, ho⟩ := h.cut_eq i _ (List.getElem?_eq_getElem hi)
    subst hc
    rw [List.getElem?_eq_getElem hi, if_pos hb, ho]
  · rename_i hi
    exact List.getElem?_eq_none (by omega)

theorem outs_eq_take {cfg : TxConfig} {g : Spec.Segment} (h : g.Ok (· = cfg)) :
    g.outs = (Spec.wholeOuts cfg g.frame).take g.outs.length := by
  have h1 := halves_eq_take h
  have h2 := cut_eq_take h
  have hlen : (Spec.packetOuts cfg g.wave).length = g.wave.length := by simp [Spec.packetOuts]
  show _ = (Spec.packetOuts cfg g.wave ++ _).take _
  rw [Spec.Segment.outs, List.length_append, List.take_append, hlen]
  by_cases hc : g.cut = []
  · have hle := h.halves_le
    rw [hc, List.append_nil, List.length_nil, Nat.add_zero, ← h1]
    simp [show g.halves.length - g.wave.length = 0 by omega]
  · have he := h.cut_after hc
    rw [he, show g.wave.length + g.cut.length - g.wave.length = g.cut.length by omega, ← h2,
      List.take_of_length_le (by omega), ]
    congr 1
    rw [h1, he, List.take_of_length_le (by omega)]

theorem outs_eq_complete {cfg : TxConfig} {g : Spec.Segment} (h : g.Ok (· = cfg))
    (hc : g.Complete (· = cfg)) : g.outs = Spec.wholeOuts cfg g.frame := by
  have h1 := halves_eq_take h
  have h2 := cut_eq_take h
  have hlen : (Spec.packetOuts cfg g.wave).length = g.wave.length := by simp [Spec.packetOuts]
  show _ = Spec.packetOuts cfg g.wave ++ _
  rw [Spec.Segment.outs]
  congr 1
  · rw [h1, hc.halves, List.take_of_length_le (by omega)]
  · rcases hc.cut with h5 | ⟨c, hc, hb⟩
    · by_cases hb : cfg.bidi = true
      · rw [h2, h5, if_pos hb]; rfl
      · rw [if_neg hb] at h2 ⊢
        rw [h2]; simp
    · subst hc
      rw [hb] at h2 ⊢
      rw [h2]; simp

theorem flatMap_congr_mem {α β} (l : List α) (f g : α → List β) (h : ∀ a ∈ l, f a = g a) :
    l.flatMap f = l.flatMap g := by
  induction l with
  | nil => rfl
  | cons a l ih =>
    rw [List.flatMap_cons, List.flatMap_cons, h a (by simp), ih (fun x hx => h x (by simp [hx]))]

end Dcc
