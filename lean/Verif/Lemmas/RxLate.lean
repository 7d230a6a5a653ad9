import Verif.Lemmas.RxHeard
import Verif.Lemmas.RxThrottle
import Verif.Lemmas.TxIdle
/-! A receiver that begins to listen in the middle of the signal. -/
namespace Dcc
open Spec

/-! ### In the middle of a packet -/

/-- Durations while fewer than 20 half ones can come together. -/
theorem run_quiet (ts : List Nat) : ∀ l : Link, l.Synced → l.bitCount + ts.length ≤ 20 →
    ∃ l', l.run ts = .ok (l', []) ∧ l'.Synced ∧ l'.bitCount ≤ l.bitCount + ts.length := by
  induction ts with
  | nil => intro l hl _; exact ⟨l, rfl, hl, Nat.le_refl _⟩
  | cons t ts ih =>
    intro l hl hb
    rw [List.length_cons] at hb
    obtain ⟨l1, h1, h2, h3⟩ := run_noise l hl (by omega) t
    obtain ⟨l2, h4, h5, h6⟩ := ih l1 h2 (by omega)
    exact ⟨l2, Link.run_append_nil [t] ts h1 h4, h5, by rw [List.length_cons]; omega⟩

/-- A half zero in a preamble that is too short. -/
theorem run_half_zero (l : Link) (cfg : TxConfig) (h : Spec.ValidConfig cfg) (hs : l.Synced)
    (hb : l.bitCount < 20) :
    ∃ l', l.run [cfg.bit0.toNat] = .ok (l', []) ∧ l'.Synced ∧ l'.bitCount = 0 := by
  have h0 := time2bit_bit0 h
  obtain ⟨st, bc, by_, cs, ih, pe, pk⟩ := l
  obtain ⟨h1, h2, h3⟩ := hs
  simp only at h1 h2 h3 hb
  subst h1 h2 h3
  simp [Link.run, Link.step, h0, LinkState.halves, Link.bit, hb, Link.reset]
  exact ⟨rfl, rfl, rfl⟩

theorem byteBits_length (b : Byte) : (Spec.byteBits b).length = 8 := rfl

theorem wave_group (cfg : TxConfig) (b : Byte) : Spec.wave cfg (false :: Spec.byteBits b) =
    [cfg.bit0.toNat] ++ ([cfg.bit0.toNat] ++ Spec.wave cfg (Spec.byteBits b)) := by
  rw [wave_cons]; rfl

/-- A zero and a byte, or the last half bits of them. -/
theorem run_group (l : Link) (cfg : TxConfig) (h : Spec.ValidConfig cfg) (b : Byte) (hs : l.Synced) (j : Nat)
    (hb : l.bitCount < 20) (hj : 1 < j → l.bitCount ≤ 1) :
    ∃ l', l.run ((Spec.wave cfg (false :: Spec.byteBits b)).drop j) = .ok (l', []) ∧ l'.Synced ∧
      l'.bitCount ≤ if j ≤ 1 then 16 else 17 := by
  have hlen : (Spec.wave cfg (Spec.byteBits b)).length = 16 := by rw [wave_length, byteBits_length]
  rw [wave_group]
  rcases j with _ | _ | j
  · obtain ⟨l1, h1, h2, h3⟩ := run_half_zero l cfg h hs hb
    obtain ⟨l2, h4, h5, h6⟩ := run_half_zero l1 cfg h h2 (by omega)
    obtain ⟨l3, h7, h8, h9⟩ := run_quiet (Spec.wave cfg (Spec.byteBits b)) l2 h5 (by omega)
    refine ⟨l3, ?_, h8, by rw [if_pos (by omega)]; omega⟩
    exact Link.run_append_nil _ _ h1 (Link.run_append_nil _ _ h4 h7)
  · obtain ⟨l2, h4, h5, h6⟩ := run_half_zero l cfg h hs hb
    obtain ⟨l3, h7, h8, h9⟩ := run_quiet (Spec.wave cfg (Spec.byteBits b)) l2 h5 (by omega)
    refine ⟨l3, ?_, h8, by rw [if_pos (by omega)]; omega⟩
    exact Link.run_append_nil [cfg.bit0.toNat] _ h4 h7
  · have h1 := hj (by omega)
    have h2 : ([cfg.bit0.toNat] ++ ([cfg.bit0.toNat] ++ Spec.wave cfg (Spec.byteBits b))).drop (j + 1 + 1) =
        (Spec.wave cfg (Spec.byteBits b)).drop j := rfl
    have h3 : ((Spec.wave cfg (Spec.byteBits b)).drop j).length ≤ 16 := by rw [List.length_drop]; omega
    obtain ⟨l3, h7, h8, h9⟩ := run_quiet ((Spec.wave cfg (Spec.byteBits b)).drop j) l hs (by omega)
    exact ⟨l3, by rw [h2]; exact h7, h8, by rw [if_neg (by omega)]; omega⟩

/-- The bytes of a packet heard without a preamble. -/
theorem run_groups (cfg : TxConfig) (h : Spec.ValidConfig cfg) (bs : List Byte) : ∀ l : Link, l.Synced →
    l.bitCount < 20 → ∃ l', l.run (Spec.wave cfg (bs.flatMap fun b => false :: Spec.byteBits b)) = .ok (l', []) ∧
      l'.Synced ∧ (l'.bitCount ≤ 16 ∨ bs = [] ∧ l' = l) := by
  induction bs with
  | nil => intro l hl _; exact ⟨l, rfl, hl, .inr ⟨rfl, rfl⟩⟩
  | cons b bs ih =>
    intro l hl hb
    obtain ⟨l1, h1, h2, h3⟩ := run_group l cfg h b hl 0 hb (by omega)
    rw [if_pos (by omega)] at h3
    obtain ⟨l2, h4, h5, h6⟩ := ih l1 h2 (by omega)
    refine ⟨l2, ?_, h5, .inl ?_⟩
    · rw [List.flatMap_cons, wave_append]
      exact Link.run_append_nil _ _ h1 h4
    · rcases h6 with h6 | ⟨-, rfl⟩
      · exact h6
      · exact h3

theorem run_groups_drop (cfg : TxConfig) (h : Spec.ValidConfig cfg) (bs : List Byte) : ∀ (j : Nat) (l : Link),
    l.Synced → l.bitCount ≤ 1 →
    ∃ l', l.run ((Spec.wave cfg (bs.flatMap fun b => false :: Spec.byteBits b)).drop j) = .ok (l', []) ∧
      l'.Synced ∧ l'.bitCount ≤ 17 := by
  induction bs with
  | nil => intro j l hl hb; exact ⟨l, by cases j <;> rfl, hl, by omega⟩
  | cons b bs ih =>
    intro j l hl hb
    have hlen : (Spec.wave cfg (false :: Spec.byteBits b)).length = 18 := by
      rw [wave_length, List.length_cons, byteBits_length]
    rw [List.flatMap_cons, wave_append, List.drop_append, hlen]
    by_cases hj : j ≤ 18
    · obtain ⟨l1, h1, h2, h3⟩ := run_group l cfg h b hl j (by omega) (fun _ => hb)
      have h3' : l1.bitCount ≤ 17 := by split at h3 <;> omega
      obtain ⟨l2, h4, h5, h6⟩ := run_groups cfg h bs l1 h2 (by omega)
      refine ⟨l2, ?_, h5, ?_⟩
      · rw [show j - 18 = 0 by omega, List.drop_zero]
        exact Link.run_append_nil _ _ h1 h4
      · rcases h6 with h6 | ⟨-, rfl⟩
        · omega
        · exact h3'
    · rw [List.drop_eq_nil_of_le (by omega), List.nil_append]
      exact ih _ l hl hb

/-- A packet up to its last half bit. -/
def mostWave (cfg : TxConfig) (p : Packet) : List Nat :=
  List.replicate (2 * cfg.numPreamble.toNat) cfg.bit1.toNat ++
    (Spec.wave cfg (p.flatMap fun b => false :: Spec.byteBits b) ++ [cfg.bit1.toNat])

theorem packetWave_most (cfg : TxConfig) (p : Packet) (hp : ValidPacket p) :
    Spec.packetWave cfg p = mostWave cfg p ++ [cfg.bit1.toNat] := by
  obtain _ | ⟨b, bs⟩ := p
  · have := hp.min; simp at this
  rw [packetWave_split, wave_half_ones, mostWave, List.flatMap_cons, wave_append, wave_cons cfg false
    (Spec.byteBits b)]
  simp

/-- A receiver that begins to listen in a packet: it hears the packet if there is enough of the preamble left, and
nothing otherwise. -/
theorem run_late (cfg : TxConfig) (h : Spec.ValidConfig cfg) (p : Packet) (hp : ValidPacket p) (l : Link)
    (hl : l.Synced) (hb : l.bitCount ≤ 1) (j : Nat) :
    (l.run ((mostWave cfg p).drop j) = .ok (Link.beforeEnd p, [.start])) ∨
      2 * cfg.numPreamble.toNat < j + 20 ∧
      ∃ l', l.run ((mostWave cfg p).drop j) = .ok (l', []) ∧ l'.Synced ∧ l'.bitCount ≤ 18 := by
  unfold mostWave
  rw [List.drop_append, List.length_replicate, List.drop_replicate]
  by_cases hj : j ≤ 2 * cfg.numPreamble.toNat
  · rw [show j - 2 * cfg.numPreamble.toNat = 0 by omega, List.drop_zero]
    obtain ⟨l1, h1, h2, h3⟩ := run_half_ones (2 * cfg.numPreamble.toNat - j) l cfg h hl
    by_cases hc : 20 ≤ l1.bitCount
    · left
      obtain _ | ⟨b, bs⟩ := p
      · have := hp.min; simp at this
      rw [List.flatMap_cons, wave_append, List.append_assoc, wave_cons, List.append_assoc]
      refine Link.run_append_nil _ _ h1 ?_
      refine Link.run_append_ok (ps' := []) _ _ (run_start _ cfg h h2.state hc) ?_
      refine Link.run_append_nil _ _ (run_byte _ cfg h b rfl rfl rfl rfl h2.byte (by simp [maxPacketSize])) ?_
      have hm := hp.max
      refine Link.run_append_nil _ _ (run_bytes bs _ cfg h rfl rfl rfl rfl h2.byte
        (by simp at hm ⊢; omega)) ?_
      rw [run_end_half _ cfg h rfl rfl]
      have hx := hp.sum
      rw [exor_cons] at hx
      simp [Link.beforeEnd, h2.checksum, h2.byte, hx]
    · right
      refine ⟨by omega, ?_⟩
      obtain ⟨l2, h4, h5, h6⟩ := run_groups cfg h p l1 h2 (by omega)
      have h7 : l2.bitCount ≤ 16 := by
        rcases h6 with h6 | ⟨rfl, -⟩
        · exact h6
        · have := hp.min; simp at this
      obtain ⟨l3, h8, h9, h10⟩ := run_quiet [cfg.bit1.toNat] l2 h5 (by simp; omega)
      rw [List.length_singleton] at h10
      exact ⟨l3, Link.run_append_nil _ _ h1 (Link.run_append_nil _ _ h4 h8), h9, by omega⟩
  · right
    refine ⟨by omega, ?_⟩
    rw [show 2 * cfg.numPreamble.toNat - j = 0 by omega, List.replicate_zero, List.nil_append, List.drop_append]
    obtain ⟨l1, h1, h2, h3⟩ := run_groups_drop cfg h p (j - 2 * cfg.numPreamble.toNat) l hl hb
    generalize j - 2 * cfg.numPreamble.toNat -
      (Spec.wave cfg (p.flatMap fun b => false :: Spec.byteBits b)).length = i
    have hi : ([cfg.bit1.toNat].drop i).length ≤ 1 := by rw [List.length_drop]; simp
    obtain ⟨l2, h4, h5, h6⟩ := run_quiet ([cfg.bit1.toNat].drop i) l1 h2 (by omega)
    exact ⟨l2, Link.run_append_nil _ _ h1 h4, h5, by omega⟩

/-! ### What an input sees -/

/-- From the middle of the half bits of a packet on, an input sees one interval of which nothing is known, and the
half bits from there or from the next one on; the last one is not over. -/
theorem cross_late (off : Option Bool) {P : TxConfig → Prop} {inv : Bool} (hP : ∀ c, P c → c.invert = inv)
    {g : Spec.Segment} (h : g.Ok P) (k : Nat) (hk : k < g.halves.length) (seen : Bool) (acc : List Nat) :
    ∃ j junk, (j = k ∨ j = k + 1) ∧
      crossings off seen acc (g.halves.drop k) ++ [(crossEnd off seen acc (g.halves.drop k)).2] =
        junk :: ((g.wave.take g.halves.length).drop j).map ([·]) ∧
      (crossEnd off seen acc (g.halves.drop k)).1 = (inv ^^ (g.halves.length % 2 == 1)) := by
  have hf := halves_from hP (g.halves.drop k) k g.wave (by
    intro j o hj
    rw [List.getElem?_drop] at hj
    exact h.halves_eq _ o hj)
  have htimes := halves_times h
  have hd : (g.halves.drop k).map (fun o => [o.duration]) =
      ((g.wave.take g.halves.length).drop k).map ([·]) := by
    rw [← htimes, ← List.map_drop, List.map_map]; rfl
  have hlen : (g.halves.drop k).length = g.halves.length - k := List.length_drop
  cases hh : g.halves.drop k with
  | nil => rw [hh] at hlen; simp at hlen; omega
  | cons o os =>
    rw [hh] at hf hd hlen
    obtain ⟨⟨c, d, hc, rfl⟩, hf⟩ := hf
    have hl : looks off seen (Spec.halfOut c k d) = (inv ^^ ((k + 1) % 2 == 1)) := by
      rw [looks_half, hc]
      have : (k % 2 == 0) = ((k + 1) % 2 == 1) := by
        rcases Nat.mod_two_eq_zero_or_one k with h | h <;> simp [h] <;> omega
      rw [this]
    have hnum : k + 1 + os.length = g.halves.length := by rw [List.length_cons] at hlen; omega
    simp only [crossings, crossEnd]
    split
    · rename_i hs
      obtain ⟨h1, h2⟩ := cross_halves off inv os (k + 1) seen (acc ++ [(Spec.halfOut c k d).duration]) hf
        (by rw [← hl, hs])
      refine ⟨k + 1, acc ++ [(Spec.halfOut c k d).duration], .inr rfl, ?_, by rw [h2, hnum]⟩
      rw [h1]
      congr 1
      have := congrArg List.tail hd
      rw [List.map_cons, List.tail_cons, ← List.map_tail, List.tail_drop] at this
      exact this
    · obtain ⟨h1, h2⟩ := cross_halves off inv os (k + 1) _ [(Spec.halfOut c k d).duration] hf hl
      refine ⟨k, acc, .inl rfl, ?_, by rw [h2, hnum]⟩
      rw [List.cons_append, h1, ← hd]
      rfl

/-- The half bits of a packet heard from half bit `k` on. -/
theorem hear_late_halves {P : TxConfig → Prop} {inv : Bool} (hP : ∀ c, P c → c.invert = inv)
    {g : Spec.Segment} (h : g.Ok P) {p : Packet} (hcar : Carries g p) (k : Nat) (hk : k < g.halves.length)
    {l : Link} (hl : l.Synced) (hb : l.bitCount = 0) (off : Option Bool) (seen : Bool) (acc ts : List Nat)
    (ht : Measured (crossings off seen acc (g.halves.drop k)) ts) :
    ∃ l' os, l.run ts = .ok (l', os) ∧ packetsOf os = [] ∧
      (g.halves.length = g.wave.length → (crossEnd off seen acc (g.halves.drop k)).1 = inv ∧
        ((13 < k ∧ l'.Synced ∧ l'.bitCount ≤ 18) ∨
          l' = Link.beforeEnd p ∧ ∃ d, (crossEnd off seen acc (g.halves.drop k)).2 = [d] ∧ 56 ≤ d ∧ d ≤ 60)) := by
  obtain ⟨cfg, hcfg, hp, hwave⟩ := hcar
  have hhalf : ∀ d ∈ g.wave, IsHalf d := by rw [hwave]; exact wave_halves cfg hcfg _
  have heven : g.wave.length % 2 = 0 := by rw [hwave]; exact packetWave_even cfg p
  have hmost := packetWave_most cfg p hp
  rw [← hwave] at hmost
  obtain ⟨j, junk, hj, h1, h2⟩ := cross_late off hP h k hk seen acc
  have hle := h.halves_le
  have hmlen : g.wave.length = (mostWave cfg p).length + 1 := by rw [hmost]; simp
  have hpar : g.halves.length = g.wave.length → (crossEnd off seen acc (g.halves.drop k)).1 = inv := by
    intro hfull
    rw [h2, hfull, heven]; simp
  by_cases hjl : j < g.halves.length
  · -- at least one more half bit
    have hsplit : (g.wave.take g.halves.length).drop j =
        ((mostWave cfg p).drop j).take (g.halves.length - 1 - j) ++
          [g.wave[g.halves.length - 1]'(by omega)] := by
      have h3 : g.wave.take g.halves.length = (mostWave cfg p).take (g.halves.length - 1) ++
          [g.wave[g.halves.length - 1]'(by omega)] := by
        conv => lhs; rw [show g.halves.length = g.halves.length - 1 + 1 by omega, List.take_add_one,
          List.getElem?_eq_getElem (by omega)]
        congr 1
        rw [hmost, List.take_append_of_le_length (by omega)]
      rw [h3, List.drop_append_of_le_length (by rw [List.length_take]; omega), List.drop_take]
    rw [hsplit, List.map_append, ← List.cons_append] at h1
    obtain ⟨h4, h5⟩ := List.append_inj' h1 (by simp)
    rw [h4] at ht
    cases ts with
    | nil => exact ht.elim
    | cons t ts =>
      obtain ⟨l1, h6, h7, h8⟩ := run_noise l hl (by omega) t
      have hrun := measured_run _ ts l1 (fun d hd => hhalf d (by
        rw [hmost]; exact List.mem_append_left _ (List.mem_of_mem_drop (List.mem_of_mem_take hd)))) ht.2
      have hgo : ∃ lf of, l1.run ((mostWave cfg p).drop j) = .ok (lf, of) ∧ packetsOf of = [] ∧
          ((13 < k ∧ lf.Synced ∧ lf.bitCount ≤ 18) ∨ lf = Link.beforeEnd p) := by
        rcases run_late cfg hcfg p hp l1 h7 (by omega) j with h9 | ⟨h9, lf, h10, h11, h12⟩
        · exact ⟨_, _, h9, rfl, .inr rfl⟩
        · have := hcfg.1
          exact ⟨lf, [], h10, rfl, .inl ⟨by omega, h11, h12⟩⟩
      obtain ⟨lf, of, h9, h10, h11⟩ := hgo
      have h12 := h9
      rw [← List.take_append_drop (g.halves.length - 1 - j) ((mostWave cfg p).drop j)] at h12
      obtain ⟨l2, q1, q2, h13, h14, h15⟩ := Link.run_prefix _ _ h12
      refine ⟨l2, q1, Link.run_append_nil [t] ts h6 (by rw [hrun, h13]), ?_, ?_⟩
      · have : packetsOf of = packetsOf q1 ++ packetsOf q2 := by rw [h15]; simp [packetsOf]
        rw [h10] at this
        exact (List.append_eq_nil_iff.mp this.symm).1
      · intro hfull
        refine ⟨hpar hfull, ?_⟩
        rw [List.drop_of_length_le (by rw [List.length_drop]; omega)] at h14
        cases h14
        rcases h11 with h11 | h11
        · exact .inl h11
        · refine .inr ⟨h11, cfg.bit1.toNat, ?_, hcfg.2.2.1, hcfg.2.2.2.1⟩
          have h16 := (List.cons.inj h5).1
          rw [h16]
          have : g.wave[g.halves.length - 1]'(by omega) = cfg.bit1.toNat := by
            rw [List.getElem_eq_iff]
            rw [hmost, List.getElem?_append_right (by omega)]
            rw [show g.halves.length - 1 - (mostWave cfg p).length = 0 by omega]
            rfl
          rw [this]
  · -- the last half bit is the interval of which nothing is known
    have hnil : (g.wave.take g.halves.length).drop j = [] :=
      List.drop_eq_nil_of_le (by rw [List.length_take]; omega)
    rw [hnil, List.map_nil] at h1
    have h3 : crossings off seen acc (g.halves.drop k) = [] :=
      List.eq_nil_of_length_eq_zero (by have := congrArg List.length h1; simpa using this)
    rw [h3] at ht
    cases ts with
    | cons => exact ht.elim
    | nil =>
      refine ⟨l, [], rfl, rfl, fun hfull => ⟨hpar hfull, .inl ⟨?_, hl, by omega⟩⟩⟩
      have : 34 ≤ (mostWave cfg p).length := by
        have := hcfg.1
        simp only [mostWave, List.length_append, List.length_replicate]
        omega
      omega

/-- The calls of `transmit` of a cutout behind the first one change nothing for an input for the polarity. -/
theorem cut_rest {P : TxConfig → Prop} {g : Spec.Segment} (h : g.Ok P) (j : Nat) (hj : 0 < j) (seen : Bool)
    (acc : List Nat) : crossings none seen acc (g.cut.drop j) = [] ∧
      (crossEnd none seen acc (g.cut.drop j)).1 = seen := by
  have key : ∀ (os : List TxOut), (∀ o ∈ os, ∀ seen, looks none seen o = seen) →
      ∀ seen acc, crossings none seen acc os = [] ∧ (crossEnd none seen acc os).1 = seen := by
    intro os
    induction os with
    | nil => intro _ _ _; exact ⟨rfl, rfl⟩
    | cons o os ih =>
      intro ho seen acc
      rw [crossings, crossEnd, if_pos (ho o (by simp) seen), if_pos (ho o (by simp) seen)]
      exact ih (fun x hx => ho x (by simp [hx])) _ _
  refine key _ ?_ seen acc
  intro o ho seen
  obtain ⟨i, hi⟩ := List.getElem?_of_mem ho
  rw [List.getElem?_drop] at hi
  obtain ⟨c, _, _, hd⟩ := h.cut_eq (j + i) o hi
  have hlt : j + i < 5 := by
    have := (List.getElem?_eq_some_iff.mp hi).1
    have := h.cut_le
    omega
  have : j + i = 1 ∨ j + i = 2 ∨ j + i = 3 ∨ j + i = 4 := by omega
  rcases this with h1 | h1 | h1 | h1 <;>
    · rw [h1] at hd
      simp only [Spec.cutOut, List.getElem?_cons_succ, List.getElem?_cons_zero, Option.some.injEq] at hd
      rw [← hd]; rfl

/-- The cutout behind a packet that was not heard. -/
theorem hear_late_cut {P : TxConfig → Prop} {inv : Bool} (hP : ∀ c, P c → c.invert = inv) {g : Spec.Segment}
    (h : g.Ok P) {l : Link} (hl : l.Synced) (hb : l.bitCount ≤ 18) (seen : Bool) (acc ts : List Nat) (j : Nat)
    (ht : Measured (crossings none seen acc (g.cut.drop j)) ts) :
    ∃ l', l.run ts = .ok (l', []) ∧ Between inv l' (crossEnd none seen acc (g.cut.drop j)).1
      (crossEnd none seen acc (g.cut.drop j)).2 [] := by
  have rest : ∀ i seen acc ts, 0 < i → Measured (crossings none seen acc (g.cut.drop i)) ts → ts = [] := by
    intro i seen acc ts hi hm
    rw [(cut_rest h i hi seen acc).1] at hm
    cases ts with
    | nil => rfl
    | cons => exact hm.elim
  rcases j with _ | j
  · rw [List.drop_zero] at ht ⊢
    by_cases hne : g.cut = []
    · rw [hne] at ht ⊢
      cases ts with
      | cons => exact ht.elim
      | nil => exact ⟨l, rfl, .idle hl hb⟩
    · obtain ⟨o, os, h1, h2, -⟩ := cut_looks hP h hne
      have hos : os = g.cut.drop 1 := by rw [h1]; rfl
      rw [h1, crossings, h2] at ht
      rw [h1, crossEnd, h2]
      by_cases hs : (!inv) = seen
      · rw [if_pos hs, hos] at ht ⊢
        rw [rest 1 _ _ ts (by omega) ht]
        exact ⟨l, rfl, .idle hl hb⟩
      · rw [if_neg hs, hos] at ht ⊢
        cases ts with
        | nil => exact ht.elim
        | cons t ts =>
          rw [rest 1 _ _ ts (by omega) ht.2]
          obtain ⟨l1, h3, h4, h5⟩ := run_noise l hl (by omega) t
          refine ⟨l1, h3, ?_⟩
          rw [(cut_rest h 1 (by omega) (!inv) [o.duration]).2]
          exact .same h4 (by omega)
  · rw [rest (j + 1) _ _ ts (by omega) ht]
    exact ⟨l, rfl, .idle hl hb⟩

/-- A packet heard from one of its calls of `transmit` on. -/
theorem hear_late {P : TxConfig → Prop} {inv : Bool} (hP : ∀ c, P c → c.invert = inv)
    {g : Spec.Segment} (h : g.Ok P) {p : Packet} (hcar : Carries g p)
    (hfull : g.halves.length = g.wave.length) (k : Nat)
    {l : Link} (hl : l.Synced) (hb : l.bitCount = 0) (seen : Bool) (acc ts : List Nat)
    (ht : Measured (crossings none seen acc (g.outs.drop k)) ts) :
    ∃ l' os ps', l.run ts = .ok (l', os) ∧
      Between inv l' (crossEnd none seen acc (g.outs.drop k)).1 (crossEnd none seen acc (g.outs.drop k)).2 ps' ∧
      (k < g.halves.length ∧ packetsOf os ++ ps' = [p] ∨ 13 < k ∧ packetsOf os ++ ps' = []) ∧
      (g.cut ≠ [] → ps' = []) := by
  have hp : ValidPacket p := hcar.elim fun _ hx => hx.2.1
  have h34 : 34 ≤ g.halves.length := by
    obtain ⟨cfg, hcfg, hp, hw⟩ := hcar
    have := hcfg.1
    rw [hfull, hw, packetWave_most cfg p hp]
    simp only [mostWave, List.length_append, List.length_replicate]
    omega
  rw [Spec.Segment.outs, List.drop_append] at ht ⊢
  by_cases hk : k < g.halves.length
  · rw [show k - g.halves.length = 0 by omega, List.drop_zero, crossings_append] at ht
    rw [show k - g.halves.length = 0 by omega, List.drop_zero, crossEnd_append]
    obtain ⟨t1, t2, rfl, h1, h2⟩ := Measured.append ht
    obtain ⟨l1, os1, h3, h4, h5⟩ := hear_late_halves hP h hcar k hk hl hb none seen acc t1 h1
    obtain ⟨h6, h7⟩ := h5 hfull
    rcases h7 with ⟨h7, h8, h9⟩ | ⟨rfl, d, h8, h9⟩
    · obtain ⟨l2, h10, h11⟩ := hear_late_cut hP h h8 h9 _ _ t2 0 (by rw [List.drop_zero]; exact h2)
      rw [List.drop_zero] at h11
      exact ⟨l2, os1 ++ [], [], Link.run_append_ok _ _ h3 h10, h11, .inr ⟨h7, by simp [h4]⟩, fun _ => rfl⟩
    · rw [h6, h8] at h2 ⊢
      by_cases hc : g.cut = []
      · rw [hc] at h2 ⊢
        cases t2 with
        | cons => exact h2.elim
        | nil =>
          rw [List.append_nil]
          exact ⟨_, os1, [p], h3, .pend hp h9, .inl ⟨hk, by rw [h4]; rfl⟩, fun hx => absurd rfl hx⟩
      · obtain ⟨l2, os2, h10, h11, h12, h13, -⟩ := hear_cut hP h hc hp h9 none t2 h2
        refine ⟨l2, os1 ++ os2, [], Link.run_append_ok _ _ h3 h10, .idle h12 h13, .inl ⟨hk, ?_⟩, fun _ => rfl⟩
        simp only [packetsOf, List.filterMap_append] at h4 h11 ⊢
        rw [h4, h11]; rfl
  · rw [List.drop_eq_nil_of_le (by omega : g.halves.length ≤ k), List.nil_append] at ht ⊢
    obtain ⟨l2, h10, h11⟩ := hear_late_cut hP h hl (by omega) _ _ ts _ ht
    exact ⟨l2, [], [], h10, h11, .inr ⟨by omega, rfl⟩, fun _ => rfl⟩

/-- Packets heard from any call of `transmit` on: only those that began at least 14 calls of `transmit` before are
missed. -/
theorem hear_late_segments {P : TxConfig → Prop} {inv : Bool} (hP : ∀ c, P c → c.invert = inv)
    (cur : Spec.Segment × Packet) {l : Link} (hl : l.Synced) (hb : l.bitCount = 0) (seen : Bool) (acc : List Nat)
    (gs : List (Spec.Segment × Packet)) : ∀ (k : Nat),
    (∀ g ∈ gs ++ [cur], g.1.Ok P ∧ Carries g.1 g.2) →
    (∀ g ∈ gs, g.1.halves.length = g.1.wave.length) → cur.1.halves ≠ [] →
    ∀ ts, Measured (crossings none seen acc (((gs ++ [cur]).flatMap fun g => g.1.outs).drop k)) ts →
    ∃ l' os i, l.run ts = .ok (l', os) ∧
      packetsOf os = (gs.map (·.2) ++ (if cur.1.cut = [] then [] else [cur.2])).drop i ∧
      (∀ m, m + 1 = i → (((gs ++ [cur]).take m).flatMap fun g => g.1.outs).length + 14 ≤ k) ∧
      ∀ m g, (gs ++ [cur])[m]? = some g → m < gs.length ∨ cur.1.cut ≠ [] →
        (((gs ++ [cur]).take m).flatMap fun g => g.1.outs).length + g.1.halves.length ≤ k → m < i := by
  induction gs with
  | nil =>
    intro k hok _ hne ts ht
    obtain ⟨hok, hcar⟩ := hok cur (by simp)
    simp only [List.nil_append, List.flatMap_cons, List.flatMap_nil, List.append_nil, List.map_nil] at ht ⊢
    by_cases hc : cur.1.cut = []
    · rw [if_pos hc]
      rw [Spec.Segment.outs, hc, List.append_nil] at ht
      by_cases hk : k < cur.1.halves.length
      · obtain ⟨l1, os1, h1, h2, -⟩ := hear_late_halves hP hok hcar k hk hl hb none seen acc ts ht
        exact ⟨l1, os1, 0, h1, h2, fun m hm => by omega, fun m g _ hlt _ => absurd hc (hlt.resolve_left (by simp))⟩
      · rw [List.drop_eq_nil_of_le (by omega)] at ht
        cases ts with
        | cons => exact ht.elim
        | nil =>
          exact ⟨l, [], 0, rfl, rfl, fun m hm => by omega, fun m g _ hlt _ => absurd hc (hlt.resolve_left (by simp))⟩
    · rw [if_neg hc]
      obtain ⟨l1, os1, ps', h1, -, h3, h4⟩ := hear_late hP hok hcar (hok.cut_after hc) k hl hb seen acc ts ht
      rw [h4 hc, List.append_nil] at h3
      rcases h3 with ⟨hk, h3⟩ | ⟨hk, h3⟩
      · refine ⟨l1, os1, 0, h1, h3, fun m hm => by omega, fun m g hg _ hle => ?_⟩
        cases m with
        | succ => simp at hg
        | zero =>
          simp only [List.getElem?_cons_zero, Option.some.injEq] at hg
          subst hg
          simp at hle
          omega
      · refine ⟨l1, os1, 1, h1, h3, fun m hm => ?_, fun m g hg _ _ => ?_⟩
        case' refine_2 =>
          cases m with
          | succ => simp at hg
          | zero => omega
        rw [show m = 0 by omega, List.take_zero, List.flatMap_nil, List.length_nil]
        omega
  | cons g gs ih =>
    intro k hok hfull hne ts ht
    obtain ⟨hgok, hgcar⟩ := hok g (by simp)
    have hgfull := hfull g (by simp)
    have hok' : ∀ x ∈ gs ++ [cur], x.1.Ok P ∧ Carries x.1 x.2 := fun x hx => hok x (by
      rw [List.cons_append]; exact List.mem_cons_of_mem _ hx)
    have hfull' : ∀ x ∈ gs, x.1.halves.length = x.1.wave.length := fun x hx => hfull x (by simp [hx])
    rw [List.cons_append, List.flatMap_cons, List.drop_append] at ht
    have h34 : 14 ≤ g.1.outs.length := by
      obtain ⟨cfg, hcfg, hp, hw⟩ := hgcar
      have := hcfg.1
      rw [Spec.Segment.outs, List.length_append, hgfull, hw, packetWave_most cfg g.2 hp]
      simp only [mostWave, List.length_append, List.length_replicate]
      omega
    by_cases hk : k < g.1.outs.length
    · rw [show k - g.1.outs.length = 0 by omega, List.drop_zero, crossings_append] at ht
      obtain ⟨t1, t2, rfl, h1, h2⟩ := Measured.append ht
      obtain ⟨l1, os1, ps', h3, h4, h5, -⟩ := hear_late hP hgok hgcar hgfull k hl hb seen acc t1 h1
      obtain ⟨l2, os2, h6, h7, -⟩ := hear_segments hP none cur gs h4 hok' hfull' hne t2 h2
      have hp : packetsOf (os1 ++ os2) = packetsOf os1 ++ ps' ++
          (gs.map (·.2) ++ (if cur.1.cut = [] then [] else [cur.2])) := by
        simp only [packetsOf, List.filterMap_append] at h7 ⊢
        rw [h7]
        simp only [List.append_assoc]
      have hfirst : ∀ m (y : Spec.Segment × Packet), (g :: gs ++ [cur])[m]? = some y →
          (((g :: gs ++ [cur]).take m).flatMap fun g => g.1.outs).length + y.1.halves.length ≤ k →
          m = 0 ∧ g.1.halves.length ≤ k := by
        intro m y hy hle
        cases m with
        | succ m =>
          rw [List.cons_append, List.take_succ_cons, List.flatMap_cons, List.length_append] at hle
          omega
        | zero =>
          simp only [List.cons_append, List.getElem?_cons_zero, Option.some.injEq] at hy
          subst hy
          simp at hle
          exact ⟨rfl, hle⟩
      rcases h5 with ⟨hlt, h5⟩ | ⟨h5, h8⟩
      · refine ⟨l2, os1 ++ os2, 0, Link.run_append_ok _ _ h3 h6, ?_, fun m hm => by omega, fun m y hy _ hle => ?_⟩
        · rw [hp, h5]; rfl
        · have := (hfirst m y hy hle).2
          omega
      · refine ⟨l2, os1 ++ os2, 1, Link.run_append_ok _ _ h3 h6, ?_, fun m hm => ?_, fun m y hy _ hle => ?_⟩
        case' refine_3 => have := (hfirst m y hy hle).1; omega
        · rw [hp, h8]; rfl
        · rw [show m = 0 by omega, List.take_zero, List.flatMap_nil, List.length_nil]
          omega
    · rw [List.drop_eq_nil_of_le (by omega : g.1.outs.length ≤ k), List.nil_append] at ht
      obtain ⟨l1, os1, i, h1, h2, h3, h4⟩ := ih (k - g.1.outs.length) hok' hfull' hne ts ht
      refine ⟨l1, os1, i + 1, h1, by rw [h2]; rfl, fun m hm => ?_, fun m y hy hlt hle => ?_⟩
      case' refine_2 =>
        cases m with
        | zero => omega
        | succ m =>
          rw [List.cons_append, List.take_succ_cons, List.flatMap_cons, List.length_append] at hle
          rw [List.cons_append, List.getElem?_cons_succ] at hy
          have := h4 m y hy (hlt.imp_left fun h => by simp only [List.length_cons] at h; omega) (by omega)
          omega
      rcases m with _ | m
      · rw [List.take_zero, List.flatMap_nil, List.length_nil]; omega
      · have := h3 m (by omega)
        rw [List.cons_append, List.take_succ_cons, List.flatMap_cons, List.length_append]
        omega

/-! ### The command station -/

/-- A later history goes on with the segments of an earlier one. -/
theorem TxInv.run_extends {n P} (ops : List TxOp) : ∀ {h done cur}, TxInv n P h done cur → OpsConfig P ops →
    ∀ h', h.run n ops = .ok h' → ∃ done' cur' x more, TxInv n P h' done' cur' ∧
      done' ++ [cur'] = done ++ x :: more ∧ x.frame = cur.frame ∧ cur.outs.length ≤ x.outs.length := by
  induction ops with
  | nil => intro h done cur i _ h' hr; cases hr; exact ⟨done, cur, cur, [], i, rfl, rfl, Nat.le_refl _⟩
  | cons op ops ih =>
    intro h done cur i hc h' hr
    rw [TxHist.run, bind_eq_ok] at hr
    obtain ⟨h1, hs, hr⟩ := hr
    have hc' : OpsConfig P ops := fun c hm => hc c (List.mem_cons_of_mem _ hm)
    cases op with
    | init c => exact ih (i.init c (hc c (by simp)) h1 hs) hc' h' hr
    | bytes bs => exact ih (i.bytes bs h1 hs) hc' h' hr
    | transmit =>
      obtain ⟨h2, d2, c2, e2, i2, hcase⟩ := i.transmit
      rw [hs] at e2
      cases e2
      obtain ⟨done', cur', x, more, h3, h4, h5, h6⟩ := ih i2 hc' h' hr
      rcases hcase with ⟨rfl, h7, _⟩ | ⟨_, rfl, _, _⟩
      · refine ⟨done', cur', x, more, h3, h4, by rw [h5, h7], Nat.le_trans ?_ h6⟩
        have hout : h1.out.length = h.out.length + 1 := by
          simp only [TxHist.step] at hs
          rw [bind_eq_ok] at hs
          obtain ⟨y, _, hy⟩ := hs
          simp only [pure_eq_ok, Except.ok.injEq] at hy
          subst hy
          simp
        have h8 := congrArg List.length i.out_eq
        have h9 := congrArg List.length i2.out_eq
        simp only [List.flatMap_append, List.length_append, List.flatMap_cons, List.flatMap_nil,
          List.append_nil] at h8 h9
        omega
      · exact ⟨done', cur', cur, x :: more, h3, by rw [h4]; simp, rfl, Nat.le_refl _⟩

theorem flatMap_take_le {α β} (f : α → List β) (l : List α) {a b : Nat} (h : a ≤ b) :
    ((l.take a).flatMap f).length ≤ ((l.take b).flatMap f).length := by
  rw [← Nat.add_sub_of_le h, List.take_add, List.flatMap_append, List.length_append]
  omega

/-- What a receiver that begins to listen after the calls of `transmit` of `h1` makes of the signal. -/
theorem inv_late {n : Nat} {inv : Bool} {h1 h : TxHist} {done1 done : List Spec.Segment} {cur1 cur x : Spec.Segment}
    {later : List Spec.Segment}
    (i1 : TxInv n (fun c => Spec.ValidConfig c ∧ c.invert = inv) h1 done1 cur1)
    (i2 : TxInv n (fun c => Spec.ValidConfig c ∧ c.invert = inv) h done cur)
    (hext : done ++ [cur] = done1 ++ x :: later) (hxf : x.frame = cur1.frame)
    (hxl : cur1.outs.length ≤ x.outs.length)
    (hstart : h.out ≠ [] → 0 < h.s.packetCount) (hv : ∀ a ∈ h.acc, ValidPacket a.2)
    (seen : Bool) (before ts : List Nat)
    (hm : Measured (crossings none seen before (h.out.drop h1.out.length)) ts) (l : Link) (hl : l.Synced)
    (hb : l.bitCount = 0) :
    ∃ (gs : List (Spec.Segment × Packet)) (c : Spec.Segment × Packet) (rest : List Packet) (l' : Link)
      (os : List LinkOut) (i : Nat), gs.map (·.1) = done ∧ c.1 = cur ∧ i ≤ done1.length + 1 ∧
      (∀ m g, (gs ++ [c])[m]? = some g → m < gs.length ∨ c.1.cut ≠ [] →
        (((gs ++ [c]).take m).flatMap fun g => g.1.outs).length + g.1.halves.length ≤ h1.out.length → m < i) ∧
      h.out = (gs ++ [c]).flatMap (fun g => g.1.outs) ∧
      (∀ g ∈ gs ++ [c], g.1.Ok Spec.ValidConfig ∧
        ((g.1.frame = none ∧ g.2 = [0xFF#8, 0x00#8, 0xFF#8]) ∨
          ∃ c, (c, g.2) ∈ h.acc ∧ g.1.frame = some (Spec.packetWave c g.2))) ∧
      (∀ g ∈ gs, g.1.Complete Spec.ValidConfig) ∧
      h.acc.map (·.2) = ((gs ++ [c]).filter (·.1.frame.isSome)).map (·.2) ++ rest ∧
      rest.length = h.s.size n ∧ c.1.cut.length = h.s.bidiCount ∧
      l.run ts = .ok (l', os) ∧
      packetsOf os = (gs.map (·.2) ++ if c.1.cut.isEmpty then [] else [c.2]).drop i ∧
      (∀ m, m + 1 = i → (((gs ++ [c]).take m).flatMap fun g => g.1.outs).length + 14 ≤ h1.out.length) ∧
      (((gs ++ [c]).take i).filter (·.1.frame.isSome)).length + h1.s.size n ≤ h1.acc.length := by
  obtain ⟨gs, c, rest, hdone, hcur, hout, hok, hcomp, h2, hrest, hcut, hnone⟩ := inv_parts i2 hstart hv
  have hweak : ∀ g : Spec.Segment, g.Ok (fun c => Spec.ValidConfig c ∧ c.invert = inv) →
      g.Ok Spec.ValidConfig := fun g hg =>
    ⟨hg.halves_le, fun i o hi => (hg.halves_eq i o hi).imp fun c hx => hx.imp fun d hy => ⟨hy.1.1, hy.2⟩,
      hg.cut_le, hg.cut_after, fun i o hi => (hg.cut_eq i o hi).imp fun c hx => ⟨hx.1.1, hx.2⟩⟩
  have hweakc : ∀ g : Spec.Segment, g.Complete (fun c => Spec.ValidConfig c ∧ c.invert = inv) →
      g.Complete Spec.ValidConfig := fun g hg =>
    ⟨hg.halves, hg.cut.imp id fun hx => hx.imp fun c hy => ⟨hy.1.1, hy.2⟩⟩
  have hacc1 : ((done1 ++ [cur1]).filterMap Spec.Segment.frame).length + h1.s.size n = h1.acc.length := by
    have := congrArg List.length i1.acc_eq
    rw [List.length_map, List.length_append, Tx.queue_length] at this
    omega
  suffices hrun : ∃ l' os i, l.run ts = .ok (l', os) ∧
      packetsOf os = (gs.map (·.2) ++ if c.1.cut.isEmpty then [] else [c.2]).drop i ∧
      (∀ m, m + 1 = i → (((gs ++ [c]).take m).flatMap fun g => g.1.outs).length + 14 ≤ h1.out.length) ∧
      (∀ m g, (gs ++ [c])[m]? = some g → m < gs.length ∨ c.1.cut ≠ [] →
        (((gs ++ [c]).take m).flatMap fun g => g.1.outs).length + g.1.halves.length ≤ h1.out.length → m < i) by
    obtain ⟨l', os, i, h3, h4, h5, hlo⟩ := hrun
    have hsegs : (gs ++ [c]).map (·.1) = done1 ++ x :: later := by
      rw [List.map_append, hdone, List.map_cons, List.map_nil, hcur, hext]
    have hi : i ≤ done1.length + 1 := by
      rcases i with _ | m
      · omega
      · refine Classical.byContradiction fun hx => ?_
        have h6 := h5 m rfl
        have h7 := flatMap_take_le (fun g : Spec.Segment × Packet => g.1.outs) (gs ++ [c])
          (show done1.length + 1 ≤ m by omega)
        have h8 : ((gs ++ [c]).take (done1.length + 1)).flatMap (fun g => g.1.outs) =
            (done1 ++ [x]).flatMap Spec.Segment.outs := by
          have : ((gs ++ [c]).take (done1.length + 1)).flatMap (fun g => g.1.outs) =
              (((gs ++ [c]).map (·.1)).take (done1.length + 1)).flatMap Spec.Segment.outs := by
            rw [← List.map_take, List.flatMap_map]
          rw [this, hsegs, List.take_append, List.take_of_length_le (by omega)]
          simp
        rw [h8] at h7
        have h9 := congrArg List.length i1.out_eq
        simp only [List.flatMap_append, List.length_append, List.flatMap_cons, List.flatMap_nil,
          List.append_nil] at h7 h9
        omega
    refine ⟨gs, c, rest, l', os, i, hdone, hcur, hi, hlo, hout, fun g hg => ⟨hweak _ (hok g hg).1, (hok g hg).2.2⟩,
      fun g hg => hweakc _ (hcomp g hg), h2, hrest, hcut, h3, h4, h5, ?_⟩
    have hcount : ∀ k, (((gs ++ [c]).take k).filter (·.1.frame.isSome)).length =
        (((done1 ++ x :: later).take k).filterMap Spec.Segment.frame).length := by
      intro k
      rw [← hsegs, ← List.map_take]
      generalize (gs ++ [c]).take k = l
      induction l with
      | nil => rfl
      | cons g l ih =>
        rw [List.filter_cons, List.map_cons, List.filterMap_cons]
        cases hf : g.1.frame <;> simp [ih]
    rw [hcount, ← hacc1]
    have h10 : ((done1 ++ x :: later).take i).filterMap Spec.Segment.frame <+:
        ((done1 ++ x :: later).take (done1.length + 1)).filterMap Spec.Segment.frame :=
      List.IsPrefix.filterMap _ (List.take_prefix_take_left hi)
    have h11 : ((done1 ++ x :: later).take (done1.length + 1)).filterMap Spec.Segment.frame =
        (done1 ++ [cur1]).filterMap Spec.Segment.frame := by
      rw [List.take_append, List.take_of_length_le (by omega)]
      simp [List.filterMap_cons, hxf]
    rw [h11] at h10
    have := h10.length_le
    omega
  by_cases hne : c.1.halves = []
  · obtain ⟨ho, hgs, hcut⟩ := hnone hne
    rw [ho] at hm
    cases ts with
    | cons => simp [crossings, Measured] at hm
    | nil => exact ⟨l, [], 0, rfl, by simp [hgs, hcut, packetsOf], fun m hm => by omega,
      fun m g _ hlt _ => by rcases hlt with hlt | hlt <;> simp_all⟩
  · obtain ⟨l', os, i, h3, h4, h5, hlo⟩ := hear_late_segments (inv := inv) (fun c hc => hc.2) c hl hb seen before gs
      h1.out.length (fun g hg => ⟨(hok g hg).1, (hok g hg).2.1⟩) (fun g hg => (hcomp g hg).halves) hne ts
      (by rw [← hout]; exact hm)
    refine ⟨l', os, i, h3, ?_, h5, hlo⟩
    rw [h4]
    cases hcut : c.1.cut <;> simp

/-- What a receiver that begins to listen after some calls of `transmit` makes of the signal: it misses no packet whose
transmission begins later. -/
theorem station_late (n : Nat) (cfg : TxConfig) (txOps more : List TxOp) (h1 h : TxHist)
    (ht1 : ({ s := {} } : TxHist).run n (.init cfg :: txOps) = .ok h1) (ht : h1.run n more = .ok h)
    (hinv : ∀ c, .init c ∈ txOps ++ more → c.invert = cfg.invert) (hv : ∀ a ∈ h.acc, ValidPacket a.2)
    (seen : Bool) (before ts : List Nat)
    (hm : Measured (crossings none seen before (h.out.drop h1.out.length)) ts) (l : Link) (hl : l.Synced)
    (hb : l.bitCount = 0) :
    ∃ (gs : List (Spec.Segment × Packet)) (c : Spec.Segment × Packet) (rest : List Packet) (l' : Link)
      (os : List LinkOut) (i : Nat),
      h.out = (gs ++ [c]).flatMap (fun g => g.1.outs) ∧
      (∀ g ∈ gs ++ [c], g.1.Ok Spec.ValidConfig ∧
        ((g.1.frame = none ∧ g.2 = [0xFF#8, 0x00#8, 0xFF#8]) ∨
          ∃ c, (c, g.2) ∈ h.acc ∧ g.1.frame = some (Spec.packetWave c g.2))) ∧
      (∀ g ∈ gs, g.1.Complete Spec.ValidConfig) ∧
      h.acc.map (·.2) = ((gs ++ [c]).filter (·.1.frame.isSome)).map (·.2) ++ rest ∧
      rest.length = h.s.size n ∧ c.1.cut.length = h.s.bidiCount ∧
      l.run ts = .ok (l', os) ∧
      packetsOf os = (gs.map (·.2) ++ if c.1.cut.isEmpty then [] else [c.2]).drop i ∧
      (∀ m, m + 1 = i → (((gs ++ [c]).take m).flatMap fun g => g.1.outs).length + 14 ≤ h1.out.length) ∧
      (((gs ++ [c]).take i).filter (·.1.frame.isSome)).length + h1.s.size n ≤ h1.acc.length := by
  obtain ⟨⟨done1, cur1, i1⟩, -⟩ := station_inv n cfg txOps h1 ht1 fun c hx => hinv c (List.mem_append_left _ hx)
  have hall := TxHist.run_append (.init cfg :: txOps) more ht1
  rw [ht, List.cons_append] at hall
  have hvc := run_init_valid _ hall
  have hops : OpsConfig (fun c => Spec.ValidConfig c ∧ c.invert = cfg.invert) more :=
    fun c hx => ⟨hvc c (by simp [hx]), hinv c (List.mem_append_right _ hx)⟩
  obtain ⟨-, hstart⟩ := station_inv n cfg _ h hall hinv
  obtain ⟨done, cur, x, later, i2, hext, hxf, hxl⟩ := i1.run_extends more hops h ht
  obtain ⟨gs, c, rest, l', os, i, -, -, -, -, hp⟩ := inv_late i1 i2 hext hxf hxl hstart hv seen before ts hm l hl hb
  exact ⟨gs, c, rest, l', os, i, hp⟩

/-- The packets a receiver gets that begins to listen after some calls of `transmit`: it misses only requests of which
the transmission had begun. -/
theorem heard_late {C : Type} (pk : C → R Packet) (n : Nat) (cfg : TxConfig) (txOps more : List TxOp) (h1 h : TxHist)
    (ht1 : ({ s := {} } : TxHist).run n (.init cfg :: txOps) = .ok h1) (ht : h1.run n more = .ok h)
    (hinv : ∀ c, .init c ∈ txOps ++ more → c.invert = cfg.invert) (cmds : List C)
    (hc : ∀ c ∈ cmds, ∀ p, pk c = .ok p → ValidPacket p)
    (hacc : h.acc.map (fun a => Except.ok a.2) = cmds.map pk) (seen : Bool) (before ts : List Nat)
    (hm : Measured (crossings none seen before (h.out.drop h1.out.length)) ts) (l : Link) (hl : l.Synced)
    (hb : l.bitCount = 0) :
    ∃ (missed : List C) (items : List (Option C)) (unsent : List C) (l' : Link) (os : List LinkOut),
      l.run ts = .ok (l', os) ∧ items.map (sentAs pk) = (packetsOf os).map .ok ∧
      cmds = missed ++ items.filterMap id ++ unsent ∧ missed.length + h1.s.size n ≤ h1.acc.length ∧
      (unsent.length = h.s.size n ∨ unsent.length = h.s.size n + 1 ∧ h.s.bidiCount = 0) := by
  obtain ⟨gs, c, rest, l', os, i, -, hok, -, h2, hrest, hcut, h4, h5, -, h6⟩ := station_late n cfg txOps more h1 h ht1
    ht hinv (accepted_valid hc hacc) seen before ts hm l hl hb
  have hidle : ∀ g ∈ gs ++ [c], g.1.frame = none → g.2 = idleBytes := by
    intro g hg hn
    rcases (hok g hg).2 with ⟨_, hi⟩ | ⟨_, _, hs⟩
    · exact hi
    · rw [hn] at hs; cases hs
  have hsplit : cmds.map pk =
      ((gs ++ [c]).filter (·.1.frame.isSome)).map (fun g => .ok g.2) ++ rest.map .ok := by
    rw [← hacc]
    have := congrArg (List.map (Except.ok : Packet → R Packet)) h2
    simpa [List.map_map, Function.comp_def] using this
  -- the packets that ended, and the rest of the current one
  obtain ⟨sent, last, hsent, hheard, hlast⟩ : ∃ sent last, gs ++ [c] = sent ++ last ∧
      packetsOf os = (sent.map (·.2)).drop i ∧
      (last = [] ∨ last.length = 1 ∧ h.s.bidiCount = 0) := by
    by_cases hx : c.1.cut = []
    · exact ⟨gs, [c], rfl, by rw [h5, hx]; simp, .inr ⟨rfl, by rw [← hcut, hx]; rfl⟩⟩
    · refine ⟨gs ++ [c], [], by simp, ?_, .inl rfl⟩
      rw [h5]
      cases hy : c.1.cut
      · exact absurd hy hx
      · simp
  rw [hsent] at hsplit hidle h6
  have h7 : sent ++ last = sent.take i ++ sent.drop i ++ last := by rw [List.take_append_drop]
  rw [h7, List.filter_append, List.filter_append, List.map_append, List.map_append] at hsplit
  obtain ⟨cs, late, rfl, hcs, hlate⟩ := List.map_eq_append_iff.mp hsplit
  obtain ⟨cs12, cs3, rfl, hcs12, hcs3⟩ := List.map_eq_append_iff.mp hcs
  obtain ⟨cs1, cs2, rfl, hcs1, hcs2⟩ := List.map_eq_append_iff.mp hcs12
  obtain ⟨items, h8, h9⟩ := name_items pk (sent.drop i) cs2 hcs2 fun g hg => hidle g
    (List.mem_append_left _ (List.mem_of_mem_drop hg))
  refine ⟨cs1, items, cs3 ++ late, l', os, h4, ?_, ?_, ?_, ?_⟩
  · rw [h8, hheard, ← List.map_drop, List.map_map]; rfl
  · rw [h9]; simp
  · have h10 : cs1.length = ((sent.take i).filter (·.1.frame.isSome)).length := by
      have := congrArg List.length hcs1
      simpa using this
    have h11 : ((sent.take i).filter (·.1.frame.isSome)).length ≤
        (((sent ++ last).take i).filter (·.1.frame.isSome)).length := by
      rw [List.take_append, List.filter_append, List.length_append]
      omega
    omega
  · have h10 : late.length = h.s.size n := by
      have := congrArg List.length hlate
      simpa [hrest] using this
    have h11 : cs3.length ≤ last.length := by
      have := congrArg List.length hcs3
      simp only [List.length_map] at this
      rw [this]
      exact List.length_filter_le _ _
    rw [List.length_append, h10]
    rcases hlast with rfl | ⟨hl1, hb0⟩
    · rw [List.length_nil] at h11
      exact .inl (by omega)
    · by_cases h0 : cs3.length = 0
      · exact .inl (by omega)
      · exact .inr ⟨by omega, hb0⟩

/-- The segments of a history, those of a later one, and those of one later still. -/
theorem extends_trans {done1 done0 done later more : List Spec.Segment} {cur1 cur0 cur x y : Spec.Segment}
    (h1 : done0 ++ [cur0] = done1 ++ x :: later) (h2 : x.frame = cur1.frame) (h3 : cur1.outs.length ≤ x.outs.length)
    (h4 : done ++ [cur] = done0 ++ y :: more) (h5 : y.frame = cur0.frame) (h6 : cur0.outs.length ≤ y.outs.length) :
    done1.length ≤ done0.length ∧ ∃ z rest, done ++ [cur] = done1 ++ z :: rest ∧ z.frame = cur1.frame ∧
      cur1.outs.length ≤ z.outs.length := by
  rcases List.eq_nil_or_concat later with rfl | ⟨init, last, rfl⟩
  · obtain ⟨rfl, h7⟩ := List.append_inj' h1 rfl
    cases h7
    exact ⟨Nat.le_refl _, y, more, h4, h5.trans h2, Nat.le_trans h3 h6⟩
  · have h7 : done0 ++ [cur0] = (done1 ++ x :: init) ++ [last] := by rw [h1]; simp
    obtain ⟨rfl, h8⟩ := List.append_inj' h7 rfl
    cases h8
    exact ⟨by simp, x, init ++ y :: more, by rw [h4]; simp, h2, h3⟩

/-- As `heard_late`, from a station that has sent nothing but idle packets for a while. -/
theorem heard_late_settled {C : Type} (pk : C → R Packet) (n : Nat) (cfg : TxConfig) (txOps more : List TxOp)
    (h1 h0 h : TxHist) (ht1 : ({ s := {} } : TxHist).run n (.init cfg :: txOps) = .ok h1)
    (ht : h1.run n more = .ok h0) (m k : Nat) (hr : h0.run n (List.replicate m .transmit) = .ok h)
    (hm : (h0.s.size n + 1) * longest + k * idling < m)
    (hinv : ∀ c, .init c ∈ txOps ++ more → c.invert = cfg.invert) (cmds : List C)
    (hc : ∀ c ∈ cmds, ∀ p, pk c = .ok p → ValidPacket p)
    (hacc : h.acc.map (fun a => Except.ok a.2) = cmds.map pk) (seen : Bool) (before ts : List Nat)
    (hts : Measured (crossings none seen before (h.out.drop h1.out.length)) ts) (l : Link) (hl : l.Synced)
    (hb : l.bitCount = 0) :
    ∃ (missed : List C) (items : List (Option C)) (l' : Link) (os : List LinkOut) (front back : List Packet),
      l.run ts = .ok (l', os) ∧ items.map (sentAs pk) = (packetsOf os).map .ok ∧
      cmds = missed ++ items.filterMap id ∧ missed.length + h1.s.size n ≤ h1.acc.length ∧
      packetsOf os = front ++ back ∧ k ≤ back.length ∧ ∀ p ∈ back, p = idleBytes := by
  obtain ⟨⟨done1, cur1, i1⟩, -⟩ := station_inv n cfg txOps h1 ht1 fun c hx => hinv c (List.mem_append_left _ hx)
  have hall0 := TxHist.run_append (.init cfg :: txOps) more ht1
  rw [ht] at hall0
  have hvc := run_init_valid _ hall0
  have hops : OpsConfig (fun c => Spec.ValidConfig c ∧ c.invert = cfg.invert) more :=
    fun c hx => ⟨hvc c (by simp [hx]), hinv c (List.mem_append_right _ hx)⟩
  have hall := TxHist.run_append (.init cfg :: txOps ++ more) (List.replicate m .transmit) hall0
  rw [hr, List.cons_append, List.cons_append] at hall
  obtain ⟨-, hstart⟩ := station_inv n cfg (txOps ++ more ++ List.replicate m .transmit) h hall (by
    intro c hx
    rcases List.mem_append.mp hx with hx | hx
    · exact hinv c hx
    · cases List.eq_of_mem_replicate hx)
  obtain ⟨done0, cur0, x, later, i0, hext, hxf, hxl⟩ := i1.run_extends more hops h0 ht
  obtain ⟨done, cur, fr, bk, i2, hdone, hk, hnone, hq, -, hfr, y, rest', hext2, hyf, hyl⟩ :=
    i0.settled (fun _ h => h.1) m k hr hm
  obtain ⟨hlen, z, rest'', hext3, hzf, hzl⟩ := extends_trans hext hxf hxl hext2 hyf hyl
  obtain ⟨gs, c, rest, l', os, i, hgs, hcur, hi, -, -, hok, -, h2, hrest, -, h4, h5, -, h6⟩ := inv_late i1 i2 hext3 hzf hzl
    hstart (accepted_valid hc hacc) seen before ts hts l hl hb
  have hidle : ∀ g ∈ gs ++ [c], g.1.frame = none → g.2 = idleBytes := by
    intro g hg hn
    rcases (hok g hg).2 with ⟨_, hi⟩ | ⟨_, _, hs⟩
    · exact hi
    · rw [hn] at hs; cases hs
  have hcn : c.1.frame = none := by rw [hcur]; exact hnone cur (by simp)
  have hci : c.2 = idleBytes := hidle c (by simp) hcn
  have hrest : rest = [] := by
    rw [← Tx.queue_length, hq] at hrest
    exact List.length_eq_zero_iff.mp hrest
  rw [hrest, List.append_nil, List.filter_append, List.filter_cons_of_neg (by simp [hcn]), List.filter_nil,
    List.append_nil] at h2
  rw [hdone] at hgs
  obtain ⟨g1, g2, rfl, hg1, hg2⟩ := List.map_eq_append_iff.mp hgs
  have hg1l : g1.length = fr.length := by rw [← hg1, List.length_map]
  have hig : i ≤ g1.length := by omega
  have hg2l : g2.length = k := by rw [← hk, ← hg2, List.length_map]
  have hsplit : cmds.map pk = (((g1 ++ g2).take i).filter (·.1.frame.isSome)).map (fun g => .ok g.2) ++
      (((g1 ++ g2).drop i).filter (·.1.frame.isSome)).map (fun g => .ok g.2) := by
    rw [← List.map_append, ← List.filter_append, List.take_append_drop, ← hacc]
    have := congrArg (List.map (Except.ok : Packet → R Packet)) h2
    simpa [List.map_map, Function.comp_def] using this
  obtain ⟨cs1, cs2, rfl, hcs1, hcs2⟩ := List.map_eq_append_iff.mp hsplit
  obtain ⟨items, h8, h9⟩ := name_items pk ((g1 ++ g2).drop i) cs2 hcs2 fun g hg => hidle g
    (List.mem_append_left _ (List.mem_of_mem_drop hg))
  have hpk : packetsOf os = ((g1 ++ g2).drop i).map (·.2) ++ if c.1.cut.isEmpty then [] else [c.2] := by
    rw [h5, List.drop_append_of_le_length (by simp; omega), List.map_drop]
  refine ⟨cs1, items ++ (if c.1.cut.isEmpty then [] else [none]), l', os, (g1.drop i).map (·.2),
    g2.map (·.2) ++ (if c.1.cut.isEmpty then [] else [c.2]), h4, ?_, ?_, ?_, ?_, ?_, ?_⟩
  · rw [hpk, List.map_append, List.map_append, h8]
    split
    · simp [List.map_map, Function.comp_def]
    · simp [List.map_map, Function.comp_def, sentAs, hci]
  · rw [List.filterMap_append, h9]
    split <;> simp
  · have h10 : cs1.length = (((g1 ++ g2).take i).filter (·.1.frame.isSome)).length := by
      have := congrArg List.length hcs1
      simpa using this
    rw [List.take_append_of_le_length (by simp; omega)] at h6
    omega
  · rw [hpk, List.drop_append_of_le_length hig]
    simp
  · rw [List.length_append, List.length_map, hg2l]
    omega
  · intro p hp
    rcases List.mem_append.mp hp with hp | hp
    · obtain ⟨g, hg, rfl⟩ := List.mem_map.mp hp
      refine hidle g (by simp [hg]) (hnone _ ?_)
      rw [← hg2]
      exact List.mem_append_left _ (List.mem_map_of_mem hg)
    · split at hp
      · cases hp
      · rw [List.mem_singleton.mp hp, hci]

end Dcc
