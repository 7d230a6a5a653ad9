import Verif.Lemmas.RxSync
import Verif.Spec.Track
/-! A receiver that measures the time between the changes of the track signal. -/
namespace Dcc

open Spec (looks crossings MeasuredAs Measured)

/-! ### The assembly -/

/-- Only the kind of bit matters. -/
theorem Link.step_congr (l : Link) {t u : Nat} (h : time2bit t = time2bit u) : l.step t = l.step u := by
  simp only [Link.step, h]

/-- One duration while fewer than 20 half ones were received. -/
theorem run_noise (l : Link) (hs : l.Synced) (hb : l.bitCount < 20) (t : Nat) :
    ∃ l', l.run [t] = .ok (l', []) ∧ l'.Synced ∧ l'.bitCount ≤ l.bitCount + 1 := by
  obtain ⟨st, bc, by_, cs, ih, pe, pk⟩ := l
  obtain ⟨h1, h2, h3⟩ := hs
  simp only at h1 h2 h3 hb
  subst h1 h2 h3
  cases ht : time2bit t
  all_goals
    simp [Link.run, Link.step, ht, LinkState.halves, Link.bit, hb, Link.reset]
  all_goals
    first
    | exact ⟨⟨rfl, rfl, rfl⟩, by simp⟩
    | exact ⟨rfl, rfl, rfl⟩

/-- A packet without its first half bit, up to its last half bit. -/
theorem run_tail_init (cfg : TxConfig) (h : Spec.ValidConfig cfg) (p : Packet) (hp : ValidPacket p) :
    ∃ w, Spec.packetWave cfg p = cfg.bit1.toNat :: (w ++ [cfg.bit1.toNat]) ∧ w ≠ [] ∧
      ∀ l : Link, l.Synced → l.run w = .ok (Link.beforeEnd p, [.start]) := by
  obtain _ | ⟨b, bs⟩ := p
  · have := hp.min; simp at this
  have hv := h.1
  obtain ⟨m, hm⟩ : ∃ m, 2 * cfg.numPreamble.toNat = (m + 20) + 1 :=
    ⟨2 * cfg.numPreamble.toNat - 21, by omega⟩
  refine ⟨List.replicate (m + 20) cfg.bit1.toNat ++ (Spec.wave cfg [false] ++
        (Spec.wave cfg (Spec.byteBits b) ++
          (Spec.wave cfg (bs.flatMap (fun b => false :: Spec.byteBits b)) ++ [cfg.bit1.toNat]))), ?_,
    by simp, ?_⟩
  · rw [packetWave_split, wave_half_ones, hm, List.replicate_succ]
    simp
  · intro l hs
    obtain ⟨l1, h1, h2, h3⟩ := run_half_ones (m + 20) l cfg h hs
    refine Link.run_append_nil _ _ h1 ?_
    refine Link.run_append_ok (ps' := []) _ _ (run_start _ cfg h h2.state (by omega)) ?_
    refine Link.run_append_nil _ _ (run_byte _ cfg h b rfl rfl rfl rfl h2.byte (by simp [maxPacketSize])) ?_
    have hm := hp.max
    refine Link.run_append_nil _ _ (run_bytes bs _ cfg h rfl rfl rfl rfl h2.byte
      (by simp at hm ⊢; omega)) ?_
    rw [run_end_half _ cfg h rfl rfl]
    have hx := hp.sum
    rw [exor_cons] at hx
    simp [Link.beforeEnd, h2.checksum, h2.byte, hx]

/-- The last half bit. -/
theorem run_last (p : Packet) (hp : ValidPacket p) (t : Nat) (ht : time2bit t = .b1) :
    (Link.beforeEnd p).run [t] = .ok (Link.after p, [.packet p]) := by
  have := run_end_last (Link.beforeEnd p) {} (by simp [Spec.ValidConfig]) rfl rfl rfl hp.min
  rw [Link.run, Link.step_congr (u := (58#8).toNat) _ (by rw [ht]; rfl)]
  exact this

/-! ### What is measured -/

theorem Measured.append {g1 g2 : List (List Nat)} : ∀ {ts : List Nat}, Measured (g1 ++ g2) ts →
    ∃ t1 t2, ts = t1 ++ t2 ∧ Measured g1 t1 ∧ Measured g2 t2 := by
  induction g1 with
  | nil => intro ts h; exact ⟨[], ts, rfl, trivial, h⟩
  | cons g gs ih =>
    intro ts h
    cases ts with
    | nil => exact h.elim
    | cons t ts =>
      obtain ⟨t1, t2, rfl, h1, h2⟩ := ih h.2
      exact ⟨t :: t1, t2, rfl, ⟨h.1, h1⟩, h2⟩

/-- The half bits of valid packets. -/
def IsHalf (d : Nat) : Prop := (56 ≤ d ∧ d ≤ 60) ∨ (97 ≤ d ∧ d ≤ 114)

theorem measured_bit {d t : Nat} (hd : IsHalf d) (h : MeasuredAs [d] t) : time2bit t = time2bit d := by
  rcases hd with hd | hd
  · have := h.1 hd
    have h1 : ∀ x, 52 ≤ x → x ≤ 64 → time2bit x = .b1 := fun x h1 h2 => if_pos ⟨h1, h2⟩
    rw [h1 t this.1 this.2, h1 d (by omega) (by omega)]
  · have := h.2 hd
    have h0 : ∀ x, 90 ≤ x → x ≤ 10000 → time2bit x = .b0 := by
      intro x h1 h2
      unfold time2bit
      rw [if_neg (by omega), if_pos ⟨h1, h2⟩]
    rw [h0 t this.1 this.2, h0 d (by omega) (by omega)]

theorem wave_halves (cfg : TxConfig) (h : Spec.ValidConfig cfg) (bits : List Bool) :
    ∀ d ∈ Spec.wave cfg bits, IsHalf d := by
  intro d hd
  obtain ⟨b, _, hb⟩ := List.mem_flatMap.mp hd
  obtain ⟨_, _, h1, h2, h3, h4⟩ := h
  cases b <;> simp only [Bool.false_eq_true, if_false, if_true, List.mem_cons, List.not_mem_nil,
    or_false, or_self] at hb <;> subst hb
  · exact .inr ⟨h3, h4⟩
  · exact .inl ⟨h1, h2⟩

/-- Half bits measured within their limits do the same. -/
theorem measured_run (ds : List Nat) : ∀ (ts : List Nat) (l : Link), (∀ d ∈ ds, IsHalf d) →
    Measured (ds.map ([·])) ts → l.run ts = l.run ds := by
  induction ds with
  | nil =>
    intro ts l _ h
    cases ts with
    | nil => rfl
    | cons => exact h.elim
  | cons d ds ih =>
    intro ts l hd h
    cases ts with
    | nil => exact h.elim
    | cons t ts =>
      rw [Link.run, Link.run, Link.step_congr l (measured_bit (hd d (by simp)) h.1)]
      have := fun l => ih ts l (fun x hx => hd x (by simp [hx])) h.2
      simp only [this]

/-! ### The changes -/

/-- What an input sees at the end, and the time since the last change. -/
def crossEnd (off : Option Bool) (seen : Bool) (acc : List Nat) : List TxOut → Bool × List Nat
  | [] => (seen, acc)
  | o :: os =>
    if looks off seen o = seen then crossEnd off seen (acc ++ [o.duration]) os
    else crossEnd off (looks off seen o) [o.duration] os

theorem crossings_append (off : Option Bool) (as bs : List TxOut) : ∀ (seen : Bool) (acc : List Nat),
    crossings off seen acc (as ++ bs) = crossings off seen acc as ++
      crossings off (crossEnd off seen acc as).1 (crossEnd off seen acc as).2 bs := by
  induction as with
  | nil => intro _ _; rfl
  | cons o os ih =>
    intro seen acc
    simp only [List.cons_append, crossings, crossEnd]
    split
    · exact ih _ _
    · rw [ih]; rfl

theorem crossEnd_append (off : Option Bool) (as bs : List TxOut) : ∀ (seen : Bool) (acc : List Nat),
    crossEnd off seen acc (as ++ bs) =
      crossEnd off (crossEnd off seen acc as).1 (crossEnd off seen acc as).2 bs := by
  induction as with
  | nil => intro _ _; rfl
  | cons o os ih =>
    intro seen acc
    simp only [List.cons_append, crossEnd]
    split <;> exact ih _ _

/-- Half bit `i` of a packet looks like its polarity. -/
theorem looks_half (off : Option Bool) (seen : Bool) (c : TxConfig) (i d : Nat) :
    looks off seen (Spec.halfOut c i d) = (c.invert ^^ (i % 2 == 0)) := by
  unfold Spec.halfOut
  split
  · rename_i h
    cases hi : c.invert <;> simp [looks, h]
  · rename_i h
    have h : i % 2 = 1 := by omega
    cases hi : c.invert <;> simp [looks, h]

/-- Half bits from number `i` on, all of the same orientation. -/
def HalvesFrom (inv : Bool) : Nat → List TxOut → Prop
  | _, [] => True
  | i, o :: os => (∃ c d, c.invert = inv ∧ o = Spec.halfOut c i d) ∧ HalvesFrom inv (i + 1) os

theorem duration_half (c : TxConfig) (i d : Nat) : (Spec.halfOut c i d).duration = d := by
  unfold Spec.halfOut; split <;> rfl

/-- Every half bit but the first one ends the one before. -/
theorem cross_halves (off : Option Bool) (inv : Bool) (hs : List TxOut) : ∀ (i : Nat) (seen : Bool)
    (acc : List Nat), HalvesFrom inv i hs → seen = (inv ^^ (i % 2 == 1)) →
    crossings off seen acc hs ++ [(crossEnd off seen acc hs).2] = acc :: hs.map (fun o => [o.duration]) ∧
    (crossEnd off seen acc hs).1 = (inv ^^ ((i + hs.length) % 2 == 1)) := by
  induction hs with
  | nil => intro i seen acc _ h; exact ⟨rfl, h⟩
  | cons o os ih =>
    intro i seen acc hf hseen
    obtain ⟨⟨c, d, hc, rfl⟩, hf⟩ := hf
    have hl : looks off seen (Spec.halfOut c i d) = (inv ^^ ((i + 1) % 2 == 1)) := by
      rw [looks_half, hc]
      have : (i % 2 == 0) = ((i + 1) % 2 == 1) := by
        rcases Nat.mod_two_eq_zero_or_one i with h | h <;> simp [h] <;> omega
      rw [this]
    have hne : ¬ looks off seen (Spec.halfOut c i d) = seen := by
      rw [hl, hseen]
      rcases Nat.mod_two_eq_zero_or_one i with h | h
      · have : (i + 1) % 2 = 1 := by omega
        simp [h, this]
      · have : (i + 1) % 2 = 0 := by omega
        simp [h, this]
    obtain ⟨h1, h2⟩ := ih (i + 1) _ [(Spec.halfOut c i d).duration] hf hl
    simp only [crossings, crossEnd, if_neg hne]
    refine ⟨?_, ?_⟩
    · rw [List.cons_append, h1]; rfl
    · rw [h2, List.length_cons]
      have : i + 1 + os.length = i + (os.length + 1) := by omega
      rw [this]

/-- The calls of `transmit` of a cutout, or the first ones of them. -/
theorem cut_looks {P : TxConfig → Prop} {g : Spec.Segment} {inv : Bool} (hP : ∀ c, P c → c.invert = inv)
    (h : g.Ok P) (hne : g.cut ≠ []) : ∃ d rest, g.cut = d :: rest ∧ (∀ off seen, looks off seen d = !inv) ∧
      ∀ off seen acc, (crossings off seen acc rest).length ≤ 1 := by
  have hget := h.cut_eq
  have hle := h.cut_le
  cases hcut : g.cut with
  | nil => exact absurd hcut hne
  | cons d rest =>
    rw [hcut] at hget hle
    refine ⟨d, rest, rfl, ?_, ?_⟩
    · obtain ⟨c, hc, _, hd⟩ := hget 0 d rfl
      have : d = ⟨29, [.trackOutputs c.invert (!c.invert)]⟩ := by
        simpa [Spec.cutOut] using hd.symm
      intro off seen
      rw [this, hP c hc]
      cases inv <;> rfl
    · have key : ∀ (off : Option Bool) (os : List TxOut), (∀ o ∈ os, ∀ seen, looks off seen o = seen) →
          ∀ seen acc, crossings off seen acc os = [] := by
        intro off os
        induction os with
        | nil => intro _ _ _; rfl
        | cons o os ih =>
          intro ho seen acc
          rw [crossings, if_pos (ho o (by simp) seen)]
          exact ih (fun x hx => ho x (by simp [hx])) _ _
      intro off seen acc
      cases rest with
      | nil => simp [crossings]
      | cons o os =>
        have hos : ∀ x ∈ os, ∀ seen, looks off seen x = seen := by
          intro x hx seen
          obtain ⟨j, hj, rfl⟩ := List.getElem_of_mem hx
          obtain ⟨c, _, _, hd⟩ := hget (j + 2) os[j] (by simp [hj])
          simp only [List.length_cons] at hle
          have : j = 0 ∨ j = 1 ∨ j = 2 := by omega
          rcases this with rfl | rfl | rfl <;>
            · simp only [Spec.cutOut, List.getElem?_cons_succ, List.getElem?_cons_zero, Option.some.injEq] at hd
              rw [← hd]; rfl
        rw [crossings]
        split
        · simp [key off os hos]
        · simp [key off os hos]

/-! ### Segments -/

/-- Between two packets: either the last half bit of the packet before is over and the assembly waits
for a preamble, or the last half bit is still to be measured.  One more half one is allowed if the first half
bit of the next packet does not end an interval. -/
inductive Between (inv : Bool) : Link → Bool → List Nat → List Packet → Prop
  | idle {l seen acc} : l.Synced → l.bitCount ≤ 18 → Between inv l seen acc []
  | same {l acc} : l.Synced → l.bitCount ≤ 19 → Between inv l (!inv) acc []
  | pend {p d} : ValidPacket p → 56 ≤ d ∧ d ≤ 60 → Between inv (Link.beforeEnd p) inv [d] [p]

/-- The first half bit. -/
theorem hear_first {inv l seen acc ps} (h : Between inv l seen acc ps) (off : Option Bool) (c : TxConfig)
    (hc : c.invert = inv) (d : Nat) (ts : List Nat)
    (ht : Measured (crossings off seen acc [Spec.halfOut c 0 d]) ts) :
    ∃ l' os, l.run ts = .ok (l', os) ∧ packetsOf os = ps ∧ l'.Synced ∧ l'.bitCount ≤ 19 ∧
      (crossEnd off seen acc [Spec.halfOut c 0 d]).1 = !inv ∧ .bad ∉ os := by
  have hl : looks off seen (Spec.halfOut c 0 d) = !inv := by rw [looks_half, hc]; simp
  simp only [crossings, crossEnd] at ht ⊢
  by_cases hs : looks off seen (Spec.halfOut c 0 d) = seen
  · rw [if_pos hs] at ht ⊢
    cases ts with
    | cons => exact ht.elim
    | nil =>
      cases h with
      | idle h1 h2 => exact ⟨l, [], rfl, rfl, h1, by omega, by rw [← hl, hs], by simp⟩
      | same h1 h2 => exact ⟨l, [], rfl, rfl, h1, h2, rfl, by simp⟩
      | pend => rw [hl] at hs; cases inv <;> cases hs
  · rw [if_neg hs] at ht ⊢
    cases ts with
    | nil => exact ht.elim
    | cons t ts =>
      cases ts with
      | cons => exact ht.2.elim
      | nil =>
        cases h with
        | idle h1 h2 =>
          obtain ⟨l', h3, h4, h5⟩ := run_noise l h1 (by omega) t
          exact ⟨l', [], h3, rfl, h4, by omega, hl, by simp⟩
        | same => exact absurd hl hs
        | pend h1 h2 =>
          refine ⟨_, _, run_last _ h1 t ?_, rfl, Link.synced_after _, by simp [Link.after], hl, by simp⟩
          rw [measured_bit (.inl h2) ht.1]
          exact if_pos ⟨by omega, by omega⟩

/-- The half bits of a packet behind the first one, as far as they were sent. -/
theorem hear_rest {inv : Bool} {l : Link} (hl : l.Synced) (hb : l.bitCount ≤ 19) (off : Option Bool)
    (acc : List Nat) (cfg : TxConfig) (p : Packet) (w : List Nat)
    (hrun : ∀ l : Link, l.Synced → l.run w = .ok (Link.beforeEnd p, [.start]))
    (hw : ∀ d ∈ w, IsHalf d) (hs : List TxOut) (hf : HalvesFrom inv 1 hs)
    (hd : hs.map (·.duration) = (w ++ [cfg.bit1.toNat]).take hs.length) (ts : List Nat)
    (ht : Measured (crossings off (!inv) acc hs) ts) :
    ∃ l' os, l.run ts = .ok (l', os) ∧ packetsOf os = [] ∧
      (hs.length = w.length + 1 → l' = Link.beforeEnd p ∧
        (crossEnd off (!inv) acc hs).2 = [cfg.bit1.toNat]) ∧ .bad ∉ os := by
  obtain ⟨h1, -⟩ := cross_halves off inv hs 1 (!inv) acc hf (by simp)
  have hmap : hs.map (fun o => [o.duration]) = (hs.map (·.duration)).map ([·]) := by
    rw [List.map_map]; rfl
  rw [hmap, hd] at h1
  cases hs with
  | nil =>
    cases ts with
    | cons => exact ht.elim
    | nil => exact ⟨l, [], rfl, rfl, by simp, by simp⟩
  | cons o os =>
    generalize ho : o :: os = hs at *
    have hlen : hs.length = os.length + 1 := by rw [← ho]; rfl
    have hle : os.length ≤ w.length := by
      have := congrArg List.length hd
      simp only [List.length_map, List.length_take, List.length_append, List.length_cons,
        List.length_nil] at this
      omega
    have hsplit : (w ++ [cfg.bit1.toNat]).take hs.length = w.take os.length ++
        [(w ++ [cfg.bit1.toNat])[os.length]'(by simp; omega)] := by
      rw [hlen, List.take_add_one, List.getElem?_eq_getElem (by simp; omega),
        List.take_append_of_le_length hle]
      rfl
    rw [hsplit, List.map_append, ← List.cons_append] at h1
    obtain ⟨h2, h3⟩ := List.append_inj' h1 (by simp)
    rw [h2] at ht
    cases ts with
    | nil => exact ht.elim
    | cons t ts =>
      obtain ⟨l1, h4, h5, _⟩ := run_noise l hl (by omega) t
      have h6 := hrun l1 h5
      rw [← List.take_append_drop os.length w] at h6
      obtain ⟨l2, q1, q2, h7, h8, h9⟩ := Link.run_prefix _ _ h6
      have h10 := measured_run _ ts l1 (fun d hd => hw d (List.mem_of_mem_take hd)) ht.2
      refine ⟨l2, q1, Link.run_append_nil [t] ts h4 (by rw [h10, h7]), ?_, ?_, fun hx => ?_⟩
      rotate_right
      · have : LinkOut.bad ∈ [LinkOut.start] := by rw [h9]; exact List.mem_append_left _ hx
        simp at this
      · have h11 : packetsOf [LinkOut.start] = packetsOf q1 ++ packetsOf q2 := by
          rw [h9]; simp [packetsOf]
        exact (List.append_eq_nil_iff.mp h11.symm).1
      · intro hfull
        have hk : os.length = w.length := by omega
        rw [hk, List.drop_length] at h8
        cases h8
        refine ⟨rfl, ?_⟩
        have := List.cons.inj h3
        rw [this.1]
        simp [hk]

theorem packetWave_even (cfg : TxConfig) (p : Packet) : (Spec.packetWave cfg p).length % 2 = 0 := by
  have : ∀ bits, (Spec.wave cfg bits).length % 2 = 0 := by
    intro bits
    induction bits with
    | nil => rfl
    | cons b bits ih =>
      rw [wave_cons, List.length_append]
      cases b <;> simp [Spec.wave] at ih ⊢ <;> omega
  exact this _

theorem halves_from {P : TxConfig → Prop} {inv : Bool} (hP : ∀ c, P c → c.invert = inv) (hs : List TxOut) :
    ∀ (i : Nat) (wave : List Nat), (∀ (j : Nat) o, hs[j]? = some o →
      ∃ c d, P c ∧ wave[i + j]? = some d ∧ o = Spec.halfOut c (i + j) d) → HalvesFrom inv i hs := by
  induction hs with
  | nil => intro _ _ _; trivial
  | cons o os ih =>
    intro i wave h
    obtain ⟨c, d, h1, _, h3⟩ := h 0 o rfl
    refine ⟨⟨c, d, hP c h1, h3⟩, ih (i + 1) wave ?_⟩
    intro j o hj
    obtain ⟨c, d, h4, h5, h6⟩ := h (j + 1) o (by simpa using hj)
    have : i + (j + 1) = i + 1 + j := by omega
    rw [this] at h5 h6
    exact ⟨c, d, h4, h5, h6⟩

/-- What was sent of the half bits of a packet. -/
theorem hear_halves {P : TxConfig → Prop} {inv : Bool} (hP : ∀ c, P c → c.invert = inv)
    {g : Spec.Segment} (h : g.Ok P) {p : Packet} (hcar : Carries g p) (hne : g.halves ≠ [])
    {l seen acc ps} (hb : Between inv l seen acc ps) (off : Option Bool) (ts : List Nat)
    (ht : Measured (crossings off seen acc g.halves) ts) :
    ∃ l' os, l.run ts = .ok (l', os) ∧ packetsOf os = ps ∧
      (g.halves.length = g.wave.length → ∃ d, Between inv l' (crossEnd off seen acc g.halves).1
        (crossEnd off seen acc g.halves).2 [p] ∧ l' = Link.beforeEnd p ∧
        (crossEnd off seen acc g.halves) = (inv, [d]) ∧ 56 ≤ d ∧ d ≤ 60) ∧ .bad ∉ os := by
  obtain ⟨cfg, hcfg, hp, hwave⟩ := hcar
  obtain ⟨w, hw, _, hrun⟩ := run_tail_init cfg hcfg p hp
  have hhalf : ∀ d ∈ g.wave, IsHalf d := by rw [hwave]; exact wave_halves cfg hcfg _
  have heven : g.wave.length % 2 = 0 := by rw [hwave]; exact packetWave_even cfg p
  have hf := halves_from hP g.halves 0 g.wave (by simpa using h.halves_eq)
  have htimes := halves_times h
  cases hh : g.halves with
  | nil => exact absurd hh hne
  | cons o os =>
    rw [hh] at hf htimes ht
    obtain ⟨⟨c, d, hc, rfl⟩, hf⟩ := hf
    rw [hwave, hw] at htimes hhalf heven ⊢
    rw [show Spec.halfOut c 0 d :: os = [Spec.halfOut c 0 d] ++ os from rfl, crossings_append] at ht
    obtain ⟨t1, t2, rfl, h1, h2⟩ := Measured.append ht
    obtain ⟨l1, os1, h3, h4, h5, h6, h7, hb1⟩ := hear_first hb off c hc d t1 h1
    rw [h7] at h2
    simp only [List.map_cons, List.length_cons, List.take_succ_cons, List.cons.injEq] at htimes
    obtain ⟨l2, os2, h8, h9, h10, hb2⟩ := hear_rest h5 h6 off _ cfg p w hrun
      (fun x hx => hhalf x (by simp [hx])) os hf htimes.2 t2 h2
    refine ⟨l2, os1 ++ os2, Link.run_append_ok _ _ h3 h8, by
      simp only [packetsOf, List.filterMap_append] at h4 h9 ⊢
      rw [h4, h9, List.append_nil], ?_, by simp [hb1, hb2]⟩
    intro hfull
    simp only [List.length_cons, List.length_append, List.length_nil, Nat.zero_add] at hfull heven
    obtain ⟨h11, h12⟩ := h10 (by omega)
    have h13 := (cross_halves off inv os 1 (!inv) (crossEnd off seen acc [Spec.halfOut c 0 d]).2 hf (by simp)).2
    have h14 : (1 + os.length) % 2 = 0 := by omega
    rw [h14] at h13
    have hone : 56 ≤ cfg.bit1.toNat ∧ cfg.bit1.toNat ≤ 60 := ⟨hcfg.2.2.1, hcfg.2.2.2.1⟩
    have hend : crossEnd off seen acc (Spec.halfOut c 0 d :: os) = (inv, [cfg.bit1.toNat]) := by
      rw [show Spec.halfOut c 0 d :: os = [Spec.halfOut c 0 d] ++ os from rfl, crossEnd_append, h7]
      exact Prod.ext (by simpa using h13) h12
    refine ⟨cfg.bit1.toNat, ?_, h11, hend, hone⟩
    rw [hend, h11]
    exact .pend hp hone

/-- The cutout, as far as it was sent. -/
theorem hear_cut {P : TxConfig → Prop} {inv : Bool} (hP : ∀ c, P c → c.invert = inv) {g : Spec.Segment}
    (h : g.Ok P) (hne : g.cut ≠ []) {p : Packet} (hp : ValidPacket p) {d : Nat} (hd : 56 ≤ d ∧ d ≤ 60)
    (off : Option Bool) (ts : List Nat) (ht : Measured (crossings off inv [d] g.cut) ts) :
    ∃ l' os, (Link.beforeEnd p).run ts = .ok (l', os) ∧ packetsOf os = [p] ∧ l'.Synced ∧
      l'.bitCount ≤ 18 ∧ .bad ∉ os := by
  obtain ⟨o, rest, h1, h2, h3⟩ := cut_looks hP h hne
  have hlen := h3 off (!inv) [o.duration]
  rw [h1, crossings, h2, if_neg (by cases inv <;> simp)] at ht
  generalize crossings off (!inv) [o.duration] rest = gs at *
  cases ts with
  | nil => exact ht.elim
  | cons t ts =>
    have h4 := run_last p hp t (by rw [measured_bit (.inl hd) ht.1]; exact if_pos ⟨by omega, by omega⟩)
    cases gs with
    | nil =>
      cases ts with
      | nil => exact ⟨_, _, h4, rfl, Link.synced_after p, by simp [Link.after], by simp⟩
      | cons => exact ht.2.elim
    | cons g gs =>
      cases gs with
      | cons => simp at hlen
      | nil =>
        cases ts with
        | nil => exact ht.2.elim
        | cons u ts =>
          cases ts with
          | cons => exact ht.2.2.elim
          | nil =>
            obtain ⟨l', h5, h6, h7⟩ := run_noise _ (Link.synced_after p) (by simp [Link.after]) u
            refine ⟨l', _, Link.run_append_ok [t] [u] h4 h5, rfl, h6, ?_, by simp⟩
            simp only [Link.after] at h7
            omega

/-- A packet whose half bits were all sent. -/
theorem hear_whole {P : TxConfig → Prop} {inv : Bool} (hP : ∀ c, P c → c.invert = inv)
    {g : Spec.Segment} (h : g.Ok P) {p : Packet} (hcar : Carries g p)
    (hfull : g.halves.length = g.wave.length) {l seen acc ps} (hb : Between inv l seen acc ps)
    (off : Option Bool) (ts : List Nat) (ht : Measured (crossings off seen acc g.outs) ts) :
    ∃ l' os ps', l.run ts = .ok (l', os) ∧
      Between inv l' (crossEnd off seen acc g.outs).1 (crossEnd off seen acc g.outs).2 ps' ∧
      packetsOf os ++ ps' = ps ++ [p] ∧ (g.cut ≠ [] → ps' = []) ∧ .bad ∉ os := by
  have hpos : g.halves ≠ [] := by
    intro hn
    obtain ⟨cfg, hcfg, hp, hw⟩ := hcar
    obtain ⟨w, hw', _⟩ := run_tail_init cfg hcfg p hp
    rw [hn, hw, hw'] at hfull
    simp at hfull
  have hp : ValidPacket p := hcar.elim fun _ hx => hx.2.1
  rw [Spec.Segment.outs, crossings_append] at ht
  rw [Spec.Segment.outs, crossEnd_append]
  obtain ⟨t1, t2, rfl, h1, h2⟩ := Measured.append ht
  obtain ⟨l1, os1, h3, h4, h5, hb1⟩ := hear_halves hP h hcar hpos hb off t1 h1
  obtain ⟨d, h6, h7, h8, h9⟩ := h5 hfull
  by_cases hc : g.cut = []
  · rw [hc] at h2 ⊢
    cases t2 with
    | cons => exact h2.elim
    | nil =>
      rw [List.append_nil]
      exact ⟨l1, os1, [p], h3, h6, by rw [h4], fun hx => absurd rfl hx, hb1⟩
  · rw [h8] at h2
    subst h7
    obtain ⟨l2, os2, h10, h11, h12, h13, hb2⟩ := hear_cut hP h hc hp h9 off t2 h2
    refine ⟨l2, os1 ++ os2, [], Link.run_append_ok _ _ h3 h10, .idle h12 h13, ?_, fun _ => rfl,
      by simp [hb1, hb2]⟩
    simp only [packetsOf, List.filterMap_append] at h4 h11 ⊢
    rw [h4, h11, List.append_nil]

/-- Everything a command station sends. -/
theorem hear_segments {P : TxConfig → Prop} {inv : Bool} (hP : ∀ c, P c → c.invert = inv)
    (off : Option Bool) (cur : Spec.Segment × Packet) (gs : List (Spec.Segment × Packet)) :
    ∀ {l seen acc ps}, Between inv l seen acc ps →
    (∀ g ∈ gs ++ [cur], g.1.Ok P ∧ Carries g.1 g.2) →
    (∀ g ∈ gs, g.1.halves.length = g.1.wave.length) → cur.1.halves ≠ [] →
    ∀ ts, Measured (crossings off seen acc ((gs ++ [cur]).flatMap fun g => g.1.outs)) ts →
    ∃ l' os, l.run ts = .ok (l', os) ∧
      packetsOf os = ps ++ gs.map (·.2) ++ (if cur.1.cut = [] then [] else [cur.2]) ∧ .bad ∉ os := by
  induction gs with
  | nil =>
    intro l seen acc ps hb hok _ hne ts ht
    obtain ⟨h1, h2⟩ := hok cur (by simp)
    simp only [List.nil_append, List.flatMap_cons, List.flatMap_nil, List.append_nil] at ht
    by_cases hc : cur.1.cut = []
    · rw [Spec.Segment.outs, hc, List.append_nil] at ht
      obtain ⟨l', os, h3, h4, _, hb1⟩ := hear_halves hP h1 h2 hne hb off ts ht
      exact ⟨l', os, h3, by simp [h4, hc], hb1⟩
    · obtain ⟨l', os, ps', h3, _, h4, h5, hb1⟩ := hear_whole hP h1 h2 (h1.cut_after hc) hb off ts ht
      refine ⟨l', os, h3, ?_, hb1⟩
      rw [h5 hc, List.append_nil] at h4
      simp [h4, hc]
  | cons g gs ih =>
    intro l seen acc ps hb hok hcomp hne ts ht
    obtain ⟨h1, h2⟩ := hok g (by simp)
    rw [List.cons_append, List.flatMap_cons, crossings_append] at ht
    obtain ⟨t1, t2, rfl, h3, h4⟩ := Measured.append ht
    obtain ⟨l1, os1, ps1, h5, h6, h7, _, hb1⟩ := hear_whole hP h1 h2 (hcomp g (by simp)) hb off t1 h3
    obtain ⟨l2, os2, h8, h9, hb2⟩ := ih h6 (fun x hx => hok x (by simp at hx ⊢; exact .inr hx))
      (fun x hx => hcomp x (by simp [hx])) hne t2 h4
    refine ⟨l2, os1 ++ os2, Link.run_append_ok _ _ h5 h8, ?_, by simp [hb1, hb2]⟩
    have : packetsOf (os1 ++ os2) = packetsOf os1 ++ packetsOf os2 := by simp [packetsOf]
    rw [this, h9, ← List.append_assoc, ← List.append_assoc, h7]
    simp

/-- What a command station that does not change its orientation puts on the track. -/
theorem inv_parts {n : Nat} {inv : Bool} {h : TxHist} {done : List Spec.Segment} {cur : Spec.Segment}
    (i : TxInv n (fun c => Spec.ValidConfig c ∧ c.invert = inv) h done cur)
    (hstart : h.out ≠ [] → 0 < h.s.packetCount) (hv : ∀ a ∈ h.acc, ValidPacket a.2) :
    ∃ (gs : List (Spec.Segment × Packet)) (c : Spec.Segment × Packet) (rest : List Packet),
      gs.map (·.1) = done ∧ c.1 = cur ∧
      h.out = (gs ++ [c]).flatMap (fun g => g.1.outs) ∧
      (∀ g ∈ gs ++ [c], g.1.Ok (fun c => Spec.ValidConfig c ∧ c.invert = inv) ∧ Carries g.1 g.2 ∧
        ((g.1.frame = none ∧ g.2 = [0xFF#8, 0x00#8, 0xFF#8]) ∨
          ∃ c, (c, g.2) ∈ h.acc ∧ g.1.frame = some (Spec.packetWave c g.2))) ∧
      (∀ g ∈ gs, g.1.Complete (fun c => Spec.ValidConfig c ∧ c.invert = inv)) ∧
      h.acc.map (·.2) = ((gs ++ [c]).filter (·.1.frame.isSome)).map (·.2) ++ rest ∧
      rest.length = h.s.size n ∧ c.1.cut.length = h.s.bidiCount ∧
      (c.1.halves = [] → h.out = [] ∧ gs = [] ∧ c.1.cut = []) := by
  obtain ⟨gs, c, rest, hout, hok, hcomp, hcur, hdone, h2, hrest⟩ := inv_track (fun _ h => h.1) i hv
  have hpos : ∀ g ∈ gs ++ [c], 0 < g.1.wave.length := by
    intro g hg
    obtain ⟨cf, hcf, hp, hw⟩ := (hok g hg).2.1
    obtain ⟨w, hw', _⟩ := run_tail_init cf hcf g.2 hp
    rw [hw, hw']; simp
  refine ⟨gs, c, rest, hdone, hcur, hout, hok, hcomp, h2, hrest, by rw [hcur]; exact i.cur_cut, fun hne => ?_⟩
  have hcut : c.1.cut = [] := by
    refine Classical.byContradiction fun hx => ?_
    have := (hok c (by simp)).1.cut_after hx
    have := hpos c (by simp)
    rw [hne] at *
    simp_all
  have h0 : h.s.packetCount = 0 := by rw [← i.cur_halves, ← hcur, hne]; rfl
  have ho : h.out = [] := Classical.byContradiction fun hx => by
    have := hstart hx
    omega
  refine ⟨ho, ?_, hcut⟩
  cases gs with
  | nil => rfl
  | cons g gs =>
    rw [ho] at hout
    have h3 := hcomp g (by simp)
    have h4 := hpos g (by simp)
    simp only [List.cons_append, List.flatMap_cons, Spec.Segment.outs] at hout
    have h5 : g.1.halves = [] := by
      have := (List.append_eq_nil_iff.mp (List.append_eq_nil_iff.mp hout.symm).1).1
      exact this
    have := h3.halves
    rw [h5] at this
    simp only [List.length_nil] at this
    omega

/-- The invariant of a command station that does not change its orientation. -/
theorem station_inv (n : Nat) (cfg : TxConfig) (txOps : List TxOp) (h : TxHist)
    (ht : ({ s := {} } : TxHist).run n (.init cfg :: txOps) = .ok h)
    (hinv : ∀ c, .init c ∈ txOps → c.invert = cfg.invert) :
    (∃ done cur, TxInv n (fun c => Spec.ValidConfig c ∧ c.invert = cfg.invert) h done cur) ∧
      (h.out ≠ [] → 0 < h.s.packetCount) := by
  have hvc := run_init_valid _ ht
  have hops : OpsConfig (fun c => Spec.ValidConfig c ∧ c.invert = cfg.invert) txOps :=
    fun c hm => ⟨hvc c (by simp [hm]), hinv c hm⟩
  obtain ⟨done0, cur0, i0⟩ := TxInv.initial n Spec.ValidConfig {} (by simp [Spec.ValidConfig])
    |> fun i => (⟨_, _, i⟩ : ∃ d c, TxInv n Spec.ValidConfig _ d c)
  exact ⟨TxInv.reachable_init (P := fun c => Spec.ValidConfig c ∧ c.invert = cfg.invert) cfg
    ⟨hvc cfg (by simp), rfl⟩ txOps hops h ht, TxInv.started _ i0 hvc (fun hx => absurd rfl hx) ht⟩

/-- What a command station that does not change its orientation puts on the track. -/
theorem station_parts (n : Nat) (cfg : TxConfig) (txOps : List TxOp) (h : TxHist)
    (ht : ({ s := {} } : TxHist).run n (.init cfg :: txOps) = .ok h)
    (hinv : ∀ c, .init c ∈ txOps → c.invert = cfg.invert) (hv : ∀ a ∈ h.acc, ValidPacket a.2) :
    ∃ (gs : List (Spec.Segment × Packet)) (c : Spec.Segment × Packet) (rest : List Packet),
      h.out = (gs ++ [c]).flatMap (fun g => g.1.outs) ∧
      (∀ g ∈ gs ++ [c], g.1.Ok (fun c => Spec.ValidConfig c ∧ c.invert = cfg.invert) ∧ Carries g.1 g.2 ∧
        ((g.1.frame = none ∧ g.2 = [0xFF#8, 0x00#8, 0xFF#8]) ∨
          ∃ c, (c, g.2) ∈ h.acc ∧ g.1.frame = some (Spec.packetWave c g.2))) ∧
      (∀ g ∈ gs, g.1.Complete (fun c => Spec.ValidConfig c ∧ c.invert = cfg.invert)) ∧
      h.acc.map (·.2) = ((gs ++ [c]).filter (·.1.frame.isSome)).map (·.2) ++ rest ∧
      rest.length = h.s.size n ∧ c.1.cut.length = h.s.bidiCount ∧
      (c.1.halves = [] → h.out = [] ∧ gs = [] ∧ c.1.cut = []) := by
  obtain ⟨⟨done, cur, i⟩, hstart⟩ := station_inv n cfg txOps h ht hinv
  obtain ⟨gs, c, rest, _, _, hp⟩ := inv_parts i hstart hv
  exact ⟨gs, c, rest, hp⟩

/-- What a receiver measuring between the changes makes of it. -/
theorem inv_heard {n : Nat} {inv : Bool} {h : TxHist} {done : List Spec.Segment} {cur : Spec.Segment}
    (i : TxInv n (fun c => Spec.ValidConfig c ∧ c.invert = inv) h done cur)
    (hstart : h.out ≠ [] → 0 < h.s.packetCount) (hv : ∀ a ∈ h.acc, ValidPacket a.2)
    (off : Option Bool) (seen : Bool) (before ts : List Nat)
    (hm : Measured (crossings off seen before h.out) ts) (l : Link) (hl : l.Synced)
    (hb : l.bitCount ≤ 18) :
    ∃ (gs : List (Spec.Segment × Packet)) (c : Spec.Segment × Packet) (rest : List Packet) (l' : Link)
      (os : List LinkOut), gs.map (·.1) = done ∧ c.1 = cur ∧
      h.out = (gs ++ [c]).flatMap (fun g => g.1.outs) ∧
      (∀ g ∈ gs ++ [c], g.1.Ok Spec.ValidConfig ∧
        ((g.1.frame = none ∧ g.2 = [0xFF#8, 0x00#8, 0xFF#8]) ∨
          ∃ c, (c, g.2) ∈ h.acc ∧ g.1.frame = some (Spec.packetWave c g.2))) ∧
      (∀ g ∈ gs, g.1.Complete Spec.ValidConfig) ∧
      h.acc.map (·.2) = ((gs ++ [c]).filter (·.1.frame.isSome)).map (·.2) ++ rest ∧
      rest.length = h.s.size n ∧ c.1.cut.length = h.s.bidiCount ∧
      l.run ts = .ok (l', os) ∧
      packetsOf os = (gs.map (·.2) ++ if c.1.cut.isEmpty then [] else [c.2]) ∧ .bad ∉ os := by
  obtain ⟨gs, c, rest, hdone, hcur, hout, hok, hcomp, h2, hrest, hcut, hnone⟩ := inv_parts i hstart hv
  have hweak : ∀ g : Spec.Segment, g.Ok (fun c => Spec.ValidConfig c ∧ c.invert = inv) →
      g.Ok Spec.ValidConfig := fun g hg =>
    ⟨hg.halves_le, fun i o hi => (hg.halves_eq i o hi).imp fun c hx => hx.imp fun d hy => ⟨hy.1.1, hy.2⟩,
      hg.cut_le, hg.cut_after, fun i o hi => (hg.cut_eq i o hi).imp fun c hx => ⟨hx.1.1, hx.2⟩⟩
  have hweakc : ∀ g : Spec.Segment, g.Complete (fun c => Spec.ValidConfig c ∧ c.invert = inv) →
      g.Complete Spec.ValidConfig := fun g hg =>
    ⟨hg.halves, hg.cut.imp id fun hx => hx.imp fun c hy => ⟨hy.1.1, hy.2⟩⟩
  suffices hrun : ∃ l' os, l.run ts = .ok (l', os) ∧
      packetsOf os = (gs.map (·.2) ++ if c.1.cut.isEmpty then [] else [c.2]) ∧ .bad ∉ os by
    obtain ⟨l', os, h3, h4⟩ := hrun
    exact ⟨gs, c, rest, l', os, hdone, hcur, hout, fun g hg => ⟨hweak _ (hok g hg).1, (hok g hg).2.2⟩,
      fun g hg => hweakc _ (hcomp g hg), h2, hrest, hcut, h3, h4⟩
  by_cases hne : c.1.halves = []
  · obtain ⟨ho, hgs, hcut⟩ := hnone hne
    rw [ho] at hm
    cases ts with
    | cons => exact hm.elim
    | nil => exact ⟨l, [], rfl, by simp [hgs, hcut, packetsOf], by simp⟩
  · obtain ⟨l', os, h3, h4, hb1⟩ := hear_segments (inv := inv) (fun c hc => hc.2) off c gs (.idle hl hb)
      (fun g hg => ⟨(hok g hg).1, (hok g hg).2.1⟩) (fun g hg => (hcomp g hg).halves) hne ts
      (by rw [← hout]; exact hm)
    refine ⟨l', os, h3, ?_, hb1⟩
    rw [h4, List.nil_append]
    cases hcut : c.1.cut <;> simp

/-- Everything a command station that does not change its orientation puts on the track, and what a
receiver measuring between the changes makes of it. -/
theorem station_heard (n : Nat) (cfg : TxConfig) (txOps : List TxOp) (h : TxHist)
    (ht : ({ s := {} } : TxHist).run n (.init cfg :: txOps) = .ok h)
    (hinv : ∀ c, .init c ∈ txOps → c.invert = cfg.invert) (hv : ∀ a ∈ h.acc, ValidPacket a.2)
    (off : Option Bool) (seen : Bool) (before ts : List Nat)
    (hm : Measured (crossings off seen before h.out) ts) (l : Link) (hl : l.Synced)
    (hb : l.bitCount ≤ 18) :
    ∃ (gs : List (Spec.Segment × Packet)) (c : Spec.Segment × Packet) (rest : List Packet) (l' : Link)
      (os : List LinkOut),
      h.out = (gs ++ [c]).flatMap (fun g => g.1.outs) ∧
      (∀ g ∈ gs ++ [c], g.1.Ok Spec.ValidConfig ∧
        ((g.1.frame = none ∧ g.2 = [0xFF#8, 0x00#8, 0xFF#8]) ∨
          ∃ c, (c, g.2) ∈ h.acc ∧ g.1.frame = some (Spec.packetWave c g.2))) ∧
      (∀ g ∈ gs, g.1.Complete Spec.ValidConfig) ∧
      h.acc.map (·.2) = ((gs ++ [c]).filter (·.1.frame.isSome)).map (·.2) ++ rest ∧
      rest.length = h.s.size n ∧ c.1.cut.length = h.s.bidiCount ∧
      l.run ts = .ok (l', os) ∧
      packetsOf os = (gs.map (·.2) ++ if c.1.cut.isEmpty then [] else [c.2]) ∧ .bad ∉ os := by
  obtain ⟨⟨done, cur, i⟩, hstart⟩ := station_inv n cfg txOps h ht hinv
  obtain ⟨gs, c, rest, l', os, _, _, hp⟩ := inv_heard i hstart hv off seen before ts hm l hl hb
  exact ⟨gs, c, rest, l', os, hp⟩

/-- An error of 4 µs is within the limits. -/
theorem within_measured (gs : List (List Nat)) : ∀ ts, Spec.Within 4 gs ts → Measured gs ts := by
  induction gs with
  | nil =>
    intro ts h
    cases ts with
    | nil => trivial
    | cons => exact h.elim
  | cons g gs ih =>
    intro ts h
    cases ts with
    | nil => exact h.elim
    | cons t ts =>
      refine ⟨?_, ih ts h.2⟩
      have h1 := h.1
      match g, h1 with
      | [], _ => trivial
      | [d], h1 =>
        simp only [List.sum_cons, List.sum_nil, Nat.add_zero] at h1
        exact ⟨fun _ => ⟨by omega, by omega⟩, fun _ => ⟨by omega, by omega⟩⟩
      | _ :: _ :: _, _ => trivial

end Dcc
