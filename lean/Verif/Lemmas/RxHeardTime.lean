import Verif.Lemmas.RxHeard
import Verif.Lemmas.RxPolling
/-! How fast packets can follow each other for a receiver that measures the time between the changes of the
track signal. -/
namespace Dcc
open Spec

/-- The times measured, each with the time that passes. -/
def timed (gs : List (List Nat)) (ts : List Nat) : List (Nat × Nat) := ts.zip (gs.map List.sum)

theorem Spec.Measured.length {gs : List (List Nat)} : ∀ {ts : List Nat}, Measured gs ts → ts.length = gs.length := by
  induction gs with
  | nil =>
    intro ts h
    cases ts with
    | nil => rfl
    | cons => exact h.elim
  | cons g gs ih =>
    intro ts h
    cases ts with
    | nil => exact h.elim
    | cons t ts => rw [List.length_cons, List.length_cons, ih h.2]

theorem timed_append {g1 g2 : List (List Nat)} {t1 t2 : List Nat} (h : Measured g1 t1) :
    timed (g1 ++ g2) (t1 ++ t2) = timed g1 t1 ++ timed g2 t2 := by
  unfold timed
  rw [List.map_append, List.zip_append (by rw [h.length, List.length_map])]

theorem timed_fst {gs : List (List Nat)} {ts : List Nat} (h : Measured gs ts) :
    (timed gs ts).map (·.1) = ts := by
  have : (fun x : Nat × Nat => x.1) = Prod.fst := rfl
  rw [this, timed, List.map_fst_zip]
  rw [h.length, List.length_map]
  exact Nat.le_refl _

theorem timed_snd {gs : List (List Nat)} {ts : List Nat} (h : Measured gs ts) :
    (timed gs ts).map (·.2) = gs.map List.sum := by
  have : (fun x : Nat × Nat => x.2) = Prod.snd := rfl
  rw [this, timed, List.map_snd_zip]
  rw [h.length, List.length_map]
  exact Nat.le_refl _

/-- Intervals that complete no packet. -/
theorem spaced_none {w : Nat} {gs : List (List Nat)} {ts : List Nat} (h : Measured gs ts) {l l' : Link}
    {os : List LinkOut} {since : Option Nat} {bs : List (Nat × Nat)} (hr : l.run ts = .ok (l', os))
    (hp : packetsOf os = []) (hs : l'.Spaced w (later since (gs.map List.sum)) bs) :
    l.Spaced w since (timed gs ts ++ bs) :=
  spaced_append w _ bs l l' os since (by rw [timed_fst h]; exact hr) hp (by rw [timed_snd h]; exact hs)

/-- The last half bit of a packet. -/
theorem spaced_last {w : Nat} {p : Packet} (hp : ValidPacket p) {t d : Nat} (ht : time2bit t = .b1)
    {since : Option Nat} (hw : ∀ x, since = some x → w ≤ x + d) {bs : List (Nat × Nat)}
    (hs : (Link.after p).Spaced w none bs) : (Link.beforeEnd p).Spaced w since ((t, d) :: bs) := by
  have h := run_last p hp t ht
  rw [Link.run, bind_eq_ok] at h
  obtain ⟨⟨l', o⟩, h1, h2⟩ := h
  simp only [Link.run, ok_bind, pure_eq_ok, Except.ok.injEq, Prod.mk.injEq, List.append_nil] at h2
  obtain ⟨h2, h3⟩ := h2
  subst h2
  cases o with
  | none => cases h3
  | some o =>
    simp only [Option.toList_some, List.cons.injEq, and_true] at h3
    subst h3
    exact spaced_packet h1 hw hs

/-- The first half bit. -/
theorem spaced_first {w : Nat} {inv l seen acc ps} (h : Between inv l seen acc ps) (off : Option Bool)
    (c : TxConfig) (hc : c.invert = inv) (d : Nat) (ts : List Nat)
    (ht : Measured (crossings off seen acc [Spec.halfOut c 0 d]) ts) (since : Option Nat)
    (hw : ps ≠ [] → ∀ x, since = some x → w ≤ x + acc.sum) {l' : Link} {os : List LinkOut}
    (hrun : l.run ts = .ok (l', os)) (bs : List (Nat × Nat)) (hbs : ∀ since', l'.Spaced w since' bs) :
    l.Spaced w since (timed (crossings off seen acc [Spec.halfOut c 0 d]) ts ++ bs) := by
  have hl : looks off seen (Spec.halfOut c 0 d) = !inv := by rw [looks_half, hc]; simp
  cases h with
  | idle h1 h2 =>
    obtain ⟨l1, os1, h3, h4, _⟩ := hear_first (.idle h1 h2) off c hc d ts ht
    rw [h3] at hrun
    cases hrun
    exact spaced_none ht h3 h4 (hbs _)
  | same h1 h2 =>
    obtain ⟨l1, os1, h3, h4, _⟩ := hear_first (.same h1 h2) off c hc d ts ht
    rw [h3] at hrun
    cases hrun
    exact spaced_none ht h3 h4 (hbs _)
  | pend h1 h2 =>
    simp only [crossings] at ht ⊢
    have hs : ¬ looks off inv (Spec.halfOut c 0 d) = inv := by rw [hl]; cases inv <;> simp
    rw [if_neg hs] at ht ⊢
    cases ts with
    | nil => exact ht.elim
    | cons t ts =>
      cases ts with
      | cons => exact ht.2.elim
      | nil =>
        have hb : time2bit t = .b1 := by
          rw [measured_bit (.inl h2) ht.1]
          exact if_pos ⟨by omega, by omega⟩
        have hl' := run_last _ h1 t hb
        rw [hl'] at hrun
        cases hrun
        exact spaced_last h1 hb (fun x hx => hw (by simp) x hx) (hbs _)

/-- The half bits of a packet behind the first one. -/
theorem spaced_rest {w : Nat} {inv : Bool} {l : Link} (hl : l.Synced) (hb : l.bitCount ≤ 19) (off : Option Bool)
    (acc : List Nat) (cfg : TxConfig) (p : Packet) (v : List Nat)
    (hrun : ∀ l : Link, l.Synced → l.run v = .ok (Link.beforeEnd p, [.start]))
    (hv : ∀ d ∈ v, IsHalf d) (hs : List TxOut) (hf : HalvesFrom inv 1 hs)
    (hd : hs.map (·.duration) = (v ++ [cfg.bit1.toNat]).take hs.length) (ts : List Nat)
    (ht : Measured (crossings off (!inv) acc hs) ts) (hw : w ≤ v.sum + cfg.bit1.toNat)
    (hfull : hs.length = v.length + 1) (since : Option Nat) (bs : List (Nat × Nat))
    (hbs : ∀ since', (∀ x, since' = some x → w ≤ x + cfg.bit1.toNat) → (Link.beforeEnd p).Spaced w since' bs) :
    l.Spaced w since (timed (crossings off (!inv) acc hs) ts ++ bs) := by
  obtain ⟨l', os, h1, h2, h3, -⟩ := hear_rest hl hb off acc cfg p v hrun hv hs hf hd ts ht
  obtain ⟨rfl, h4⟩ := h3 hfull
  refine spaced_none ht h1 h2 (hbs _ ?_)
  obtain ⟨h5, -⟩ := cross_halves off inv hs 1 (!inv) acc hf (by simp)
  have hmap : hs.map (fun o => [o.duration]) = (hs.map (·.duration)).map ([·]) := by
    rw [List.map_map]; rfl
  rw [hmap, hd, h4, hfull, List.take_of_length_le (by simp), List.map_append, ← List.cons_append] at h5
  have h6 := (List.append_inj' h5 rfl).1
  have h7 : (v.map ([·])).map List.sum = v := by
    have : ∀ l : List Nat, (l.map ([·])).map List.sum = l := by
      intro l
      induction l with
      | nil => rfl
      | cons x xs ih => rw [List.map_cons, List.map_cons, ih]; simp
    exact this v
  rw [h6, List.map_cons, h7]
  intro x hx
  cases since <;> simp only [later, List.sum_cons, Option.some.injEq] at hx <;> omega

/-- All half bits of a packet. -/
theorem spaced_halves {w : Nat} {P : TxConfig → Prop} {inv : Bool} (hP : ∀ c, P c → c.invert = inv)
    {g : Spec.Segment} (h : g.Ok P) {p : Packet} (hcar : CarriesFor w g p)
    (hfull : g.halves.length = g.wave.length) {l seen acc ps} (hb : Between inv l seen acc ps)
    (off : Option Bool) (ts : List Nat) (ht : Measured (crossings off seen acc g.halves) ts) (since : Option Nat)
    (hw : ps ≠ [] → ∀ x, since = some x → w ≤ x + acc.sum) (bs : List (Nat × Nat))
    (hbs : ∀ since' d, crossEnd off seen acc g.halves = (inv, [d]) → 56 ≤ d ∧ d ≤ 60 →
      (∀ x, since' = some x → w ≤ x + d) → (Link.beforeEnd p).Spaced w since' bs) :
    l.Spaced w since (timed (crossings off seen acc g.halves) ts ++ bs) := by
  obtain ⟨cfg, hcfg, hcw, hp, hwave⟩ := hcar
  obtain ⟨v, hv, _, hrun⟩ := run_tail_init cfg hcfg p hp
  obtain ⟨ds, hds, hsum⟩ := packetWave_time cfg hcfg p hp
  have hone : 56 ≤ cfg.bit1.toNat ∧ cfg.bit1.toNat ≤ 60 := ⟨hcfg.2.2.1, hcfg.2.2.2.1⟩
  have hvsum : w ≤ v.sum + cfg.bit1.toNat := by
    rw [hv] at hds
    have := (List.cons.inj hds).2
    rw [← this, List.sum_append] at hsum
    simp only [List.sum_cons, List.sum_nil, Nat.add_zero] at hsum
    omega
  obtain ⟨_, _, _, _, hend, -⟩ := hear_halves hP h ⟨cfg, hcfg, hp, hwave⟩ (by
    intro hn
    rw [hn, hwave, hv] at hfull
    simp at hfull) hb off ts ht
  obtain ⟨d', _, _, hend, hd'⟩ := hend hfull
  have hhalf : ∀ d ∈ g.wave, IsHalf d := by rw [hwave]; exact wave_halves cfg hcfg _
  have hf := halves_from hP g.halves 0 g.wave (by simpa using h.halves_eq)
  have htimes := halves_times h
  cases hh : g.halves with
  | nil =>
    rw [hh, hwave, hv] at hfull
    simp at hfull
  | cons o os =>
    rw [hh] at hf htimes ht hend hbs hfull
    obtain ⟨⟨c, d, hc, rfl⟩, hf⟩ := hf
    rw [hwave, hv] at htimes hhalf hfull
    have hsplit : Spec.halfOut c 0 d :: os = [Spec.halfOut c 0 d] ++ os := rfl
    have hcross := crossings_append off [Spec.halfOut c 0 d] os seen acc
    rw [← hsplit] at hcross
    rw [hcross] at ht ⊢
    obtain ⟨t1, t2, rfl, h1, h2⟩ := Measured.append ht
    obtain ⟨l1, os1, h3, h4, h5, h6, h7, -⟩ := hear_first hb off c hc d t1 h1
    rw [h7] at h2
    rw [h7, timed_append h1, List.append_assoc]
    simp only [List.map_cons, List.length_cons, List.take_succ_cons, List.cons.injEq] at htimes
    simp only [List.length_cons, List.length_append, List.length_nil, Nat.zero_add] at hfull
    refine spaced_first hb off c hc d t1 h1 since hw h3 _ fun since' => ?_
    refine spaced_rest h5 h6 off _ cfg p v hrun (fun x hx => hhalf x (by simp [hx])) os hf htimes.2 t2 h2 hvsum
      (by omega) since' bs fun since'' hx => ?_
    have h8 := (hear_rest h5 h6 off _ cfg p v hrun (fun x hx => hhalf x (by simp [hx])) os hf htimes.2 t2 h2).choose_spec
    obtain ⟨_, _, _, h9, -⟩ := h8
    have h10 := (h9 (by omega)).2
    have h11 := hend
    rw [hsplit, crossEnd_append, h7] at h11
    have h12 := congrArg Prod.snd h11
    rw [h10] at h12
    simp only [List.cons.injEq, and_true] at h12
    exact hbs since'' d' hend hd' (by rw [← h12]; exact hx)

/-- A packet whose half bits were all sent. -/
theorem spaced_whole {w : Nat} {P : TxConfig → Prop} {inv : Bool} (hP : ∀ c, P c → c.invert = inv)
    {g : Spec.Segment} (h : g.Ok P) {p : Packet} (hcar : CarriesFor w g p)
    (hfull : g.halves.length = g.wave.length) {l seen acc ps} (hb : Between inv l seen acc ps)
    (off : Option Bool) (ts : List Nat) (ht : Measured (crossings off seen acc g.outs) ts) (since : Option Nat)
    (hw : ps ≠ [] → ∀ x, since = some x → w ≤ x + acc.sum) (bs : List (Nat × Nat))
    (hbs : ∀ (l' : Link) ps' since', Between inv l' (crossEnd off seen acc g.outs).1
        (crossEnd off seen acc g.outs).2 ps' →
      (ps' ≠ [] → ∀ x, since' = some x → w ≤ x + (crossEnd off seen acc g.outs).2.sum) →
      l'.Spaced w since' bs) :
    l.Spaced w since (timed (crossings off seen acc g.outs) ts ++ bs) := by
  have hp : ValidPacket p := hcar.elim fun _ hx => hx.2.2.1
  rw [Spec.Segment.outs, crossings_append] at ht ⊢
  rw [Spec.Segment.outs, crossEnd_append] at hbs
  obtain ⟨t1, t2, rfl, h1, h2⟩ := Measured.append ht
  rw [timed_append h1, List.append_assoc]
  refine spaced_halves hP h hcar hfull hb off t1 h1 since hw _ fun since' d hend hd hx => ?_
  rw [hend] at h2 hbs ⊢
  by_cases hc : g.cut = []
  · rw [hc] at h2 hbs ⊢
    cases t2 with
    | cons => exact h2.elim
    | nil => exact hbs _ _ _ (.pend hp hd) fun _ x hx' => by simpa [crossEnd] using hx x hx'
  · obtain ⟨o, rest, h3, h4, h5⟩ := cut_looks hP h hc
    have hlen := h5 off (!inv) [o.duration]
    obtain ⟨l2, os2, h6, _, h7, h8, -⟩ := hear_cut hP h hc hp hd off t2 h2
    have hbs := fun since => hbs l2 [] since (.idle h7 h8) (fun h => absurd rfl h)
    rw [h3, crossings, h4, if_neg (by cases inv <;> simp)] at h2 ⊢
    generalize crossings off (!inv) [o.duration] rest = gs at *
    cases t2 with
    | nil => exact h2.elim
    | cons t ts =>
      have hbit : time2bit t = .b1 := by
        rw [measured_bit (.inl hd) h2.1]
        exact if_pos ⟨by omega, by omega⟩
      have h9 := run_last p hp t hbit
      have hx' : ∀ x, since' = some x → w ≤ x + [d].sum := by simpa using hx
      refine spaced_last hp hbit hx' ?_
      cases gs with
      | nil =>
        cases ts with
        | cons => exact h2.2.elim
        | nil =>
          rw [h9] at h6
          cases h6
          exact hbs _
      | cons g gs =>
        cases gs with
        | cons => simp at hlen
        | nil =>
          cases ts with
          | nil => exact h2.2.elim
          | cons u ts =>
            cases ts with
            | cons => exact h2.2.2.elim
            | nil =>
              obtain ⟨l', h10, h11, h12⟩ := run_noise _ (Link.synced_after p) (by simp [Link.after]) u
              rw [show [t, u] = [t] ++ [u] from rfl, Link.run_append_ok [t] [u] h9 h10] at h6
              cases h6
              exact spaced_none (gs := [g]) (ts := [u]) h2.2 h10 rfl (hbs _)

/-- Everything a command station sends. -/
theorem spaced_heard {w : Nat} {P : TxConfig → Prop} {inv : Bool} (hP : ∀ c, P c → c.invert = inv)
    (off : Option Bool) (cur : Spec.Segment × Packet) (gs : List (Spec.Segment × Packet)) :
    ∀ {l seen acc ps} (since : Option Nat), Between inv l seen acc ps →
    (∀ g ∈ gs ++ [cur], g.1.Ok P ∧ CarriesFor w g.1 g.2) →
    (∀ g ∈ gs, g.1.halves.length = g.1.wave.length) → cur.1.halves ≠ [] →
    (ps ≠ [] → ∀ x, since = some x → w ≤ x + acc.sum) →
    ∀ ts, Measured (crossings off seen acc ((gs ++ [cur]).flatMap fun g => g.1.outs)) ts →
    l.Spaced w since (timed (crossings off seen acc ((gs ++ [cur]).flatMap fun g => g.1.outs)) ts) := by
  induction gs with
  | nil =>
    intro l seen acc ps since hb hok _ hne hw ts ht
    obtain ⟨h1, h2⟩ := hok cur (by simp)
    simp only [List.nil_append, List.flatMap_cons, List.flatMap_nil, List.append_nil] at ht ⊢
    by_cases hl : cur.1.halves.length = cur.1.wave.length
    · have := spaced_whole hP h1 h2 hl hb off ts ht since hw [] fun _ _ _ _ _ => trivial
      rwa [List.append_nil] at this
    · have hcut : cur.1.cut = [] := Decidable.byContradiction fun hc => hl (h1.cut_after hc)
      rw [Spec.Segment.outs, hcut, List.append_nil] at ht ⊢
      obtain ⟨cfg, hcfg, _, hp, hwave⟩ := h2
      obtain ⟨v, hv, _, hrun⟩ := run_tail_init cfg hcfg cur.2 hp
      have hhalf : ∀ d ∈ cur.1.wave, IsHalf d := by rw [hwave]; exact wave_halves cfg hcfg _
      have hf := halves_from hP cur.1.halves 0 cur.1.wave (by simpa using h1.halves_eq)
      have htimes := halves_times h1
      cases hh : cur.1.halves with
      | nil => exact absurd hh hne
      | cons o os =>
        rw [hh] at hf htimes ht
        obtain ⟨⟨c, d, hc, rfl⟩, hf⟩ := hf
        rw [hwave, hv] at htimes hhalf
        have hsplit : Spec.halfOut c 0 d :: os = [Spec.halfOut c 0 d] ++ os := rfl
        have hcross := crossings_append off [Spec.halfOut c 0 d] os seen acc
        rw [← hsplit] at hcross
        rw [hcross] at ht ⊢
        obtain ⟨t1, t2, rfl, h3, h4⟩ := Measured.append ht
        obtain ⟨l1, os1, h5, h6, h7, h8, h9, -⟩ := hear_first hb off c hc d t1 h3
        rw [h9] at h4
        rw [h9, timed_append h3]
        simp only [List.map_cons, List.length_cons, List.take_succ_cons, List.cons.injEq] at htimes
        refine spaced_first hb off c hc d t1 h3 since hw h5 _ fun since' => ?_
        obtain ⟨l2, os2, h10, h11, _⟩ := hear_rest h7 h8 off _ cfg cur.2 v hrun
          (fun x hx => hhalf x (by simp [hx])) os hf htimes.2 t2 h4
        have := spaced_none (w := w) (since := since') (bs := []) h4 h10 h11 trivial
        rwa [List.append_nil] at this
  | cons g gs ih =>
    intro l seen acc ps since hb hok hcomp hne hw ts ht
    obtain ⟨h1, h2⟩ := hok g (by simp)
    rw [List.cons_append, List.flatMap_cons, crossings_append] at ht ⊢
    obtain ⟨t1, t2, rfl, h3, h4⟩ := Measured.append ht
    rw [timed_append h3]
    refine spaced_whole hP h1 h2 (hcomp g (by simp)) hb off t1 h3 since hw _ fun l' ps' since' hb' hw' => ?_
    exact ih since' hb' (fun x hx => hok x (by simp at hx ⊢; exact .inr hx))
      (fun x hx => hcomp x (by simp [hx])) hne hw' t2 h4

/-- The same for a history of a command station whose configurations send no packet in less than `w` µs. -/
theorem heard_spaced (n w : Nat) (cfg : TxConfig) (txOps : List TxOp) (h : TxHist)
    (ht : ({ s := {} } : TxHist).run n (.init cfg :: txOps) = .ok h)
    (hinv : ∀ c, .init c ∈ txOps → c.invert = cfg.invert) (hw : w ≤ shortest {})
    (hc : ∀ c, .init c ∈ .init cfg :: txOps → w ≤ shortest c) (hv : ∀ a ∈ h.acc, ValidPacket a.2)
    (off : Option Bool) (seen : Bool) (before ts : List Nat)
    (hm : Measured (crossings off seen before h.out) ts) (l : Link) (hl : l.Synced) (hb : l.bitCount ≤ 18)
    (since : Option Nat) : l.Spaced w since (timed (crossings off seen before h.out) ts) := by
  obtain ⟨gs, c, rest, hout, hok, hcomp, _, _, _, hnone⟩ := station_parts n cfg txOps h ht hinv hv
  by_cases hne : c.1.halves = []
  · obtain ⟨ho, _⟩ := hnone hne
    rw [ho] at hm ⊢
    cases ts with
    | cons => exact hm.elim
    | nil => trivial
  · rw [hout] at hm ⊢
    exact spaced_heard (inv := cfg.invert) (fun c hc => hc.2) off c gs since (.idle hl hb)
      (fun g hg => ⟨(hok g hg).1, station_segments n w _ h ht hw hc hv g (hok g hg).2.2⟩)
      (fun g hg => (hcomp g hg).halves) hne (fun h => absurd rfl h) ts hm

end Dcc
