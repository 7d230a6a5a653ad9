import Verif.Lemmas.RxRecv
/-! A receiver fed with everything a command station transmits. -/
namespace Dcc

open Spec (recvOps recvTimes NeverFull arrivals executed)

/-- The assembly state waits for a preamble. -/
structure Link.Synced (l : Link) : Prop where
  state : l.state = .preamble
  byte : l.byte = 0#8
  checksum : l.checksum = 0#8

theorem LinkInv.synced {l : Link} (h : LinkInv l) (hs : l.state = .preamble) : l.Synced :=
  ⟨hs, (h.idle (by rw [hs]; rfl)).1, (h.idle (by rw [hs]; rfl)).2⟩

theorem Link.synced_after (p : Packet) : (Link.after p).Synced := ⟨rfl, rfl, rfl⟩

/-- The durations of a cutout. -/
def cutTimes : List Nat := [29, 51, 113, 261, 17]

/-- The durations of a cutout lead to nothing while fewer than 20 half ones were received. -/
theorem run_cut (k : Nat) (l : Link) (h : l.Synced) (hb : l.bitCount < 20) :
    ∃ l', l.run (cutTimes.take k) = .ok (l', []) ∧ l'.Synced := by
  obtain ⟨st, bc, by_, cs, ih, pe, pk⟩ := l
  obtain ⟨h1, h2, h3⟩ := h
  simp only at h1 h2 h3 hb
  subst h1 h2 h3
  have e1 : time2bit 29 = .invalid := rfl
  have e2 : time2bit 51 = .invalid := rfl
  have e3 : time2bit 113 = .b0 := rfl
  have e4 : time2bit 261 = .b0 := rfl
  have e5 : time2bit 17 = .invalid := rfl
  have key : ∃ l', (⟨.preamble, bc, 0#8, 0#8, ih, pe, pk⟩ : Link).run cutTimes = .ok (l', []) := by
    simp [cutTimes, Link.run, Link.step, e1, e2, e3, e4, e5, LinkState.halves, Link.bit, hb, Link.reset]
  obtain ⟨l', hl⟩ := key
  have h4 := List.take_append_drop k cutTimes
  rw [← h4] at hl
  obtain ⟨l2, h5, _⟩ := Link.run_prefix_nil _ _ hl
  refine ⟨l2, h5, ?_⟩
  have hk : k = 0 ∨ k = 1 ∨ k = 2 ∨ k = 3 ∨ k = 4 ∨ 5 ≤ k := by omega
  have h5' := h5
  have ht : 5 ≤ k → cutTimes.take k = cutTimes := by
    intro h; exact List.take_of_length_le (by simpa [cutTimes] using h)
  rcases hk with rfl | rfl | rfl | rfl | rfl | hk <;>
    (try rw [ht hk] at h5) <;>
    simp [cutTimes, Link.run, Link.step, e1, e2, e3, e4, e5, LinkState.halves, Link.bit, hb, Link.reset] at h5 <;>
    subst h5 <;> exact ⟨rfl, rfl, rfl⟩

theorem halves_times {P : TxConfig → Prop} {g : Spec.Segment} (h : g.Ok P) :
    g.halves.map (·.duration) = g.wave.take g.halves.length := by
  apply List.ext_getElem?
  intro i
  rw [List.getElem?_map, List.getElem?_take]
  cases hi : g.halves[i]? with
  | none =>
    have := List.getElem?_eq_none_iff.mp hi
    rw [if_neg (by omega)]
    rfl
  | some o =>
    obtain ⟨c, d, _, h2, h3⟩ := h.halves_eq i o hi
    have : i < g.halves.length := (List.getElem?_eq_some_iff.mp hi).1
    rw [if_pos this, h2, h3]
    simp only [Option.map_some, Spec.halfOut]
    split <;> rfl

theorem cut_times {P : TxConfig → Prop} {g : Spec.Segment} (h : g.Ok P) :
    g.cut.map (·.duration) = cutTimes.take g.cut.length := by
  have hc : ∀ c, (Spec.cutOut c).map (·.duration) = cutTimes := fun _ => rfl
  apply List.ext_getElem?
  intro i
  rw [List.getElem?_map, List.getElem?_take]
  cases hi : g.cut[i]? with
  | none =>
    have := List.getElem?_eq_none_iff.mp hi
    rw [if_neg (by omega)]
    rfl
  | some o =>
    obtain ⟨c, _, _, h3⟩ := h.cut_eq i o hi
    have : i < g.cut.length := (List.getElem?_eq_some_iff.mp hi).1
    rw [if_pos this, ← hc c, List.getElem?_map, h3]

/-- A whole packet with whatever part of its cutout. -/
theorem run_segment_whole {P : TxConfig → Prop} {g : Spec.Segment} (h : g.Ok P) (c : TxConfig)
    (hc : Spec.ValidConfig c) (p : Packet) (hp : ValidPacket p) (hw : g.wave = Spec.packetWave c p)
    (hl : g.halves.length = g.wave.length) (l : Link) (hs : l.Synced) :
    ∃ l', l.run (g.outs.map (·.duration)) = .ok (l', [.start, .packet p]) ∧ l'.Synced := by
  rw [Spec.Segment.outs, List.map_append, halves_times h, cut_times h, hl, List.take_length, hw]
  have h1 := run_packet l c hc p hp hs.state hs.byte hs.checksum
  obtain ⟨l', h2, h3⟩ := run_cut g.cut.length (Link.after p) (Link.synced_after p) (Nat.zero_lt_succ 19)
  exact ⟨l', Link.run_append_ok (ps' := []) _ _ h1 h2, h3⟩

/-- A run that leads to a list of outcomes, cut short, leads to a first part of them. -/
theorem Link.run_prefix {l l1 : Link} {ps : List LinkOut} (as bs : List Nat)
    (h : l.run (as ++ bs) = .ok (l1, ps)) :
    ∃ l2 ps1 ps2, l.run as = .ok (l2, ps1) ∧ l2.run bs = .ok (l1, ps2) ∧ ps = ps1 ++ ps2 := by
  induction as generalizing l ps with
  | nil => exact ⟨l, [], ps, rfl, h, rfl⟩
  | cons t ts ih =>
    simp only [List.cons_append, Link.run, bind_eq_ok] at h
    obtain ⟨⟨l2, po⟩, h1, ⟨l3, ps'⟩, h2, h3⟩ := h
    simp only [pure_eq_ok, Except.ok.injEq, Prod.mk.injEq] at h3
    obtain ⟨rfl, rfl⟩ := h3
    obtain ⟨l4, q1, q2, h5, h6, rfl⟩ := ih h2
    exact ⟨l4, po.toList ++ q1, q2, by rw [Link.run_cons _ h1, h5]; rfl, h6, by simp⟩

/-- A packet that was not sent completely. -/
theorem run_segment_part {P : TxConfig → Prop} {g : Spec.Segment} (h : g.Ok P) (c : TxConfig)
    (hc : Spec.ValidConfig c) (p : Packet) (hp : ValidPacket p) (hw : g.wave = Spec.packetWave c p)
    (hl : g.halves.length ≠ g.wave.length) (l : Link) (hs : l.Synced) :
    ∃ l' os, l.run (g.outs.map (·.duration)) = .ok (l', os) ∧ packetsOf os = [] := by
  have hcut : g.cut = [] := Classical.byContradiction fun hc => hl (h.cut_after hc)
  rw [Spec.Segment.outs, List.map_append, halves_times h, hcut]
  have hlt : g.halves.length < g.wave.length := Nat.lt_of_le_of_ne h.halves_le hl
  obtain ⟨w, hw1, h1⟩ := run_packet_init l c hc p hp hs.state hs.byte hs.checksum
  rw [hw, hw1] at hlt ⊢
  have h2 : (w ++ [c.bit1.toNat]).take g.halves.length = w.take g.halves.length := by
    rw [List.take_append_of_le_length]
    simp only [List.length_append, List.length_cons, List.length_nil] at hlt
    omega
  rw [h2]
  rw [← List.take_append_drop g.halves.length w] at h1
  obtain ⟨l2, q1, q2, h3, _, h4⟩ := Link.run_prefix _ _ h1
  refine ⟨l2, q1, by simpa using h3, ?_⟩
  have h5 : packetsOf [LinkOut.start] = packetsOf q1 ++ packetsOf q2 := by
    rw [h4]; simp [packetsOf]
  have h6 : packetsOf [LinkOut.start] = [] := rfl
  rw [h6] at h5
  exact (List.append_eq_nil_iff.mp h5.symm).1

/-- The packet a segment carries: an idle packet or a valid queued one. -/
def Carries (g : Spec.Segment) (p : Packet) : Prop :=
  ∃ c, Spec.ValidConfig c ∧ ValidPacket p ∧ g.wave = Spec.packetWave c p

/-- Everything a command station sends, given as segments with their packets. -/
theorem run_segments {P : TxConfig → Prop} (gs : List (Spec.Segment × Packet))
    (cur : Spec.Segment × Packet) :
    ∀ (l : Link), l.Synced → (∀ g ∈ gs ++ [cur], g.1.Ok P ∧ Carries g.1 g.2) →
    (∀ g ∈ gs, g.1.halves.length = g.1.wave.length) →
    ∃ l' os, l.run (((gs ++ [cur]).flatMap fun g => g.1.outs).map (·.duration)) = .ok (l', os) ∧
      packetsOf os = ((gs ++ [cur]).filter fun g => g.1.halves.length == g.1.wave.length).map (·.2) := by
  induction gs with
  | nil =>
    intro l hs hok _
    obtain ⟨h1, c, hc, hp, hw⟩ := hok cur (by simp)
    simp only [List.nil_append, List.flatMap_cons, List.flatMap_nil, List.append_nil]
    by_cases hl : cur.1.halves.length = cur.1.wave.length
    · obtain ⟨l', h2, _⟩ := run_segment_whole h1 c hc cur.2 hp hw hl l hs
      exact ⟨l', _, h2, by simp [hl, packetsOf]⟩
    · obtain ⟨l', os, h2, h3⟩ := run_segment_part h1 c hc cur.2 hp hw hl l hs
      exact ⟨l', os, h2, by simp [hl, h3]⟩
  | cons g gs ih =>
    intro l hs hok hcomp
    obtain ⟨h1, c, hc, hp, hw⟩ := hok g (by simp)
    have hl := hcomp g (by simp)
    obtain ⟨l1, h2, h3⟩ := run_segment_whole h1 c hc g.2 hp hw hl l hs
    obtain ⟨l', os, h4, h5⟩ := ih l1 h3 (fun x hx => hok x (by simp at hx ⊢; exact .inr hx))
      (fun x hx => hcomp x (by simp [hx]))
    refine ⟨l', [.start, .packet g.2] ++ os, ?_, ?_⟩
    · rw [List.cons_append, List.flatMap_cons, List.map_append]
      exact Link.run_append_ok _ _ h2 h4
    · have : packetsOf ([.start, .packet g.2] ++ os) = g.2 :: packetsOf os := rfl
      rw [this, h5, List.cons_append, List.filter_cons_of_pos (by simp [hl]), List.map_cons]

/-- The receiver's assembly state follows the durations, whatever else is called in between. -/
theorem run_interleaved (e : Env) (ops : List RxOp) : ∀ (s s' : Rx), s.run e ops = .ok s' →
    .disable ∉ ops → NeverFull e s ops →
    ∃ os, s.link.run (recvTimes ops) = .ok (s'.link, os) ∧
      arrivals e s ops = (packetsOf os).filter fun p => !isLogon p := by
  induction ops with
  | nil =>
    intro s s' h _ _
    cases h
    exact ⟨[], rfl, rfl⟩
  | cons op ops ih =>
    intro s s' h hd hf
    rw [Rx.run, bind_eq_ok] at h
    obtain ⟨s1, h1, h2⟩ := h
    obtain ⟨hf1, hf2⟩ := hf
    rw [h1] at hf2
    obtain ⟨os, h3, h4⟩ := ih s1 s' h2 (fun hm => hd (by simp [hm])) hf2
    by_cases hr : op.isReceive = true
    · cases op <;> try simp [RxOp.isReceive] at hr
      rename_i t r
      obtain ⟨o, h5, h6⟩ := receive_spec e s s1 t r h1 (hf1 rfl)
      refine ⟨o.toList ++ os, ?_, ?_⟩
      · show s.link.run (t :: recvTimes ops) = _
        rw [Link.run_cons _ h5, h3]
        rfl
      · have hdq := h6.deque.2
        simp only [arrivals, h1, h4, hdq]
        simp only [RxOp.isReceive, if_true, List.drop_left]
        rcases o with _ | (_ | p | _)
        · rfl
        · rfl
        · have : packetsOf ((some (LinkOut.packet p)).toList ++ os) = p :: packetsOf os := rfl
          rw [this, List.filter_cons, queued]
          cases isLogon p <;> simp
        · rfl
    · have hr' : op.isReceive = false := by simpa using hr
      have h5 : s1.link = s.link := (step_other e s s1 op h1 (by
        intro t r hc; subst hc; simp [RxOp.isReceive] at hr') (by
        intro hc; exact hd (by simp [hc]))).1
      refine ⟨os, ?_, ?_⟩
      · have : recvTimes (op :: ops) = recvTimes ops := by
          cases op <;> first | rfl | simp [RxOp.isReceive] at hr'
        rw [this, ← h5, h3]
      · simp only [arrivals, h1, hr', h4]
        rfl

/-- The idle packet. -/
theorem idle_valid : ValidPacket [0xFF#8, 0x00#8, 0xFF#8] := ⟨by decide, by decide, by decide⟩

/-- Name the packets of the segments: idle packets and, in order, the accepted packets. -/
theorem name_packets (gs : List Spec.Segment) : ∀ (acc : List (TxConfig × Packet)) (waiting : List (List Nat)),
    acc.map (fun a => Spec.packetWave a.1 a.2) = gs.filterMap Spec.Segment.frame ++ waiting →
    ∃ (sent : List (Spec.Segment × Packet)) (rest : List Packet), sent.map (·.1) = gs ∧
      acc.map (·.2) = (sent.filter (·.1.frame.isSome)).map (·.2) ++ rest ∧
      ∀ g ∈ sent, (g.1.frame = none ∧ g.2 = [0xFF#8, 0x00#8, 0xFF#8]) ∨
        ∃ c, (c, g.2) ∈ acc ∧ g.1.frame = some (Spec.packetWave c g.2) := by
  induction gs with
  | nil =>
    intro acc waiting _
    exact ⟨[], acc.map (·.2), rfl, rfl, by simp⟩
  | cons g gs ih =>
    intro acc waiting h
    cases hg : g.frame with
    | none =>
      rw [List.filterMap_cons_none hg] at h
      obtain ⟨sent, rest, h1, h2, h3⟩ := ih acc waiting h
      refine ⟨(g, [0xFF#8, 0x00#8, 0xFF#8]) :: sent, rest, by simp [h1], ?_, ?_⟩
      · rw [List.filter_cons_of_neg (by simp [hg])]; exact h2
      · intro x hx
        rcases List.mem_cons.mp hx with rfl | hx
        · exact .inl ⟨hg, rfl⟩
        · exact h3 x hx
    | some w =>
      rw [List.filterMap_cons_some hg] at h
      cases acc with
      | nil => simp at h
      | cons a acc =>
        rw [List.map_cons, List.cons_append, List.cons.injEq] at h
        obtain ⟨sent, rest, h1, h2, h3⟩ := ih acc waiting h.2
        refine ⟨(g, a.2) :: sent, rest, by simp [h1], ?_, ?_⟩
        · rw [List.filter_cons_of_pos (by simp [hg]), List.map_cons, List.map_cons, h2]; rfl
        · intro x hx
          rcases List.mem_cons.mp hx with rfl | hx
          · exact .inr ⟨a.1, by simp, by rw [hg, h.1]⟩
          · rcases h3 x hx with h4 | ⟨c, h4, h5⟩
            · exact .inl h4
            · exact .inr ⟨c, by simp [h4], h5⟩

/-- The rest of a run that succeeds in the assembly. -/
theorem Link.run_snoc {l l1 l2 : Link} {os os' : List LinkOut} (ts : List Nat) (t : Nat) (us : List Nat)
    (h1 : l.run ts = .ok (l1, os)) (h2 : l.run (ts ++ t :: us) = .ok (l2, os')) :
    ∃ l3 o qs, l1.step t = .ok (l3, o) ∧ os' = os ++ (o.toList ++ qs) := by
  obtain ⟨l4, p1, p2, h3, h4, h5⟩ := Link.run_prefix _ _ h2
  rw [h1] at h3
  cases h3
  simp only [Link.run, bind_eq_ok] at h4
  obtain ⟨⟨l5, o⟩, h6, ⟨l6, ps⟩, _, h8⟩ := h4
  simp only [pure_eq_ok, Except.ok.injEq, Prod.mk.injEq] at h8
  obtain ⟨_, rfl⟩ := h8
  exact ⟨l5, o, ps, h6, h5⟩

/-- Every packet completed is valid. -/
theorem LinkInv.run_packets (ts : List Nat) : ∀ {l l' : Link} {os : List LinkOut}, LinkInv l →
    l.run ts = .ok (l', os) → ∀ p ∈ packetsOf os, ValidPacket p := by
  induction ts with
  | nil => intro l l' os _ h; cases h; simp [packetsOf]
  | cons t ts ih =>
    intro l l' os hi h
    simp only [Link.run, bind_eq_ok] at h
    obtain ⟨⟨l1, o⟩, h1, ⟨l2, os2⟩, h2, h3⟩ := h
    simp only [pure_eq_ok, Except.ok.injEq, Prod.mk.injEq] at h3
    obtain ⟨_, rfl⟩ := h3
    obtain ⟨i1, i2, _⟩ := hi.step h1
    intro p hp
    simp only [packetsOf, List.filterMap_append, List.mem_append] at hp
    rcases hp with hp | hp
    · rcases o with _ | (_ | q | _) <;> simp at hp
      subst hp
      exact (i2 p rfl).1
    · exact ih i1 h2 p hp

/-- Everything a command station transmits: the packets on the track `gs ++ [c]` and those still
waiting. -/
theorem inv_track {P : TxConfig → Prop} (hP : ∀ c, P c → Spec.ValidConfig c) {n : Nat} {h : TxHist}
    {done : List Spec.Segment} {cur : Spec.Segment} (i : TxInv n P h done cur)
    (hv : ∀ a ∈ h.acc, ValidPacket a.2) :
    ∃ (gs : List (Spec.Segment × Packet)) (c : Spec.Segment × Packet) (rest : List Packet),
      h.out = (gs ++ [c]).flatMap (fun g => g.1.outs) ∧
      (∀ g ∈ gs ++ [c], g.1.Ok P ∧ Carries g.1 g.2 ∧
        ((g.1.frame = none ∧ g.2 = [0xFF#8, 0x00#8, 0xFF#8]) ∨
          ∃ c, (c, g.2) ∈ h.acc ∧ g.1.frame = some (Spec.packetWave c g.2))) ∧
      (∀ g ∈ gs, g.1.Complete P) ∧
      c.1 = cur ∧ gs.map (·.1) = done ∧
      h.acc.map (·.2) = ((gs ++ [c]).filter (·.1.frame.isSome)).map (·.2) ++ rest ∧
      rest.length = h.s.size n := by
  obtain ⟨sent, rest, h1, h2, h3⟩ := name_packets (done ++ [cur]) h.acc (h.s.queue n) i.acc_eq
  have hrest : rest.length = h.s.size n := by
    have e1 := congrArg List.length i.acc_eq
    have e2 := congrArg List.length h2
    have e3 : ∀ l : List (Spec.Segment × Packet),
        (l.filter (·.1.frame.isSome)).length = ((l.map (·.1)).filterMap Spec.Segment.frame).length := by
      intro l
      induction l with
      | nil => rfl
      | cons x xs ih =>
        cases hx : x.1.frame <;> simp [hx, ih]
    rw [← h1] at e1
    simp only [List.length_map, List.length_append, Tx.queue_length, e3] at e1 e2
    omega
  have hne : sent ≠ [] := by intro hn; rw [hn] at h1; simp at h1
  obtain ⟨gs, c, rfl⟩ : ∃ gs c, sent = gs ++ [c] := ⟨_, _, (List.dropLast_concat_getLast hne).symm⟩
  rw [List.map_append, List.map_cons, List.map_nil] at h1
  obtain ⟨hg1, hg2⟩ := List.append_inj' h1 (by simp)
  have hcur : c.1 = cur := by simpa using hg2
  have hout : h.out = (gs ++ [c]).flatMap (fun g => g.1.outs) := by
    rw [i.out_eq, List.flatMap_append, List.flatMap_append, ← hg1, List.flatMap_map, hcur.symm]
    simp
  have hok : ∀ g ∈ gs ++ [c], g.1.Ok P := by
    intro g hg
    rcases List.mem_append.mp hg with hg | hg
    · exact (i.done_ok g.1 (by rw [← hg1]; exact List.mem_map_of_mem hg)).1
    · rw [List.mem_singleton.mp hg, hcur]; exact i.cur_ok
  have hcar : ∀ g ∈ gs ++ [c], Carries g.1 g.2 := by
    intro g hg
    rcases h3 g hg with ⟨hn, hi⟩ | ⟨cf, hm, hfr⟩
    · exact ⟨{}, by simp [Spec.ValidConfig], by rw [hi]; exact idle_valid,
        by rw [hi, Spec.Segment.wave, hn]; rfl⟩
    · exact ⟨cf, hP _ (i.acc_ok _ hm).1, hv _ hm, by rw [Spec.Segment.wave, hfr]; rfl⟩
  exact ⟨gs, c, rest, hout, fun g hg => ⟨hok g hg, hcar g hg, h3 g hg⟩,
    fun g hg => (i.done_ok g.1 (by rw [← hg1]; exact List.mem_map_of_mem hg)).2, hcur, hg1, h2, hrest⟩

/-- Everything a command station transmits, from the assembly state of a receiver waiting for a
preamble: the packets on the track `gs ++ [c]`, those still waiting, and what the receiver makes of
it. -/
theorem station_track (n : Nat) (txOps : List TxOp) (h : TxHist)
    (ht : ({ s := {} } : TxHist).run n txOps = .ok h) (hv : ∀ a ∈ h.acc, ValidPacket a.2) (l : Link)
    (hl : l.Synced) :
    ∃ (gs : List (Spec.Segment × Packet)) (c : Spec.Segment × Packet) (rest : List Packet) (l' : Link)
      (os : List LinkOut),
      h.out = (gs ++ [c]).flatMap (fun g => g.1.outs) ∧
      (∀ g ∈ gs ++ [c], g.1.Ok Spec.ValidConfig ∧
        ((g.1.frame = none ∧ g.2 = [0xFF#8, 0x00#8, 0xFF#8]) ∨
          ∃ c, (c, g.2) ∈ h.acc ∧ g.1.frame = some (Spec.packetWave c g.2))) ∧
      (∀ g ∈ gs, g.1.halves.length = g.1.wave.length) ∧
      c.1.halves.length = h.s.packetCount ∧ c.1.wave = h.s.current ∧
      h.acc.map (·.2) = ((gs ++ [c]).filter (·.1.frame.isSome)).map (·.2) ++ rest ∧
      rest.length = h.s.size n ∧
      l.run (h.out.map (·.duration)) = .ok (l', os) ∧
      packetsOf os = ((gs ++ [c]).filter fun g => g.1.halves.length == g.1.wave.length).map (·.2) := by
  obtain ⟨done, cur, i⟩ := TxInv.reachable txOps h ht
  obtain ⟨gs, c, rest, hout, hok, hcomp, hcur, _, h2, hrest⟩ := inv_track (fun _ h => h) i hv
  obtain ⟨l', os, h4, h5⟩ := run_segments gs c l hl (fun g hg => ⟨(hok g hg).1, (hok g hg).2.1⟩)
    (fun g hg => (hcomp g hg).halves)
  exact ⟨gs, c, rest, l', os, hout, fun g hg => ⟨(hok g hg).1, (hok g hg).2.2⟩,
    fun g hg => (hcomp g hg).halves,
    by rw [hcur]; exact i.cur_halves, by rw [hcur]; exact i.cur_wave, h2, hrest,
    by rw [hout]; exact h4, h5⟩

end Dcc
