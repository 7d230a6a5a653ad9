import Verif.Lemmas.RxRecover
import Verif.Props.Deframe
/-! A disturbance on the track: a receiver hears the signal, then anything, then the signal again. -/
namespace Dcc
open Spec

theorem flatMap_outs_map (gs : List (Segment × Packet)) :
    gs.flatMap (fun g => g.1.outs) = (gs.map (·.1)).flatMap Segment.outs := by
  rw [List.flatMap_map]

/-- The requests among segments. -/
theorem frames_count (gs : List (Segment × Packet)) :
    (gs.filter (·.1.frame.isSome)).length = ((gs.map (·.1)).filterMap Segment.frame).length := by
  induction gs with
  | nil => rfl
  | cons g l ih =>
    rw [List.filter_cons, List.map_cons, List.filterMap_cons]
    cases hf : g.1.frame <;> simp [ih]

/-- What a receiver makes of the beginning of a signal, given the segments of the whole of it. -/
theorem hear_front {n : Nat} {inv : Bool} {h0 h : TxHist} {done0 done : List Segment} {cur0 cur : Segment}
    (i0 : TxInv n (fun c => ValidConfig c ∧ c.invert = inv) h0 done0 cur0)
    (i2 : TxInv n (fun c => ValidConfig c ∧ c.invert = inv) h done cur)
    (hstart0 : h0.out ≠ [] → 0 < h0.s.packetCount) (hpre : h0.acc <+: h.acc) (hv : ∀ a ∈ h.acc, ValidPacket a.2)
    {pre post : List (Segment × Packet)} {y : Segment × Packet} (hd : pre.map (·.1) = done0)
    (hyf : y.1.frame = cur0.frame)
    (hacc : ∀ g ∈ pre ++ y :: post, (g.1.frame = none ∧ g.2 = [0xFF#8, 0x00#8, 0xFF#8]) ∨
      ∃ c, (c, g.2) ∈ h.acc ∧ g.1.frame = some (packetWave c g.2))
    (off : Option Bool) (seen : Bool) (before ts : List Nat) (hm : Measured (crossings off seen before h0.out) ts)
    (l : Link) (hl : l.Synced) (hb : l.bitCount ≤ 18) :
    ∃ l' os, l.run ts = .ok (l', os) ∧
      packetsOf os = pre.map (·.2) ++ (if cur0.cut = [] then [] else [y.2]) := by
  obtain ⟨gs0, c0, -, hd0, hc0, ho0, -, -, -, -, -, hnone⟩ := inv_parts i0 hstart0 fun a ha => hv a (hpre.subset ha)
  by_cases hne : cur0.halves = []
  · obtain ⟨ho, hgs, hcut⟩ := hnone (by rw [hc0]; exact hne)
    have hp : pre = [] := by
      rw [hgs] at hd0
      rw [← hd0] at hd
      simpa using hd
    rw [ho] at hm
    cases ts with
    | cons => exact hm.elim
    | nil => exact ⟨l, [], rfl, by rw [hp, if_pos (by rw [← hc0]; exact hcut)]; rfl⟩
  · obtain ⟨l', os, h3, h4, -⟩ := hear_segments (P := fun c => ValidConfig c ∧ c.invert = inv) (inv := inv)
      (fun c hc => hc.2) off (cur0, y.2) pre (.idle hl hb)
      (fun g hg => by
        rcases List.mem_append.mp hg with hg | hg
        · exact ⟨(i0.done_ok g.1 (hd ▸ List.mem_map_of_mem hg)).1,
            carries_of i2 hv g (hacc g (List.mem_append_left _ hg))⟩
        · rw [List.mem_singleton] at hg
          subst hg
          refine ⟨i0.cur_ok, ?_⟩
          obtain ⟨c, h5, h6, h7⟩ := carries_of i2 hv y (hacc y (by simp))
          exact ⟨c, h5, h6, by rw [← h7, Segment.wave, Segment.wave, hyf]⟩)
      (fun g hg => (i0.done_ok g.1 (hd ▸ List.mem_map_of_mem hg)).2.halves) hne ts (by
        rw [flatMap_outs_map, List.map_append, hd, List.map_cons, List.map_nil, ← i0.out_eq]
        exact hm)
    exact ⟨l', os, h3, by rw [h4]; rfl⟩

/-- At most one packet comes from what was before, each other one takes 76 half bits. -/
theorem noise_rate {l l' : Link} {ts : List Nat} {os : List LinkOut}
    (h : l.run ts = .ok (l', os)) : 76 * (packetsOf os).length ≤ ts.length + 76 := by
  rcases first_fresh ts h with ⟨a, b, l1, os1, os2, rfl, -, hfr, hb, rfl, hone, -⟩ | ⟨hno, -⟩
  · have h1 := Link.feed_deframe _ l1 _ _ (Nat.le_refl _) hfr.synced.state hfr.synced.byte hfr.synced.checksum
      (Link.run_feed _ _ _ _ hb)
    have h2 := deframe_rate _ l1.bitCount (halves b) (Nat.le_refl _)
    have h3 : (halves b).length ≤ b.length := List.length_filterMap_le _ _
    have h4 : (packetsOf (os1 ++ os2)).length = (packetsOf os1).length + (packetsOf os2).length := by simp [packetsOf]
    rw [← h1, hfr.count] at h2
    rw [h4, List.length_append]
    omega
  · rw [hno]; simp

/-- A receiver hears the signal up to `h0`, then anything, and the signal again from `h1` on.  All packets up to the
disturbance arrive, and all behind it but those that had begun when it ended and one more. -/
theorem station_gap (n : Nat) (cfg : TxConfig) (txOps gap more : List TxOp) (h0 h1 h : TxHist)
    (ht0 : ({ s := {} } : TxHist).run n (.init cfg :: txOps) = .ok h0) (ht1 : h0.run n gap = .ok h1)
    (ht : h1.run n more = .ok h) (hinv : ∀ c, .init c ∈ txOps ++ gap ++ more → c.invert = cfg.invert)
    (hv : ∀ a ∈ h.acc, ValidPacket a.2) (off : Option Bool) (seen0 seen : Bool) (before0 before ts0 tsn ts : List Nat)
    (hm0 : Measured (crossings off seen0 before0 h0.out) ts0)
    (hm : Measured (crossings none seen before (h.out.drop h1.out.length)) ts) (l l' : Link) (os : List LinkOut)
    (hl : l.Synced) (hi : LinkInv l) (hb : l.bitCount ≤ 18) (hrun : l.run (ts0 ++ tsn ++ ts) = .ok (l', os)) :
    ∃ (gs : List (Segment × Packet)) (c : Segment × Packet) (rest within odd : List Packet) (j i : Nat),
      h.out = (gs ++ [c]).flatMap (fun g => g.1.outs) ∧
      (∀ g ∈ gs ++ [c], g.1.Ok ValidConfig ∧
        ((g.1.frame = none ∧ g.2 = [0xFF#8, 0x00#8, 0xFF#8]) ∨
          ∃ c, (c, g.2) ∈ h.acc ∧ g.1.frame = some (packetWave c g.2))) ∧
      (∀ g ∈ gs, g.1.Complete ValidConfig) ∧
      h.acc.map (·.2) = ((gs ++ [c]).filter (·.1.frame.isSome)).map (·.2) ++ rest ∧
      rest.length = h.s.size n ∧
      76 * within.length ≤ tsn.length + 76 ∧ odd.length ≤ 1 ∧ j ≤ i ∧
      j ≤ (gs.map (·.2) ++ if c.1.cut.isEmpty then [] else [c.2]).length ∧
      packetsOf os = (gs.map (·.2) ++ if c.1.cut.isEmpty then [] else [c.2]).take j ++ within ++ odd ++
        (gs.map (·.2) ++ if c.1.cut.isEmpty then [] else [c.2]).drop i ∧
      (∀ m, (((gs ++ [c]).take (m + 1)).flatMap fun g => g.1.outs).length < h0.out.length → m < j) ∧
      (∀ m, m + 2 = i → (((gs ++ [c]).take m).flatMap fun g => g.1.outs).length < h1.out.length) ∧
      h0.acc.length ≤ (((gs ++ [c]).take j).filter (·.1.frame.isSome)).length + h0.s.size n + 1 ∧
      (((gs ++ [c]).take (i - 1)).filter (·.1.frame.isSome)).length + h1.s.size n ≤ h1.acc.length := by
  obtain ⟨⟨done0, cur0, i0⟩, hstart0⟩ := station_inv n cfg txOps h0 ht0 fun c hx => hinv c (by simp [hx])
  have hall := TxHist.run_append (.init cfg :: txOps) (gap ++ more) ht0
  rw [TxHist.run_append gap more ht1, ht, List.cons_append] at hall
  have hvc := run_init_valid _ hall
  have hops1 : OpsConfig (fun c => ValidConfig c ∧ c.invert = cfg.invert) gap :=
    fun c hx => ⟨hvc c (by simp [hx]), hinv c (by simp [hx])⟩
  have hops : OpsConfig (fun c => ValidConfig c ∧ c.invert = cfg.invert) more :=
    fun c hx => ⟨hvc c (by simp [hx]), hinv c (by simp [hx])⟩
  obtain ⟨-, hstart⟩ := station_inv n cfg _ h hall fun c hx => hinv c (by simpa using hx)
  obtain ⟨done1, cur1, x1, more1, i1, hext1, hxf1, hxl1⟩ := i0.run_extends gap hops1 h1 ht1
  obtain ⟨done, cur, -, -, i2, -⟩ := i1.run_extends more hops h ht
  obtain ⟨l2, osa, osb, hab, hb2, rfl⟩ := Link.run_prefix _ _ hrun
  obtain ⟨l1, os0, os1, ha, hb1, rfl⟩ := Link.run_prefix _ _ hab
  have hi2 := hi.after_run _ hab
  obtain ⟨gs, c, rest, odd, i, ⟨x, later, hx, hxf, hxl⟩, hlo, h2, h3, h4, h5, h6, -, h8, h9, h10, h11⟩ :=
    inv_recover i1 more ht hops hstart hv seen before ts hm l2 l' osb hi2 hb2
  obtain ⟨w, later', hw, hwf, hwl⟩ : ∃ w later', (gs ++ [c]).map (·.1) = done0 ++ w :: later' ∧ w.frame = cur0.frame ∧
      cur0.outs.length ≤ w.outs.length := by
    cases more1 with
    | nil =>
      obtain ⟨rfl, hy⟩ := List.append_inj' hext1 rfl
      obtain ⟨rfl, -⟩ := List.cons.inj hy
      exact ⟨x, later, hx, hxf.trans hxf1, Nat.le_trans hxl1 hxl⟩
    | cons y ys =>
      obtain ⟨zs, z, hz⟩ : ∃ zs z, y :: ys = zs ++ [z] := ⟨_, _, (List.dropLast_concat_getLast (by simp)).symm⟩
      rw [hz, show done0 ++ x1 :: (zs ++ [z]) = (done0 ++ x1 :: zs) ++ [z] by simp] at hext1
      obtain ⟨rfl, -⟩ := List.append_inj' hext1 rfl
      exact ⟨x1, zs ++ x :: later, by rw [hx]; simp, hxf1, hxl1⟩
  obtain ⟨pre, tl, htl, hpre, htl2⟩ := List.map_eq_append_iff.mp hw
  obtain ⟨y, post, rfl, rfl, -⟩ := List.map_eq_cons_iff.mp htl2
  have hp01 := TxHist.run_out gap ht1
  have hp12 := TxHist.run_out more ht
  obtain ⟨l1', os0', h12, h13⟩ := hear_front i0 i2 hstart0 (hp01.2.trans hp12.2) hv hpre hwf
    (fun g hg => (h3 g (by rw [htl]; exact hg)).2) off seen0 before0 ts0 hm0 l hl hb
  rw [ha] at h12
  cases h12
  -- the length of what came before the disturbance
  have hlen0 : h0.out.length = (pre.flatMap fun g => g.1.outs).length + cur0.outs.length := by
    rw [i0.out_eq, List.flatMap_append, List.length_append, flatMap_outs_map, hpre]
    simp
  have hle01 := hp01.1.length_le
  have htake : ∀ k, (gs ++ [c]).take (pre.length + k) = pre ++ (y :: post).take k := by
    intro k
    rw [htl, List.take_append, List.take_of_length_le (by omega), show pre.length + k - pre.length = k by omega]
  have hylen : y.1.halves.length ≤ y.1.wave.length := (h3 y (by rw [htl]; simp)).1.halves_le
  have hwave : y.1.wave = cur0.wave := by rw [Segment.wave, Segment.wave, hwf]
  have hy : y.1.outs.length = y.1.halves.length + y.1.cut.length := by rw [Segment.outs, List.length_append]
  have hc0 : cur0.outs.length = cur0.halves.length + cur0.cut.length := by rw [Segment.outs, List.length_append]
  have hgl : gs.length = pre.length + post.length := by
    have := congrArg List.length htl
    simp at this
    omega
  have hcutne : cur0.cut ≠ [] → pre.length < gs.length ∨ c.1.cut ≠ [] := by
    intro hne
    cases post with
    | cons z zs => left; rw [hgl]; simp
    | nil =>
      right
      have : gs = pre ∧ [c] = [y] := List.append_inj' htl rfl
      obtain ⟨rfl⟩ := (List.cons.inj this.2)
      have h14 := i0.cur_ok.cut_after hne
      have : 0 < cur0.cut.length := List.length_pos_iff.mpr hne
      intro hx
      rw [hx] at hy
      simp only [List.length_nil] at hy
      rw [hwave] at hylen
      omega
  have hji : pre.length + (if cur0.cut = [] then 0 else 1) ≤ i := by
    have hbefore : ∀ m, m < pre.length → m < i := by
      intro m hm
      obtain ⟨g, hg⟩ : ∃ g, (gs ++ [c])[m]? = some g := by
        rw [htl, List.getElem?_append_left hm]
        exact ⟨_, List.getElem?_eq_getElem hm⟩
      refine hlo m g hg (.inl (by omega)) ?_
      have h14 := flatMap_take_le (fun g : Segment × Packet => g.1.outs) (gs ++ [c]) (show m + 1 ≤ pre.length + 0 by omega)
      rw [htake 0, List.take_zero, List.append_nil, List.take_add_one, hg, List.flatMap_append, List.length_append] at h14
      have : g.1.outs.length = g.1.halves.length + g.1.cut.length := by rw [Segment.outs, List.length_append]
      simp only [List.flatMap_cons, List.flatMap_nil, List.append_nil, Option.toList_some] at h14
      omega
    split
    · rename_i hc
      rcases Nat.eq_zero_or_pos pre.length with h0 | h0
      · omega
      · have := hbefore (pre.length - 1) (by omega)
        omega
    · rename_i hc
      have := hlo pre.length y (by rw [htl, List.getElem?_append_right (Nat.le_refl _)]; simp) (hcutne hc) (by
        have := htake 0
        rw [Nat.add_zero, List.take_zero, List.append_nil] at this
        rw [this]
        have h14 := i0.cur_ok.cut_after hc
        rw [hwave] at hylen
        omega)
      omega
  refine ⟨gs, c, rest, packetsOf os1, odd, pre.length + (if cur0.cut = [] then 0 else 1), i, h2, h3, h4, h5, h6,
    noise_rate hb1, h8, hji, ?_, ?_, ?_, h10, ?_, h11⟩
  · rw [List.length_append, List.length_map]
    split
    · omega
    · rename_i hc
      rcases hcutne hc with hx | hx
      · omega
      · rw [if_neg (by simpa using hx)]
        simp only [List.length_cons, List.length_nil]
        omega
  · have hfront : (gs.map (·.2) ++ if c.1.cut.isEmpty then [] else [c.2]).take
        (pre.length + (if cur0.cut = [] then 0 else 1)) = packetsOf os0 := by
      rw [h13]
      have key : ∀ k, k ≤ gs.length ∨ c.1.cut ≠ [] → (gs.map (·.2) ++ if c.1.cut.isEmpty then [] else [c.2]).take k =
          ((gs ++ [c]).take k).map (·.2) := by
        intro k hk
        by_cases hc : c.1.cut.isEmpty = true
        · have hk : k ≤ gs.length := hk.resolve_right fun hx => hx (List.isEmpty_iff.mp hc)
          rw [if_pos hc, List.append_nil, List.take_append_of_le_length hk, List.map_take]
        · rw [if_neg hc, List.map_take, List.map_append]
          rfl
      split
      · rename_i hc
        rw [key _ (.inl (by omega)), htake 0]
        simp
      · rename_i hc
        rw [key _ ((hcutne hc).imp_left fun hx => by omega), htake 1]
        simp
    rw [hfront]
    simp only [packetsOf, List.filterMap_append] at h9 ⊢
    rw [h9]
    simp only [List.append_assoc]
  · intro m hm
    refine Classical.byContradiction fun hx => ?_
    have h14 := flatMap_take_le (fun g : Segment × Packet => g.1.outs) (gs ++ [c]) (show pre.length + 1 ≤ m + 1 by
      split at hx <;> omega)
    rw [htake 1, List.flatMap_append, List.length_append] at h14
    simp only [List.flatMap_cons, List.flatMap_nil, List.append_nil, List.take_succ_cons, List.take_zero] at h14
    omega
  · have hacc0 : ((done0 ++ [cur0]).filterMap Segment.frame).length + h0.s.size n = h0.acc.length := by
      have := congrArg List.length i0.acc_eq
      rw [List.length_map, List.length_append, Tx.queue_length] at this
      omega
    have h14 : (([cur0]).filterMap Segment.frame).length ≤ 1 := List.length_filterMap_le _ _
    have h15 : (pre.filter (·.1.frame.isSome)).length ≤
        (((gs ++ [c]).take (pre.length + (if cur0.cut = [] then 0 else 1))).filter (·.1.frame.isSome)).length := by
      rw [htake, List.filter_append, List.length_append]
      omega
    rw [frames_count, hpre] at h15
    rw [List.filterMap_append, List.length_append] at hacc0
    omega

end Dcc
