import Verif.Lemmas.Tx
/-! A command station that gets no more packets: once those in the queue are sent, only idle packets
follow. -/
namespace Dcc
open Spec

theorem TxHist.run_append {n : Nat} (as bs : List TxOp) : ∀ {h h1 : TxHist}, h.run n as = .ok h1 →
    h.run n (as ++ bs) = h1.run n bs := by
  induction as with
  | nil => intro h h1 hr; cases hr; rfl
  | cons a as ih =>
    intro h h1 hr
    rw [TxHist.run, bind_eq_ok] at hr
    obtain ⟨h2, e1, e2⟩ := hr
    rw [List.cons_append, TxHist.run, e1, ok_bind]
    exact ih e2

/-- What follows when only `transmit` is called: the packets of the queue in order, then idle packets. -/
theorem TxInv.tail {n : Nat} {P : TxConfig → Prop} (m : Nat) : ∀ {h h' : TxHist} {done cur},
    TxInv n P h done cur → h.run n (List.replicate m .transmit) = .ok h' →
    ∃ done' cur' rest j k, TxInv n P h' done' cur' ∧ done' ++ [cur'] = done ++ rest ∧
      rest.map Segment.frame = cur.frame :: ((h.s.queue n).take j).map some ++ List.replicate k none ∧
      h'.s.queue n = (h.s.queue n).drop j ∧ (k = 0 ∨ (h.s.queue n).drop j = []) ∧
      h'.acc = h.acc ∧ h'.out.length = h.out.length + m ∧
      ∃ x more, rest = x :: more ∧ cur.outs.length ≤ x.outs.length := by
  induction m with
  | zero =>
    intro h h' done cur i hr
    cases hr
    exact ⟨done, cur, [cur], 0, 0, i, rfl, rfl, rfl, .inl rfl, rfl, rfl, cur, [], rfl, Nat.le_refl _⟩
  | succ m ih =>
    intro h h' done cur i hr
    rw [List.replicate_succ, TxHist.run, bind_eq_ok] at hr
    obtain ⟨h1, hs, hr⟩ := hr
    obtain ⟨h2, done1, cur1, hs', i1, hcase⟩ := i.transmit
    rw [hs] at hs'
    cases hs'
    have hone : h1.acc = h.acc ∧ h1.out.length = h.out.length + 1 := by
      simp only [TxHist.step] at hs
      rw [bind_eq_ok] at hs
      obtain ⟨x, _, hx⟩ := hs
      simp only [pure_eq_ok, Except.ok.injEq] at hx
      subst hx
      exact ⟨rfl, by simp⟩
    obtain ⟨done', cur', rest, j, k, i', e1, e2, e3, e4, e5, e6, x, more, e7, e8⟩ := ih i1 hr
    rw [hone.1] at e5
    rw [hone.2] at e6
    rcases hcase with ⟨rfl, hf, hq⟩ | ⟨_, rfl, hf, hq⟩
    · rw [hf, hq] at e2
      rw [hq] at e3 e4
      have h8 := congrArg List.length i.out_eq
      have h9 := congrArg List.length i1.out_eq
      simp only [List.flatMap_append, List.length_append, List.flatMap_cons, List.flatMap_nil,
        List.append_nil] at h8 h9
      exact ⟨done', cur', rest, j, k, i', e1, e2, e3, e4, e5, by omega, x, more, e7, by omega⟩
    · rw [hf, hq] at e2
      rw [hq] at e3 e4
      cases hc : h.s.queue n with
      | nil =>
        rw [hc] at e2 e3
        refine ⟨done', cur', cur :: rest, 0, k + 1, i', by rw [e1]; simp, ?_, by simpa using e3, .inr rfl, e5,
          by omega, cur, rest, rfl, Nat.le_refl _⟩
        rw [List.map_cons, e2]
        simp [List.replicate_succ]
      | cons a qs =>
        rw [hc] at e2 e3 e4
        refine ⟨done', cur', cur :: rest, j + 1, k, i', by rw [e1]; simp, ?_, by simpa using e3, by simpa using e4,
          e5, by omega, cur, rest, rfl, Nat.le_refl _⟩
        rw [List.map_cons, e2]
        simp

/-- No packet takes longer than the longest one. -/
theorem TxInv.longest {n : Nat} {P : TxConfig → Prop} (hP : ∀ c, P c → ValidConfig c) {h : TxHist} {done cur}
    (i : TxInv n P h done cur) : ∀ g ∈ done ++ [cur],
      g.outs.length ≤ (if g.frame.isSome then Spec.longest else idling) := by
  intro g hg
  have hok : g.Ok P := by
    rcases List.mem_append.mp hg with hg | hg
    · exact (i.done_ok g hg).1
    · rw [List.mem_singleton.mp hg]; exact i.cur_ok
  have h1 := hok.halves_le
  have h2 := hok.cut_le
  rw [Segment.outs, List.length_append]
  cases hf : g.frame with
  | none =>
    have hw : g.wave = idleWave := by rw [Segment.wave, hf]; rfl
    rw [hw, idleWave, packetWave_length] at h1
    simp only [List.length_cons, List.length_nil, BitVec.toNat_ofNat] at h1
    simp only [Option.isSome_none, Bool.false_eq_true, if_false, idling]
    omega
  | some w =>
    have hm : w ∈ h.acc.map (fun a => packetWave a.1 a.2) := by
      rw [i.acc_eq]
      exact List.mem_append_left _ (List.mem_filterMap.mpr ⟨g, hg, hf⟩)
    obtain ⟨a, ha, rfl⟩ := List.mem_map.mp hm
    have hw : g.wave = packetWave a.1 a.2 := by rw [Segment.wave, hf]; rfl
    have ha := i.acc_ok a ha
    have hc := (hP _ ha.1).2.1
    have hl := ha.2
    rw [hw, packetWave_length] at h1
    simp only [Option.isSome_some, if_true, Spec.longest]
    simp only [maxPacketSize] at hl
    omega

/-- A sum of lengths. -/
theorem flatMap_le {α β : Type} (f : α → List β) (b : Nat) (l : List α) (h : ∀ a ∈ l, (f a).length ≤ b) :
    (l.flatMap f).length ≤ b * l.length := by
  induction l with
  | nil => simp
  | cons a l ih =>
    have h1 := h a (by simp)
    have h2 := ih fun x hx => h x (by simp [hx])
    rw [List.flatMap_cons, List.length_append, List.length_cons, Nat.mul_succ]
    omega

/-- Long enough after the last packet at least `k` idle packets have been begun, and all others are sent. -/
theorem TxInv.settled {n : Nat} {P : TxConfig → Prop} (hP : ∀ c, P c → ValidConfig c) {h h' : TxHist} {done cur}
    (i : TxInv n P h done cur) (m k : Nat) (hr : h.run n (List.replicate m .transmit) = .ok h')
    (hm : (h.s.size n + 1) * Spec.longest + k * idling < m) :
    ∃ done' cur' front back, TxInv n P h' done' cur' ∧ done' = front ++ back ∧ back.length = k ∧
      (∀ g ∈ back ++ [cur'], g.frame = none) ∧ h'.s.queue n = [] ∧ h'.acc = h.acc ∧ done.length < front.length ∧
      ∃ x more, done' ++ [cur'] = done ++ x :: more ∧ x.frame = cur.frame ∧ cur.outs.length ≤ x.outs.length := by
  obtain ⟨done', cur', rest, j, k', i', e1, e2, e3, e4, e5, e6, x, more, e9, e10⟩ := i.tail m hr
  -- the calls of the packets after `done`
  have hout : (rest.flatMap Segment.outs).length = cur.outs.length + m := by
    have o1 := i.out_eq
    have o2 := i'.out_eq
    rw [e1] at o2
    rw [o1, o2] at e6
    simp only [List.flatMap_append, List.length_append, List.flatMap_cons, List.flatMap_nil, List.length_nil] at e6
    omega
  have hj : ((h.s.queue n).take j).length ≤ h.s.size n := by
    rw [← Tx.queue_length]
    exact List.length_take_le' ..
  -- split them
  rw [List.cons_append, List.map_eq_cons_iff] at e2
  obtain ⟨c0, rest1, rfl, hc0, e2⟩ := e2
  obtain ⟨rfl, rfl⟩ := List.cons.inj e9
  obtain ⟨r1, r2, rfl, e7, e8⟩ := List.map_eq_append_iff.mp e2
  have hl1 : r1.length = ((h.s.queue n).take j).length := by
    have := congrArg List.length e7
    simpa using this
  have hl2 : r2.length = k' := by
    have := congrArg List.length e8
    simpa using this
  have hnone : ∀ g ∈ r2, g.frame = none := by
    intro g hg
    have : g.frame ∈ r2.map Segment.frame := List.mem_map_of_mem hg
    rw [e8] at this
    exact List.eq_of_mem_replicate this
  have hmem : ∀ g ∈ c0 :: (r1 ++ r2), g ∈ done' ++ [cur'] := by
    intro g hg
    rw [e1]
    exact List.mem_append_right _ hg
  have b1 : ((c0 :: r1).flatMap Segment.outs).length ≤ Spec.longest * (c0 :: r1).length := by
    refine flatMap_le _ _ _ fun g hg => ?_
    refine Nat.le_trans (i'.longest hP g (hmem g (by
      rcases List.mem_cons.mp hg with rfl | hg
      · simp
      · simp [hg]))) ?_
    split
    · exact Nat.le_refl _
    · decide
  have b2 : (r2.flatMap Segment.outs).length ≤ idling * r2.length := by
    refine flatMap_le _ _ _ fun g hg => ?_
    have := i'.longest hP g (hmem g (by simp [hg]))
    rw [hnone g hg] at this
    exact this
  have hk : k < k' := by
    rw [← List.cons_append, List.flatMap_append, List.length_append] at hout
    rw [List.length_cons, hl1] at b1
    rw [hl2] at b2
    refine Decidable.byContradiction fun hn => ?_
    have hx : idling * k' ≤ k * idling := by
      rw [Nat.mul_comm]; exact Nat.mul_le_mul_right _ (by omega)
    have hy : Spec.longest * (((h.s.queue n).take j).length + 1) ≤ (h.s.size n + 1) * Spec.longest := by
      rw [Nat.mul_comm]; exact Nat.mul_le_mul_right _ (by omega)
    omega
  have hempty : (h.s.queue n).drop j = [] := by
    rcases e4 with h0 | h0
    · omega
    · exact h0
  -- the last of them is the current one
  have hne : r2 ≠ [] := by intro h0; rw [h0] at hl2; simp at hl2; omega
  obtain ⟨b, c, rfl⟩ : ∃ b c, r2 = b ++ [c] := ⟨_, _, (List.dropLast_concat_getLast hne).symm⟩
  have e1' : done' ++ [cur'] = (done ++ c0 :: (r1 ++ b)) ++ [c] := by rw [e1]; simp
  obtain ⟨hd, hc⟩ := List.append_inj' e1' rfl
  cases hc
  rw [List.length_append, List.length_cons, List.length_nil] at hl2
  refine ⟨done', cur', done ++ c0 :: (r1 ++ b.take (b.length - k)), b.drop (b.length - k), i', ?_, ?_, ?_, ?_, e5,
    by simp, _, _, e1, hc0, e10⟩
  · rw [hd]
    have := List.take_append_drop (b.length - k) b
    rw [List.append_assoc, List.cons_append, List.append_assoc, this]
  · rw [List.length_drop]; omega
  · intro g hg
    refine hnone g ?_
    rcases List.mem_append.mp hg with hg | hg
    · exact List.mem_append_left _ (List.mem_of_mem_drop hg)
    · exact List.mem_append_right _ hg
  · rw [e3, hempty]

end Dcc
