import Verif.Lemmas.TxIdle
/-! How long a packet waits in a command station, whatever it gets afterwards. -/
namespace Dcc
open Spec

/-- The time in µs some calls of `transmit` cover. -/
def Spec.lasting (outs : List TxOut) : Nat := (outs.map TxOut.duration).sum

/-- What the station sent stays sent. -/
theorem TxHist.run_out {n : Nat} (ops : List TxOp) : ∀ {h h' : TxHist}, h.run n ops = .ok h' →
    h.out <+: h'.out ∧ h.acc <+: h'.acc := by
  induction ops with
  | nil => intro h h' hr; cases hr; exact ⟨List.prefix_rfl, List.prefix_rfl⟩
  | cons op ops ih =>
    intro h h' hr
    rw [TxHist.run, bind_eq_ok] at hr
    obtain ⟨h1, hs, hr⟩ := hr
    have h2 := ih hr
    suffices h.out <+: h1.out ∧ h.acc <+: h1.acc from ⟨this.1.trans h2.1, this.2.trans h2.2⟩
    cases op <;> simp only [TxHist.step] at hs <;> rw [bind_eq_ok] at hs <;> obtain ⟨x, _, hs⟩ := hs <;>
      simp only [pure_eq_ok, Except.ok.injEq] at hs <;> subst hs
    · exact ⟨List.prefix_rfl, List.prefix_rfl⟩
    · refine ⟨List.prefix_rfl, ?_⟩
      dsimp only
      split
      · exact List.prefix_rfl
      · exact List.prefix_append _ _
    · exact ⟨List.prefix_append _ _, List.prefix_rfl⟩

/-- Getting a packet leaves those in the queue in front of it. -/
theorem TxInv.queue_prefix {n P} {h h' : TxHist} {done cur} (i : TxInv n P h done cur) (i' : TxInv n P h' done cur)
    (ha : h.acc <+: h'.acc) : h.s.queue n <+: h'.s.queue n := by
  obtain ⟨as, ha⟩ := ha
  have e := i'.acc_eq
  rw [← ha, List.map_append, i.acc_eq, List.append_assoc] at e
  exact ⟨_, List.append_cancel_left e⟩

/-- What follows, whatever the station is asked for: the packets of the queue in order. -/
theorem TxInv.run_fifo {n P} (ops : List TxOp) : ∀ {h done cur}, TxInv n P h done cur → OpsConfig P ops →
    ∀ h', h.run n ops = .ok h' → ∃ done' cur' x more, TxInv n P h' done' cur' ∧
      done' ++ [cur'] = done ++ x :: more ∧ x.frame = cur.frame ∧
      ∀ (k : Nat) w, (h.s.queue n)[k]? = some w → ∀ g, more[k]? = some g → g.frame = some w := by
  induction ops with
  | nil => intro h done cur i _ h' hr; cases hr; exact ⟨done, cur, cur, [], i, rfl, rfl, by simp⟩
  | cons op ops ih =>
    intro h done cur i hc h' hr
    have hr0 := hr
    rw [TxHist.run, bind_eq_ok] at hr
    obtain ⟨h1, hs, hr⟩ := hr
    have hc' : OpsConfig P ops := fun c hm => hc c (List.mem_cons_of_mem _ hm)
    have hp : h.acc <+: h1.acc := (TxHist.run_out [op] (by rw [TxHist.run, hs]; rfl)).2
    have same : ∀ (i1 : TxInv n P h1 done cur), ∃ done' cur' x more, TxInv n P h' done' cur' ∧
        done' ++ [cur'] = done ++ x :: more ∧ x.frame = cur.frame ∧
        ∀ (k : Nat) w, (h.s.queue n)[k]? = some w → ∀ g, more[k]? = some g → g.frame = some w := by
      intro i1
      obtain ⟨done', cur', x, more, h3, h4, h5, h6⟩ := ih i1 hc' h' hr
      obtain ⟨q, hq⟩ := i.queue_prefix i1 hp
      refine ⟨done', cur', x, more, h3, h4, h5, fun k w hk => h6 k w ?_⟩
      rw [← hq, List.getElem?_append_left (List.getElem?_eq_some_iff.mp hk).1, hk]
    cases op with
    | init c => exact same (i.init c (hc c (by simp)) h1 hs)
    | bytes bs => exact same (i.bytes bs h1 hs)
    | transmit =>
      obtain ⟨h2, d2, c2, e2, i2, hcase⟩ := i.transmit
      rw [hs] at e2
      cases e2
      obtain ⟨done', cur', x, more, h3, h4, h5, h6⟩ := ih i2 hc' h' hr
      rcases hcase with ⟨rfl, h7, h8⟩ | ⟨_, rfl, h7, h8⟩
      · exact ⟨done', cur', x, more, h3, h4, by rw [h5, h7], by rw [h8] at h6; exact h6⟩
      · refine ⟨done', cur', cur, x :: more, h3, by rw [h4]; simp, rfl, ?_⟩
        intro k w hk g hg
        cases hq : h.s.queue n with
        | nil => rw [hq] at hk; simp at hk
        | cons a qs =>
          rw [hq] at hk h7 h8
          cases k with
          | zero =>
            simp only [List.getElem?_cons_zero, Option.some.injEq] at hk hg
            subst hk hg
            rw [h5, h7]; rfl
          | succ k =>
            simp only [List.getElem?_cons_succ] at hk hg
            exact h6 k w (by rw [h8]; exact hk) g hg

theorem lasting_append (as bs : List TxOut) : lasting (as ++ bs) = lasting as + lasting bs := by
  simp [lasting]

/-- First elements of a list sum up to no more. -/
theorem lasting_le (v : List Nat) : ∀ (outs : List TxOut),
    (∀ (i : Nat) o, outs[i]? = some o → v[i]? = some o.duration) → lasting outs ≤ v.sum := by
  induction v with
  | nil =>
    intro outs h
    cases outs with
    | nil => simp [lasting]
    | cons o os => have := h 0 o rfl; simp at this
  | cons d v ih =>
    intro outs h
    cases outs with
    | nil => simp [lasting]
    | cons o os =>
      have h0 := h 0 o rfl
      have h1 := ih os fun i x hx => by simpa using h (i + 1) x (by simpa using hx)
      simp only [List.getElem?_cons_zero, Option.some.injEq] at h0
      simp only [lasting, List.map_cons, List.sum_cons] at h1 ⊢
      omega

/-- A packet takes no longer than its half bits and a cutout. -/
theorem Spec.Segment.Ok.lasting_le {P : TxConfig → Prop} {g : Segment} (h : g.Ok P) :
    lasting g.outs ≤ g.wave.sum + 471 := by
  rw [Segment.outs, lasting_append]
  have h1 := Dcc.lasting_le g.wave g.halves fun i o hi => by
    obtain ⟨c, d, _, hd, rfl⟩ := h.halves_eq i o hi
    rw [hd]
    simp only [halfOut]
    split <;> rfl
  have h2 := Dcc.lasting_le [29, 51, 113, 261, 17] g.cut fun i o hi => by
    obtain ⟨c, _, _, hd⟩ := h.cut_eq i o hi
    have : ((cutOut c).map TxOut.duration)[i]? = some o.duration := by rw [List.getElem?_map, hd]; rfl
    exact this
  have h3 : [29, 51, 113, 261, 17].sum = 471 := rfl
  omega

theorem lasting_flatMap (w : Nat) (l : List Segment) (h : ∀ g ∈ l, lasting g.outs ≤ w) :
    lasting (l.flatMap Segment.outs) ≤ w * l.length := by
  induction l with
  | nil => simp [lasting]
  | cons g l ih =>
    have h1 := h g (by simp)
    have h2 := ih fun x hx => h x (by simp [hx])
    rw [List.flatMap_cons, lasting_append, List.length_cons, Nat.mul_succ]
    omega

/-- Long enough afterwards everything accepted has been sent, and `k` packets after it, whatever the station has got
meanwhile. -/
theorem TxInv.in_time {n : Nat} {P : TxConfig → Prop} {h h' : TxHist} {done cur} (i : TxInv n P h done cur)
    (ops : List TxOp) (hc : OpsConfig P ops) (hr : h.run n ops = .ok h') (w k : Nat)
    (hi : idleWave.sum + 471 ≤ w) (hw : ∀ a ∈ h'.acc, (packetWave a.1 a.2).sum + 471 ≤ w)
    (ht : (h.s.size n + k + 1) * w < lasting (h'.out.drop h.out.length)) :
    ∃ done' cur' sent after, TxInv n P h' done' cur' ∧ done' = sent ++ after ∧ k ≤ after.length ∧
      h.acc.length ≤ (sent.filterMap Segment.frame).length := by
  obtain ⟨done', cur', x, more, i', hext, hx, hq⟩ := i.run_fifo ops hc h' hr
  -- every packet on the track lasts no longer than `w`
  have hlong : ∀ g ∈ done' ++ [cur'], lasting g.outs ≤ w := by
    intro g hg
    have hok : g.Ok P := by
      rcases List.mem_append.mp hg with hg | hg
      · exact (i'.done_ok g hg).1
      · rw [List.mem_singleton.mp hg]; exact i'.cur_ok
    refine Nat.le_trans hok.lasting_le ?_
    cases hf : g.frame with
    | none => rw [Segment.wave, hf]; exact hi
    | some v =>
      have hm : v ∈ h'.acc.map (fun a => packetWave a.1 a.2) := by
        rw [i'.acc_eq]
        exact List.mem_append_left _ (List.mem_filterMap.mpr ⟨g, hg, hf⟩)
      obtain ⟨a, ha, rfl⟩ := List.mem_map.mp hm
      rw [Segment.wave, hf]
      exact hw a ha
  -- so there are enough of them
  have hcount : h.s.size n + k + 1 < (x :: more).length := by
    have hsum : lasting (h'.out.drop h.out.length) ≤ w * (x :: more).length := by
      refine Nat.le_trans ?_ (lasting_flatMap w (x :: more) fun g hg => hlong g (by
        rw [hext]; exact List.mem_append_right _ hg))
      obtain ⟨new, hnew⟩ := (TxHist.run_out ops hr).1
      have e := congrArg lasting i'.out_eq
      have e0 := congrArg lasting i.out_eq
      rw [hext, ← hnew, lasting_append, List.flatMap_append, lasting_append] at e
      rw [List.flatMap_append, lasting_append] at e0
      rw [← hnew, List.drop_left]
      omega
    have := Nat.lt_of_lt_of_le ht hsum
    rw [Nat.mul_comm w] at this
    exact Nat.lt_of_mul_lt_mul_right this
  rw [List.length_cons] at hcount
  have hsize : (h.s.queue n).length = h.s.size n := Tx.queue_length ..
  -- the packets of the queue
  have hfr : (more.take (h.s.size n)).filterMap Segment.frame = h.s.queue n := by
    have hm : (more.take (h.s.size n)).map Segment.frame = (h.s.queue n).map some := by
      refine List.ext_getElem? fun j => ?_
      rw [List.getElem?_map, List.getElem?_map]
      by_cases hj : j < h.s.size n
      · rw [List.getElem?_take_of_lt hj]
        have h1 : more[j]? = some more[j] := List.getElem?_eq_getElem (by omega)
        have h2 : (h.s.queue n)[j]? = some (h.s.queue n)[j] := List.getElem?_eq_getElem (by omega)
        rw [h1, h2, Option.map_some, Option.map_some, hq j _ h2 _ h1]
      · rw [List.getElem?_eq_none (by rw [List.length_take]; omega), List.getElem?_eq_none (by omega)]
        rfl
    have : ∀ l : List Segment, l.filterMap Segment.frame = (l.map Segment.frame).filterMap id := by
      intro l; simp [List.filterMap_map]
    rw [this, hm, List.filterMap_map]
    simp
  have hne : more ≠ [] := by rintro rfl; simp at hcount
  have hdone : done' = done ++ x :: more.dropLast := by
    have h1 := congrArg List.dropLast hext
    rw [List.dropLast_concat] at h1
    rw [h1, List.dropLast_append_of_ne_nil (by simp), List.dropLast_cons_of_ne_nil hne]
  have hsplit : more.dropLast = more.take (h.s.size n) ++ more.dropLast.drop (h.s.size n) := by
    have h1 : more.take (h.s.size n) = more.dropLast.take (h.s.size n) := by
      rw [List.dropLast_eq_take, List.take_take, Nat.min_eq_left (by omega)]
    rw [h1, List.take_append_drop]
  refine ⟨done', cur', done ++ x :: more.take (h.s.size n), more.dropLast.drop (h.s.size n), i', ?_, ?_, ?_⟩
  · rw [hdone, List.append_assoc, List.cons_append, ← hsplit]
  · rw [List.length_drop, List.length_dropLast]; omega
  · have ha := congrArg List.length i.acc_eq
    rw [List.length_map, List.filterMap_append, List.filterMap_cons, ← hx] at ha
    have hb : (done ++ x :: more.take (h.s.size n)).filterMap Segment.frame =
        done.filterMap Segment.frame ++ (x :: more.take (h.s.size n)).filterMap Segment.frame := by
      rw [List.filterMap_append]
    rw [hb, List.filterMap_cons, hfr]
    cases hxf : x.frame <;> rw [hxf] at ha <;> simp at ha ⊢ <;> omega

end Dcc
