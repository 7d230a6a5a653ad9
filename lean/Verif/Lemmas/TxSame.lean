import Verif.Lemmas.Tx
/-! Command stations that are configured anew with other durations or another preamble, but with the same polarity and
with BiDi switched on or off as before. -/
namespace Dcc
open Spec

theorem halfOut_invert {c c' : TxConfig} (h : c.invert = c'.invert) (i d : Nat) : halfOut c i d = halfOut c' i d := by
  unfold halfOut
  rw [h]

theorem cutOut_invert {c c' : TxConfig} (h : c.invert = c'.invert) : cutOut c = cutOut c' := by
  unfold cutOut
  rw [h]

theorem segment_same {c0 : TxConfig} {g : Segment} (h : g.Ok fun c => c.invert = c0.invert ∧ c.bidi = c0.bidi) :
    g.Ok (· = c0) := by
  refine ⟨h.halves_le, fun i o ho => ?_, h.cut_le, h.cut_after, fun i o ho => ?_⟩
  · obtain ⟨c, d, hc, hd, e⟩ := h.halves_eq i o ho
    exact ⟨c0, d, rfl, hd, e.trans (halfOut_invert hc.1 i d)⟩
  · obtain ⟨c, hc, hb, e⟩ := h.cut_eq i o ho
    exact ⟨c0, rfl, hc.2 ▸ hb, cutOut_invert hc.1 ▸ e⟩

theorem complete_same {c0 : TxConfig} {g : Segment} (h : g.Complete fun c => c.invert = c0.invert ∧ c.bidi = c0.bidi) :
    g.Complete (· = c0) := by
  refine ⟨h.halves, h.cut.imp id ?_⟩
  rintro ⟨c, hc, hb⟩
  exact ⟨c0, rfl, hc.2 ▸ hb⟩

/-- The whole stream of such a station. -/
theorem stream_same (n : Nat) (c0 : TxConfig) (ops : List TxOp) (h : TxHist)
    (hc : ∀ c, .init c ∈ ops → c.invert = c0.invert ∧ c.bidi = c0.bidi)
    (hr : ({ s := {} } : TxHist).run n (.init c0 :: ops) = .ok h) :
    ∃ (frames : List (Option (List Nat))) (last : Option (List Nat)) (k : Nat) (waiting : List (List Nat)),
      h.out = frames.flatMap (wholeOuts c0) ++ (wholeOuts c0 last).take k ∧
      h.acc.map (fun a => packetWave a.1 a.2) = (frames ++ [last]).filterMap id ++ waiting ∧
      waiting.length ≤ n := by
  obtain ⟨done, cur, i⟩ := TxInv.reachable_init (P := fun c => c.invert = c0.invert ∧ c.bidi = c0.bidi) c0 ⟨rfl, rfl⟩
    ops hc h hr
  refine ⟨done.map Segment.frame, cur.frame, cur.outs.length, h.s.queue n, ?_, ?_, ?_⟩
  · rw [i.out_eq, List.flatMap_append, List.flatMap_map]
    congr 1
    · exact flatMap_congr_mem _ _ _ fun g hg =>
        outs_eq_complete (segment_same (i.done_ok g hg).1) (complete_same (i.done_ok g hg).2)
    · rw [List.flatMap_cons, List.flatMap_nil, List.append_nil]
      exact outs_eq_take (segment_same i.cur_ok)
  · rw [i.acc_eq]
    congr 1
    rw [show done.map Segment.frame ++ [cur.frame] = (done ++ [cur]).map Segment.frame by simp, List.filterMap_map]
    rfl
  · rw [Tx.queue_length]
    exact Tx.size_le n h.s

end Dcc
