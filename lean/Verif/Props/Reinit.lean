import Verif.Lemmas.TxIdle
import Verif.Props.Tx
import Verif.Spec.Reinit
/-! A command station that is configured anew while it transmits: C121. -/
namespace Dcc
open Spec

/-- Where in a cutout a station is. -/
structure CutoutInv (h : TxHist) : Prop where
  calls : ∃ k, cutoutCalls h.out = (List.replicate k cutoutEvents).flatten ++ cutoutEvents.take (h.s.bidiCount - 1)
  off : h.s.cfg.bidi = false → h.s.bidiCount ≤ 1 ∨ h.s.bidiCount = 5
  le : h.s.bidiCount ≤ 5

theorem cutoutCalls_append (a b : List TxOut) : cutoutCalls (a ++ b) = cutoutCalls a ++ cutoutCalls b := by
  unfold cutoutCalls
  rw [List.flatMap_append, List.filter_append]

theorem flatten_length (k : Nat) : (List.replicate k cutoutEvents).flatten.length = 4 * k := by
  rw [List.length_flatten, List.map_replicate, List.sum_replicate_nat]
  show k * 4 = _
  omega

theorem packetTiming_calls {s s' : Tx} {o : TxOut} (h : s.packetTiming = .ok (s', o)) :
    s' = { s with packetCount := s.packetCount + 1 } ∧ cutoutCalls [o] = [] := by
  unfold Tx.packetTiming at h
  split at h
  · cases h
  · cases h
    refine ⟨rfl, ?_⟩
    unfold cutoutCalls
    split <;> rfl

theorem CutoutInv.step {n : Nat} {h h' : TxHist} {op : TxOp} (hi : CutoutInv h) (hs : h.step n op = .ok h')
    (hc : ∀ c, op = .init c → c.bidi = false → (cutoutCalls h.out).length % 4 = 0) : CutoutInv h' := by
  obtain ⟨⟨k, hk⟩, hoff, hle⟩ := hi
  cases op with
  | init c =>
    rw [TxHist.step, bind_eq_ok] at hs
    obtain ⟨s1, h1, h2⟩ := hs
    cases h2
    unfold Tx.init at h1
    split at h1
    · cases h1
      refine ⟨⟨k, hk⟩, fun hb => ?_, hle⟩
      have hm := hc c rfl hb
      rw [hk, List.length_append, flatten_length, List.length_take] at hm
      have : cutoutEvents.length = 4 := rfl
      show h.s.bidiCount ≤ 1 ∨ h.s.bidiCount = 5
      omega
    · cases h1
  | bytes bs =>
    rw [TxHist.step, bind_eq_ok] at hs
    obtain ⟨s1, h1, h2⟩ := hs
    cases h2
    have hsame : s1.bidiCount = h.s.bidiCount ∧ s1.cfg = h.s.cfg := by
      unfold Tx.bytes at h1
      split at h1
      · cases h1; exact ⟨rfl, rfl⟩
      · split at h1
        · rw [bind_eq_ok] at h1
          obtain ⟨t, -, h3⟩ := h1
          cases h3
          exact ⟨rfl, rfl⟩
        · cases h1
    refine ⟨⟨k, ?_⟩, fun hb => ?_, ?_⟩
    · show cutoutCalls h.out = _ ++ cutoutEvents.take (s1.bidiCount - 1)
      rw [hsame.1]; exact hk
    · show s1.bidiCount ≤ 1 ∨ s1.bidiCount = 5
      rw [hsame.1]
      exact hoff (by have hb : s1.cfg.bidi = false := hb; rw [hsame.2] at hb; exact hb)
    · show s1.bidiCount ≤ 5
      rw [hsame.1]; exact hle
  | transmit =>
    rw [TxHist.step, bind_eq_ok] at hs
    obtain ⟨⟨s1, o⟩, h1, h2⟩ := hs
    cases h2
    unfold Tx.transmit at h1
    split at h1
    · obtain ⟨rfl, h3⟩ := packetTiming_calls h1
      refine ⟨⟨k, ?_⟩, hoff, hle⟩
      show cutoutCalls (h.out ++ [o]) = _
      rw [cutoutCalls_append, h3, List.append_nil]
      exact hk
    · split at h1
      · rename_i hb
        obtain ⟨hb1, hb2⟩ := hb
        have ho : s1 = h.s.bidiTiming.1 ∧ o = h.s.bidiTiming.2 := by
          injection h1 with h1
          rw [h1]
          exact ⟨rfl, rfl⟩
        obtain ⟨rfl, rfl⟩ := ho
        have hcnt : h.s.bidiTiming.1.bidiCount = h.s.bidiCount + 1 := by
          unfold Tx.bidiTiming
          split <;> rfl
        have hcfg : h.s.bidiTiming.1.cfg = h.s.cfg := by
          unfold Tx.bidiTiming
          split <;> rfl
        have hcall : cutoutEvents.take (h.s.bidiCount - 1) ++ cutoutCalls [h.s.bidiTiming.2] =
            cutoutEvents.take h.s.bidiCount := by
          have h5 : h.s.bidiCount = 0 ∨ h.s.bidiCount = 1 ∨ h.s.bidiCount = 2 ∨ h.s.bidiCount = 3 ∨
              h.s.bidiCount = 4 := by omega
          unfold Tx.bidiTiming
          rcases h5 with h5 | h5 | h5 | h5 | h5 <;> rw [h5] <;> rfl
        refine ⟨⟨k, ?_⟩, fun hx => ?_, ?_⟩
        · show cutoutCalls (h.out ++ [h.s.bidiTiming.2]) = _ ++ cutoutEvents.take (h.s.bidiTiming.1.bidiCount - 1)
          rw [cutoutCalls_append, hk, List.append_assoc, hcall, hcnt, Nat.add_sub_cancel]
        · have hx : h.s.bidiTiming.1.cfg.bidi = false := hx
          rw [hcfg, hb1] at hx
          cases hx
        · show h.s.bidiTiming.1.bidiCount ≤ 5
          omega
      · rename_i hb
        have hbc : h.s.bidiCount ≤ 1 ∨ h.s.bidiCount = 5 := by
          cases hx : h.s.cfg.bidi with
          | false => exact hoff hx
          | true => exact .inr (by have : ¬ h.s.bidiCount ≤ 4 := fun h4 => hb ⟨hx, h4⟩; omega)
        have hk' : ∃ k, cutoutCalls h.out = (List.replicate k cutoutEvents).flatten := by
          rcases hbc with hbc | hbc
          · exact ⟨k, by rw [hk, show h.s.bidiCount - 1 = 0 by omega, List.take_zero, List.append_nil]⟩
          · refine ⟨k + 1, ?_⟩
            rw [hk, hbc, List.replicate_succ', List.flatten_append]
            rfl
        obtain ⟨k', hk'⟩ := hk'
        dsimp only at h1
        obtain ⟨rfl, h3⟩ := packetTiming_calls h1
        refine ⟨⟨k', ?_⟩, fun _ => .inl (Nat.zero_le 1), Nat.zero_le 5⟩
        show cutoutCalls (h.out ++ [o]) = _ ++ cutoutEvents.take (0 - 1)
        rw [cutoutCalls_append, h3, hk']
        rfl

theorem CutoutInv.run {n : Nat} : ∀ (ops : List TxOp) {h h' : TxHist}, CutoutInv h → considerate n h ops →
    h.run n ops = .ok h' → CutoutInv h' := by
  intro ops
  induction ops with
  | nil => intro h h' hi _ hr; cases hr; exact hi
  | cons op ops ih =>
    intro h h' hi hc hr
    rw [TxHist.run, bind_eq_ok] at hr
    obtain ⟨h1, hs, hr⟩ := hr
    unfold considerate at hc
    rw [hs] at hc
    have hc1 := hc.1
    refine ih (hi.step hs ?_) hc.2 hr
    intro c ho
    rw [ho] at hc1
    exact hc1

/-- **C121** (partial) However often a command station is configured anew, and whatever it is given to transmit: as long
as BiDi is not switched off within a cutout, the calls for cutouts are whole cutouts one after the other, the last of
which may not be over. -/
theorem C121_cutouts_partial (n : Nat) (ops : List TxOp) (h : TxHist)
    (hr : ({ s := {} } : TxHist).run n ops = .ok h) (hc : considerate n { s := {} } ops) :
    InTurn (cutoutCalls h.out) := by
  have hi : CutoutInv { s := {} } := ⟨⟨0, rfl⟩, fun _ => .inl (Nat.zero_le 1), Nat.zero_le 5⟩
  obtain ⟨⟨k, hk⟩, -, -⟩ := CutoutInv.run ops hi hc hr
  refine ⟨k + 1, ?_⟩
  rw [hk, List.replicate_succ', List.flatten_append, List.flatten_singleton]
  exact (List.prefix_append_right_inj _).mpr (List.take_prefix _ _)

/-- The idle packet and the first two steps of the cutout behind it. -/
def untilStart : List TxOp := .init {} :: List.replicate (idleTimings.length + 2) .transmit

/-- BiDi switched off after the first cutout and on again: two cutouts, the second of which is not over. -/
example : considerate 3 { s := {} } (untilStart ++ [.transmit, .transmit, .transmit, .init { bidi := false },
      .init { invert := true }] ++ List.replicate (idleTimings.length + 3) .transmit) ∧
    (match ({ s := {} } : TxHist).run 3 (untilStart ++ [.transmit, .transmit, .transmit, .init { bidi := false },
        .init { invert := true }] ++ List.replicate (idleTimings.length + 3) .transmit) with
      | .ok h => decide (cutoutCalls h.out = cutoutEvents ++ [.biDiStart, .biDiChannel1])
      | .error _ => false) = true := by
  exact ⟨by decide +kernel, by decide +kernel⟩

/-- A station that has BiDi switched off makes no calls for cutouts. -/
theorem transmit_off {n : Nat} {s s' : Tx} {o : TxOut} (hb : s.cfg.bidi = false) (h : s.transmit n = .ok (s', o)) :
    s'.cfg.bidi = false ∧ cutoutCalls [o] = [] := by
  unfold Tx.transmit at h
  split at h
  · obtain ⟨rfl, h3⟩ := packetTiming_calls h
    exact ⟨hb, h3⟩
  · split at h
    · rename_i hx
      rw [hb] at hx
      exact absurd hx.1 (by decide)
    · dsimp only at h
      obtain ⟨rfl, h3⟩ := packetTiming_calls h
      refine ⟨?_, h3⟩
      dsimp only
      split <;> exact hb

/-- **C121** Once BiDi is switched off, at whatever moment, no call for a cutout is made until the station is configured
again: a cutout that is open then stays open. -/
theorem C121_off (n : Nat) : ∀ (ops : List TxOp) (h h' : TxHist), h.s.cfg.bidi = false → (∀ c, .init c ∉ ops) →
    h.run n ops = .ok h' → cutoutCalls h'.out = cutoutCalls h.out := by
  intro ops
  induction ops with
  | nil => intro h h' _ _ hr; cases hr; rfl
  | cons op ops ih =>
    intro h h' hb hno hr
    rw [TxHist.run, bind_eq_ok] at hr
    obtain ⟨h1, hs, hr⟩ := hr
    have hno' : ∀ c, .init c ∉ ops := fun c hm => hno c (List.mem_cons_of_mem _ hm)
    cases op with
    | init c => exact absurd List.mem_cons_self (hno c)
    | bytes bs =>
      rw [TxHist.step, bind_eq_ok] at hs
      obtain ⟨s1, h2, h3⟩ := hs
      cases h3
      refine (ih _ h' (?_ : s1.cfg.bidi = false) hno' hr).trans rfl
      unfold Tx.bytes at h2
      split at h2
      · cases h2; exact hb
      · split at h2
        · rw [bind_eq_ok] at h2
          obtain ⟨t, -, h3⟩ := h2
          cases h3
          exact hb
        · cases h2
    | transmit =>
      rw [TxHist.step, bind_eq_ok] at hs
      obtain ⟨⟨s1, o⟩, h2, h3⟩ := hs
      cases h3
      obtain ⟨hb', ho⟩ := transmit_off hb h2
      rw [ih _ h' hb' hno' hr]
      show cutoutCalls (h.out ++ [o]) = _
      rw [cutoutCalls_append, ho, List.append_nil]

/-- **C121** is false of the code as it is: a station that is configured without BiDi right after `biDiStart` never calls
`biDiEnd`, whatever it transmits from then on. -/
theorem C121_open_false (ops : List TxOp) (h : TxHist) (hno : ∀ c, .init c ∉ ops)
    (hr : ({ s := {} } : TxHist).run 3 (untilStart ++ .init { bidi := false } :: ops) = .ok h) :
    cutoutCalls h.out = [.biDiStart] := by
  have hw : (match ({ s := {} } : TxHist).run 3 untilStart with
      | .ok h => decide (cutoutCalls h.out = [.biDiStart])
      | .error _ => false) = true := by decide +kernel
  cases h2 : ({ s := {} } : TxHist).run 3 untilStart with
  | error f => rw [h2] at hw; cases hw
  | ok h1 =>
  rw [h2] at hw
  rw [TxHist.run_append _ _ h2] at hr
  rw [TxHist.run, bind_eq_ok] at hr
  obtain ⟨h3, h4, hr⟩ := hr
  rw [TxHist.step, bind_eq_ok] at h4
  obtain ⟨s1, h5, h6⟩ := h4
  have hc : s1.cfg.bidi = false := by
    unfold Tx.init at h5
    split at h5
    · cases h5; rfl
    · cases h5
  cases h6
  rw [C121_off 3 ops _ h hc hno hr]
  show cutoutCalls h1.out = _
  exact of_decide_eq_true hw

/-- The station goes on after that. -/
example : (match ({ s := {} } : TxHist).run 3 (untilStart ++ .init { bidi := false } :: List.replicate 9 .transmit) with
    | .ok h => decide (h.out.length = idleTimings.length + 11 ∧ cutoutCalls h.out = [.biDiStart])
    | .error _ => false) = true := by decide +kernel

/-- **C121** is false of the polarity as well: a station that is told to invert its outputs between the halves of a bit
drives both halves with the same polarity, so that the track sees one long pulse instead of a bit. -/
theorem C121_halves_false : (match ({ s := {} } : TxHist).run 3 [.init {}, .transmit, .init { invert := true }, .transmit] with
    | .ok h => decide (h.out.flatMap TxOut.events = [.trackOutputs false true, .trackOutputs false true])
    | .error _ => false) = true := by decide +kernel

/-! ### Other durations only -/

/-- **C121** (partial) A station that is configured anew with other durations or another length of the preamble, at
whatever moment and however often, transmits whole packets in the order in which they were accepted, idle packets where
none waits, and whole cutouts, all with the one polarity.  Every packet has the durations and the preamble that were
configured when it was accepted, even if others are configured before or while it is transmitted. -/
theorem C121_stream_partial (n : Nat) (c0 : TxConfig) (ops : List TxOp) (h : TxHist)
    (hc : ∀ c, .init c ∈ ops → c.invert = c0.invert ∧ c.bidi = c0.bidi)
    (hr : ({ s := {} } : TxHist).run n (.init c0 :: ops) = .ok h) :
    ∃ (frames : List (Option (List Nat))) (last : Option (List Nat)) (k : Nat) (waiting : List (List Nat)),
      h.out = frames.flatMap (wholeOuts c0) ++ (wholeOuts c0 last).take k ∧
      h.acc.map (fun a => packetWave a.1 a.2) = (frames ++ [last]).filterMap id ++ waiting ∧
      waiting.length ≤ n :=
  stream_same n c0 ops h hc hr

/-- Two packets with different durations, both accepted before the first is transmitted. -/
example : ∃ h, ({ s := {} } : TxHist).run 3 [.init {}, .bytes [3, 0x3F, 0x85, 0xB9], .transmit, .init { bit1 := 60#8 },
    .bytes [3, 0x3F, 0x85, 0xB9], .transmit] = .ok h ∧ h.out.length = 2 ∧
    h.acc.map (fun a => a.1.bit1) = [58#8, 60#8] := by
  refine ⟨_, rfl, ?_, ?_⟩ <;> rfl

end Dcc
