import Verif.Lemmas.TxPreempt
/-! A command station whose thread is interrupted by `transmit`: C82. -/
namespace Dcc
open Spec

/-! ### C82 -/

/-- **C82** The thread calls `init` and `packet`, a timer interrupt calls `transmit` between any two of
their accesses to the object.  Then the interrupts get what they would get if each call was made at
one moment between its start and its return: there is a history `ops` of calls that are not
interrupted, with the same packets handed over in the same order and the same results of `transmit`.
The configurations in it are put together from the one at the start and those handed over, as `init`
writes member by member.  After the last call has returned the objects are the same, too. -/
theorem C82_linear (n : Nat) (before : List TxOp) (x x' : TxTask)
    (hr : ({ s := {} } : TxHist).run n before = .ok x.h) (hi : x.phase = .idle) (beats : List TxBeat)
    (hx : x.run n beats = .ok x') :
    ∃ (ops : List TxOp) (h : TxHist), x.h.run n ops = .ok h ∧ h.out = x'.h.out ∧ h.acc = x'.h.acc ∧
      (∃ rest, handed (made n x beats) = handed ops ++ rest ∧ rest.length ≤ 1 ∧
        (x'.phase = .idle → rest = [] ∧ h.s = x'.h.s)) ∧
      ∀ c, .init c ∈ ops → ValidConfig c ∧ Mixed (x.h.s.cfg :: configs (made n x beats)) c := by
  obtain ⟨ops, h, h1, i, h2, h3⟩ := TxSim.run beats (TxSim.initial hi hr) hx
  refine ⟨ops, h, h1, i.out.symm, i.acc.symm, ⟨_, ?_, x'.phase.pending_le n x'.h.s, fun he => ?_⟩, ?_⟩
  · rw [hi] at h2; exact h2
  · have := i.rel
    rw [he] at this ⊢
    exact ⟨rfl, this.symm⟩
  · exact fun c hc => ⟨(run_init_valid ops h1 c hc), h3 c hc⟩

/-- **C82** So C17 holds at every moment, also in the middle of a call: what has been put on the track
are whole packets, the accepted ones once each and in order, and idle packets. -/
theorem C82_fifo (n : Nat) (beats : List TxBeat) (x : TxTask) (hx : ({} : TxTask).run n beats = .ok x) :
    ∃ done cur waiting, Describes ValidConfig x.h done cur waiting ∧ waiting.length ≤ n ∧
      ∀ a ∈ x.h.acc, ValidConfig a.1 ∧ a.2.length ≤ maxPacketSize := by
  obtain ⟨ops, h, h1, h2, h3, _, _⟩ := C82_linear n [] {} x rfl rfl beats hx
  obtain ⟨done, cur, i⟩ := TxInv.reachable ops h h1
  have d := i.describes
  refine ⟨done, cur, _, ⟨h2 ▸ d.out_eq, d.done_ok, d.cur_ok, h3 ▸ d.acc_eq⟩, ?_, h3 ▸ i.acc_ok⟩
  rw [Tx.queue_length]; exact Tx.size_le n h.s

/-- **C82** Why: while the thread writes a slot of the ring, `_packet` does not point to this slot, and
it is none of those that wait. -/
theorem C82_slot (n : Nat) (beats : List TxBeat) (x : TxTask) (hx : ({} : TxTask).run n beats = .ok x)
    (bs : List Byte) (cfg : TxConfig) (t : List Nat) (hp : x.phase = .write bs cfg t) :
    x.h.s.packet ≠ some x.h.s.last ∧
      ∀ k, k < x.h.s.size n → (x.h.s.first + k) % (n + 1) ≠ x.h.s.last := by
  obtain ⟨ops, h, _, i, _, _⟩ := TxSim.run beats (TxSim.initial (n := n) (x := {}) rfl (ops := []) rfl) hx
  obtain ⟨done, cur, hi⟩ := i.inv
  have hrel := i.rel
  rw [hp] at hrel
  obtain ⟨⟨junk, e⟩, hf, _⟩ := hrel
  have h1 := hi.ring.first_le
  have h2 := hi.ring.last_le
  have h3 := Tx.size_val hi.ring
  rw [e]
  refine ⟨show h.s.packet ≠ some h.s.last from Tx.packet_ne_last hi.ring hf, fun k hk => ?_⟩
  have hk : k < h.s.size n := hk
  show (h.s.first + k) % (n + 1) ≠ h.s.last
  have := Tx.size_le n h.s
  rw [mod_lt_two _ _ (by omega)]
  split at h3 <;> split <;> omega

/-- **C82** Nothing faults as long as the configurations are valid and the packets fit. -/
theorem C82_never_faults (n : Nat) (beats : List TxBeat)
    (hc : ∀ c, .start (.init c) ∈ beats → ValidConfig c)
    (hb : ∀ bs, .start (.bytes bs) ∈ beats → bs.length ≤ maxPacketSize) :
    ∃ x, ({} : TxTask).run n beats = .ok x := by
  -- the packet of the call the thread is in fits
  have key : ∀ (beats : List TxBeat) (cs : List TxConfig) (x : TxTask) (h : TxHist), TxSim n cs x h →
      (∀ p, p ∈ x.phase.pending n x.h.s → p.length ≤ maxPacketSize) →
      (∀ c, .start (.init c) ∈ beats → ValidConfig c) →
      (∀ bs, .start (.bytes bs) ∈ beats → bs.length ≤ maxPacketSize) → ∃ x', x.run n beats = .ok x' := by
    intro beats
    induction beats with
    | nil => intro cs x h _ _ _ _; exact ⟨x, rfl⟩
    | cons b beats ih =>
      intro cs x h i hp hc hb
      have hstep : ∃ x1, x.step n b = .ok x1 := by
        cases b with
        | transmit =>
          obtain ⟨done, cur, hi⟩ := i.inv
          obtain ⟨h', _, _, hs, _⟩ := hi.transmit
          simp only [TxHist.step] at hs
          rw [bind_eq_ok] at hs
          obtain ⟨⟨s1, o1⟩, hs1, _⟩ := hs
          have : ∃ r, x.h.s.transmit n = .ok r := by
            have hrel := i.rel
            have same : x.h.s = h.s → ∃ r, x.h.s.transmit n = .ok r := fun e => ⟨_, by rw [e]; exact hs1⟩
            have key : ∀ t : List Nat, h.s.full n = false → x.h.s = h.s.setSlot h.s.last t →
                ∃ r, x.h.s.transmit n = .ok r := by
              intro t hf he
              rw [he, Tx.transmit_setSlot hi.ring hf, hs1]
              exact ⟨_, rfl⟩
            cases hph : x.phase <;> rw [hph] at hrel
            case full2 => exact same hrel.1
            case timings => exact same hrel.1
            case write => obtain ⟨⟨junk, e⟩, hf, _⟩ := hrel; exact key junk hf e
            case advance => exact key _ hrel.2.1 hrel.1
            all_goals exact same hrel
          obtain ⟨r, hr⟩ := this
          simp only [TxTask.step, TxHist.step, hr]
          exact ⟨_, rfl⟩
        | start op =>
          simp only [TxTask.step]
          split
          · cases op with
            | init c =>
              simp only [TxTask.start]
              rw [if_pos ((accepted_iff c).mpr (hc c (by simp)))]
              exact ⟨_, rfl⟩
            | _ => exact ⟨_, rfl⟩
          · exact ⟨_, rfl⟩
        | access =>
          simp only [TxTask.step, TxTask.access]
          cases hph : x.phase with
          | full2 bs first => simp only; split <;> exact ⟨_, rfl⟩
          | timings bs =>
            have hl : bs.length ≤ maxPacketSize := hp bs (by rw [hph]; simp [TxPhase.pending])
            simp only
            rw [if_pos hl, bytes2timings_ok _ _ hl]
            exact ⟨_, rfl⟩
          | _ => exact ⟨_, rfl⟩
        | scribble junk =>
          simp only [TxTask.step]
          split <;> exact ⟨_, rfl⟩
      obtain ⟨x1, hx1⟩ := hstep
      obtain ⟨ops, h', _, i', hpend, _⟩ := i.step b hx1
      obtain ⟨x', hx'⟩ := ih _ x1 h' i' (by
        intro p hm
        have : p ∈ x.phase.pending n x.h.s ++ newPackets x b := by
          rw [hpend]; exact List.mem_append_right _ hm
        rcases List.mem_append.mp this with hm | hm
        · exact hp p hm
        · cases b with
          | start op =>
            cases op with
            | bytes bs =>
              simp only [newPackets] at hm
              split at hm
              · simp only [List.mem_singleton] at hm
                rw [hm]; exact hb bs (by simp)
              · simp at hm
            | _ => simp [newPackets] at hm
          | _ => simp [newPackets] at hm)
        (fun c hm => hc c (List.mem_cons_of_mem _ hm)) (fun bs hm => hb bs (List.mem_cons_of_mem _ hm))
      exact ⟨x', by rw [TxTask.run, hx1]; exact hx'⟩
  exact key beats _ {} _ (TxSim.initial (n := n) (x := {}) rfl (ops := []) rfl) (by simp [TxPhase.pending]) hc hb

/-- A packet handed over in the middle of an idle packet, with an interrupt after every access and a
slot half written. -/
def preemptedBeats : List TxBeat :=
  [.transmit, .start (.bytes [3, 0x3F, 0x85, 0xB9]), .transmit, .access, .transmit, .access, .transmit,
    .access, .scribble [58, 58, 100], .transmit, .access, .transmit, .access, .transmit]

example : (match ({} : TxTask).run 2 preemptedBeats with
    | .ok x => decide (x.phase = .idle ∧ x.h.out.length = 7 ∧ x.h.acc = [({}, [3, 0x3F, 0x85, 0xB9])] ∧
        handed (made 2 {} preemptedBeats) = [[3, 0x3F, 0x85, 0xB9]])
    | .error _ => false) = true := by decide +kernel

example : (match ({} : TxTask).run 2 (preemptedBeats.take 9) with
    | .ok x => match x.phase with
      | .write .. => true
      | _ => false
    | .error _ => false) = true := by decide +kernel

/-- An idle packet, and its cutout begins while `init` has written `invert` but not `bidi`. -/
def mixedBeats : List TxBeat :=
  List.replicate 90 .transmit ++ [.start (.init { invert := true, bidi := false }), .access, .access, .access,
    .access, .transmit]

/-- **C82** `transmit` may use a configuration that was never set: a cutout begins with N above P for
29 µs, though with the old configuration it begins with P above N and with the new one there is none. -/
theorem C82_configuration_false : ∃ (old new : TxConfig) (beats : List TxBeat) (x : TxTask),
    ValidConfig old ∧ ValidConfig new ∧ ({ h := { s := { cfg := old } } } : TxTask).run 2 beats = .ok x ∧
      configs (made 2 { h := { s := { cfg := old } } } beats) = [new] ∧
      ⟨29, [.trackOutputs true false]⟩ ∈ x.h.out ∧ ⟨29, [.trackOutputs true false]⟩ ∉ cutOut old ∧
      new.bidi = false := by
  have key : (match ({} : TxTask).run 2 mixedBeats with
    | .ok x => decide ((⟨29, [.trackOutputs true false]⟩ : TxOut) ∈ x.h.out)
    | .error _ => false) = true := by decide +kernel
  cases h1 : ({} : TxTask).run 2 mixedBeats with
  | error f => rw [h1] at key; cases key
  | ok x =>
    rw [h1] at key
    exact ⟨{}, { invert := true, bidi := false }, mixedBeats, x, by simp [ValidConfig], by simp [ValidConfig], h1,
      by decide +kernel, of_decide_eq_true key, by decide, rfl⟩

end Dcc
