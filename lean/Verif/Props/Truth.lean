import Verif.Lemmas.RxTruth
import Verif.Props.Decoder
/-! Answers to CV accesses are true: C80. -/
namespace Dcc
open Spec

/-- **C80** In all histories without an assigned address in which the packets executed are neither consist
control nor enter service mode: a value transmitted after a CV access is the present content of the CV that
packet asks for. -/
theorem C80_truth_partial (e : Env) (m : BitVec 32 → Byte) (hm : Memory e m) (ops : List RxOp) (s s' : Rx)
    (hl : Along (fun x => x.logon.assigned = false) e {} (.init :: ops))
    (ho : ({} : Rx).run e (.init :: ops) = .ok s)
    (hq : ∀ p ∈ executed e {} (.init :: ops), Undisturbing p)
    (hc : cutout s = .cv) (h : s.step e .biDiChannel2 = .ok s') :
    ∀ bytes ∈ transmitted (newCalls s s'), understood bytes = some .ack ∨
      ∃ k a, longRequest (afterAddress s.link.packet) = some (k, a) ∧
        understood bytes = some (.value (valueIn (mem m s.trace) a)) := by
  have ho' := ho
  rw [Rx.run, bind_eq_ok] at ho
  obtain ⟨s0, h0, h1⟩ := ho
  have h0' : ({} : Rx).init e = .ok s0 := h0
  obtain ⟨g1, g2⟩ := init_reflects hm.toMemoryLike h0'
  have ha : HasAddress m := by have := g1.address; rwa [g2] at this
  obtain ⟨s1, k1, k2, k3, k4⟩ := C101_new e m hm ha
  have : s1 = s0 := by
    have : ({} : Rx).run e [.init] = .ok s0 := by simp only [Rx.run, Rx.step, h0']; rfl
    rw [this] at k1
    cases k1; rfl
  subst this
  have hl := hl.2
  rw [h0] at hl
  have hq : ∀ p ∈ executed e s1 ops, Undisturbing p := by
    intro p hp
    refine hq p ?_
    unfold executed
    rw [h0]
    exact List.mem_append_right _ hp
  obtain ⟨x, r1, r2, r3, -⟩ := decoder_run hm ops s1 s _ k2 k3 (is_decoder hm k2 k3 k4) hl h1
  obtain ⟨t1, t2⟩ := Truth.run _ _ (fun v hv => by cases hv) rfl (by rw [executions_mainSteps]; exact hq) r1
  have hr : Reachable e s := Reachable.of_run ho'
  have ha' : s'.logon.assigned = false := by
    rw [unassigned_step hr (by simp) (by simp [RxOp.isReceive]) (by simp) h]
    exact r3.assigned
  rcases decoder_idle hm.toMemoryLike hr rfl h r3 ha' r2.is with ⟨-, -, -, w⟩ | ⟨w, -⟩
  · intro bytes hb
    have : understood bytes ∈ (x.1.answer s.link.packet).2.map some := by
      rw [← w]; exact List.mem_map_of_mem hb
    obtain ⟨msg, hmsg, heq⟩ := List.mem_map.mp this
    rw [← heq]
    unfold Decoder.answer at hmsg
    split at hmsg
    · split at hmsg
      · rename_i hlast
        right
        cases hv : x.1.waiting with
        | none => rw [hv] at hmsg; cases hmsg
        | some v =>
          rw [hv] at hmsg
          simp only [Option.toList_some, List.map_cons, List.map_nil, List.mem_singleton] at hmsg
          subst hmsg
          have hlong : isLongAccess s.link.packet = true := by
            unfold cutout at hc
            split at hc
            · cases hc
            · split at hc
              · split at hc
                · assumption
                · cases hc
              · split at hc <;> cases hc
            · split at hc
              · split at hc
                · assumption
                · cases hc
              · split at hc <;> cases hc
            · cases hc
            · cases hc
          obtain ⟨k, a, q1, q2, -⟩ := t1 v hv (by rw [hlast]; exact hlong)
          rw [hlast] at q1
          refine ⟨k, a, q1, ?_⟩
          have : mem m s.trace = x.1.cvs := r2.is.cvs
          rw [this, q2]
      · simp only [List.mem_singleton] at hmsg
        subst hmsg
        exact .inl rfl
    · cases hmsg
  · exact (w ⟨rfl, hc⟩).elim

/-- A request to read CV3 is executed, the reset packet enters service mode, register 3 is written, an idle
packet leaves service mode, and the request comes again. -/
def staleOps : List RxOp :=
  told [3#8, 0xE4#8, 2#8, 0#8, 0xE5#8] ++ told [0#8, 0#8, 0#8] ++ told [0x7A#8, 7#8, 0x7D#8] ++
    told [0xFF#8, 0#8, 0xFF#8] ++ hears [3#8, 0xE4#8, 2#8, 0#8, 0xE5#8]

/-- **C80** Service mode must be excluded: what is written in register mode does not drop the value waiting, so
the decoder answers 0 although CV3 contains 7. -/
theorem C80_truth_service_false : ¬ ∀ (m : BitVec 32 → Byte) (ops : List RxOp) (s s' : Rx),
    ({} : Rx).run (memEnv m) (.init :: ops) = .ok s →
    (∀ p ∈ executed (memEnv m) {} (.init :: ops), (afterAddress p).head?.all (fun b => b.toNat / 16 ≠ 1) = true) →
    cutout s = .cv → s.step (memEnv m) .biDiChannel2 = .ok s' →
    ∀ bytes ∈ transmitted (newCalls s s'), understood bytes = some .ack ∨
      ∃ k a, longRequest (afterAddress s.link.packet) = some (k, a) ∧
        understood bytes = some (.value (valueIn (mem m s.trace) a)) := by
  intro h
  have key : (decide (∀ p ∈ executed (memEnv exampleCvs) {} (.init :: staleOps),
        (afterAddress p).head?.all (fun b => b.toNat / 16 ≠ 1) = true) &&
      holdsAfter (({} : Rx).run (memEnv exampleCvs) (.init :: staleOps)) (fun s =>
        decide (cutout s = .cv ∧ mem exampleCvs s.trace 2#32 = 7#8 ∧
          longRequest (afterAddress s.link.packet) = some (.verify, .byte 2 0#8)) &&
        holdsAfter (s.step (memEnv exampleCvs) .biDiChannel2) (fun s' =>
          decide (transmitted (newCalls s s') ≠ [] ∧
            ∀ bytes ∈ transmitted (newCalls s s'), understood bytes = some (.value 0#8))))) = true := by
    decide +kernel
  rw [Bool.and_eq_true, decide_eq_true_eq] at key
  obtain ⟨h0, key⟩ := key
  obtain ⟨s, h1, h2⟩ := holdsAfter_ok key
  rw [Bool.and_eq_true, decide_eq_true_eq] at h2
  obtain ⟨⟨h3, h4, h5⟩, h6⟩ := h2
  obtain ⟨s', h7, h8⟩ := holdsAfter_ok h6
  obtain ⟨h9, h10⟩ := of_decide_eq_true h8
  cases hx : transmitted (newCalls s s') with
  | nil => exact h9 hx
  | cons bytes rest =>
    have hb : bytes ∈ transmitted (newCalls s s') := by rw [hx]; simp
    have h11 := h10 bytes hb
    rcases h _ _ s s' h1 h0 h3 h7 bytes hb with g | ⟨k, a, g1, g2⟩
    · rw [h11] at g; cases g
    · rw [h5] at g1
      cases g1
      rw [h11] at g2
      simp only [Option.some.injEq, Message.value.injEq] at g2
      have g2 : (0#8 : Byte) = mem exampleCvs s.trace 2#32 := g2
      rw [h4] at g2
      exact absurd g2 (by decide)

/-- The hypotheses of `C80_truth_partial` are met when CV3 is written and the answer goes out. -/
example : let w : Packet := [3#8, 0xEC#8, 2#8, 7#8, 0xEA#8]
    let ops := told w ++ told w ++ hears w
    Along (fun x => x.logon.assigned = false) exampleEnv {} (.init :: ops) ∧
    executed exampleEnv {} (.init :: ops) = [w, w] ∧
    holdsAfter (({} : Rx).run exampleEnv (.init :: ops)) (fun s => decide (cutout s = .cv) &&
      holdsAfter (s.step exampleEnv .biDiChannel2) (fun s' =>
        decide ((transmitted (newCalls s s')).map understood = [some (.value 7#8)]))) = true := by
  decide +kernel

example : Undisturbing [3#8, 0xEC#8, 2#8, 7#8, 0xEA#8] := by
  intro n hn b hb
  simp [locoNumber] at hn
  simp [afterAddress] at hb
  subst hn hb
  decide

end Dcc
