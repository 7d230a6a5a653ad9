import Verif.Lemmas.RxQueue
import Verif.Spec.Config
/-!
C46-C49: what a decoder transmits on BiDi.
-/
namespace Dcc
open Spec

/-! ### C46: channel 1 -/

theorem sent_cons {sel : Rx → RxOp → Bool} {e : Env} {s s' : Rx} {op : RxOp} (ops : List RxOp)
    (h : s.step e op = .ok s') : sent sel e s (op :: ops) =
      (if sel s op then transmitted (newCalls s s') else []) ++ sent sel e s' ops := by
  rw [sent, h]

theorem channel1_due (e : Env) (ops : List RxOp) : ∀ s : Rx, Reachable e s →
    (sent inChannel1 e s ops).map read = dueChannel1 e s (s.q.adr.map read) ops := by
  induction ops with
  | nil => intro s _; rfl
  | cons op ops ih =>
    intro s hr
    cases h : s.step e op with
    | error f => rw [sent, dueChannel1, h]; rfl
    | ok s' =>
      have ih := ih s' (hr.step op h)
      rw [sent_cons ops h]
      have other : op.isExecute = false → op ≠ .biDiChannel1 → s'.q.adr = s.q.adr →
          ((if inChannel1 s op then transmitted (newCalls s s') else []) ++
            sent inChannel1 e s' ops).map read = dueChannel1 e s (s.q.adr.map read) (op :: ops) := by
        intro h1 h2 h3
        have : inChannel1 s op = false := by cases op <;> first | rfl | exact absurd rfl h2
        rw [this, if_neg Bool.false_ne_true, List.nil_append, ih, h3, dueChannel1, h]
        cases op <;> first | rfl | exact absurd rfl h2 | cases h1
      cases op with
      | execute now rand =>
        obtain ⟨h1, -⟩ := execute_queues e s s' now rand h
        rw [dueChannel1, h]
        show (_ ++ sent inChannel1 e s' ops).map read = _
        rw [show inChannel1 s (.execute now rand) = false from rfl, if_neg Bool.false_ne_true,
          List.nil_append, ih, h1]
        cases hf : (front s).isSome
        · rfl
        · simp only [if_true, Bool.true_and]
          rw [adrQueue_words]
      | biDiChannel1 =>
        rw [dueChannel1, h]
        have h : .ok s.biDiChannel1 = Except.ok s' := h
        cases h
        rw [show inChannel1 s .biDiChannel1 = afterLoco s from rfl]
        dsimp only
        cases hl : afterLoco s
        · rw [if_neg Bool.false_ne_true, if_neg Bool.false_ne_true, List.nil_append, ih,
            channel1_other s hl]
        · rw [if_pos rfl, if_pos rfl, List.map_append, ih, channel1_loco s hl]
          unfold Rx.appAdr
          cases hq : s.q.adr with
          | nil =>
            simp only [hq, List.map_nil, List.take_nil, List.drop_nil]
            rw [newCalls_self rfl]
            rfl
          | cons d ds =>
            dsimp only
            rw [newCalls_append (s := s) (evs := [.transmitBiDi d]) rfl]
            rfl
      | biDiChannel2 =>
        obtain ⟨q, evs, rfl, h1, -⟩ := channel2_eq s s' h
        exact other rfl nofun h1
      | datagram ds =>
        obtain ⟨q, b, rfl⟩ := datagram_eq e s s' ds h
        exact other rfl nofun rfl
      | init => exact other rfl nofun (other_queues e s s' _ hr.recvInv.room h rfl nofun nofun nofun).adr
      | enable => exact other rfl nofun (other_queues e s s' _ hr.recvInv.room h rfl nofun nofun nofun).adr
      | disable => exact other rfl nofun (other_queues e s s' _ hr.recvInv.room h rfl nofun nofun nofun).adr
      | receive _ _ =>
        exact other rfl nofun (other_queues e s s' _ hr.recvInv.room h rfl nofun nofun nofun).adr
      | callbackByte _ _ =>
        exact other rfl nofun (other_queues e s s' _ hr.recvInv.room h rfl nofun nofun nofun).adr
      | callbackBit _ _ =>
        exact other rfl nofun (other_queues e s s' _ hr.recvInv.room h rfl nofun nofun nofun).adr

/-- **C46** In every history the words a decoder transmits in channel 1 (after packets for multi
function decoders) are exactly those of the reference queue: reports of the active address, each of
an ID1 and an ID2 word, made when a packet is executed while no words are waiting and the report is
enabled. -/
theorem C46_channel1 (e : Env) (ops : List RxOp) :
    (sent inChannel1 e {} ops).map read = dueChannel1 e {} [] ops :=
  channel1_due e ops {} .start

/-- The words waiting are a pair, or the second one of a pair. -/
private def Waiting (id : Nat) (w : List Nat) : Prop :=
  (id = 1 ∧ w = []) ∨ (id = 1 ∧ ∃ a b, w = [word12 1 a, word12 2 b] ∧ a < 256 ∧ b < 256) ∨
  (id = 2 ∧ ∃ b, w = [word12 2 b] ∧ b < 256)

private theorem waiting_report (s : Rx) : Waiting 1 (reportWords s) := by
  unfold reportWords
  split
  · rw [reportData_eq]
    exact .inr (.inl ⟨rfl, _, _, rfl, adrHighData_lt .., adrLowData_lt ..⟩)
  · exact .inl ⟨rfl, rfl⟩

private theorem due_alternates (e : Env) (ops : List RxOp) : ∀ (s : Rx) (w : List Nat) (id : Nat),
    Waiting id w → AlternatingIds id (dueChannel1 e s w ops) := by
  induction ops with
  | nil => intros; trivial
  | cons op ops ih =>
    intro s w id hw
    rw [dueChannel1]
    cases h : s.step e op with
    | error f => trivial
    | ok s' =>
      cases op with
      | execute now rand =>
        dsimp only
        split
        · rename_i hc
          simp only [Bool.and_eq_true, List.isEmpty_iff] at hc
          have h1 : id = 1 := by
            rcases hw with ⟨h1, -⟩ | ⟨h1, -⟩ | ⟨-, b, h2, -⟩
            · exact h1
            · exact h1
            · rw [hc.2] at h2; cases h2
          rw [h1]
          exact ih s' _ 1 (waiting_report s)
        · exact ih s' w id hw
      | biDiChannel1 =>
        dsimp only
        split
        · rcases hw with ⟨rfl, rfl⟩ | ⟨rfl, a, b, rfl, ha, hb⟩ | ⟨rfl, b, rfl, hb⟩
          · exact ih s' [] 1 (.inl ⟨rfl, rfl⟩)
          · refine ⟨?_, ih s' [word12 2 b] 2 (.inr (.inr ⟨rfl, b, rfl, hb⟩))⟩
            unfold word12; omega
          · refine ⟨?_, ih s' [] 1 (.inl ⟨rfl, rfl⟩)⟩
            unfold word12; omega
        · exact ih s' w id hw
      | _ => exact ih s' w id hw

/-- **C46** The datagrams in channel 1 are ID1, ID2, ID1, ID2, ... -/
theorem C46_alternates (e : Env) (ops : List RxOp) :
    AlternatingIds 1 ((sent inChannel1 e {} ops).map read) := by
  rw [C46_channel1]
  exact due_alternates e ops {} [] 1 (.inl ⟨rfl, rfl⟩)

private theorem due_disabled (e : Env) (ops : List RxOp) : ∀ s : Rx,
    Along (fun s => s.cfg.ch1AddrEnabled = false) e s ops → dueChannel1 e s [] ops = [] := by
  induction ops with
  | nil => intros; rfl
  | cons op ops ih =>
    intro s ha
    rw [dueChannel1]
    rw [Along] at ha
    obtain ⟨h1, h2⟩ := ha
    cases h : s.step e op with
    | error f => rfl
    | ok s' =>
      rw [h] at h2
      cases op with
      | execute now rand =>
        dsimp only
        rw [h1, Bool.and_false, Bool.false_and, if_neg Bool.false_ne_true]
        exact ih s' h2
      | biDiChannel1 =>
        dsimp only
        split
        · exact ih s' h2
        · exact ih s' h2
      | _ => exact ih s' h2

/-- **C46** A decoder whose report is never enabled transmits nothing there. -/
theorem C46_disabled (e : Env) (ops : List RxOp)
    (h : Along (fun s => s.cfg.ch1AddrEnabled = false) e {} ops) : sent inChannel1 e {} ops = [] := by
  have h1 := C46_channel1 e ops
  rw [due_disabled e ops {} h] at h1
  exact List.map_eq_nil_iff.mp h1

/-- The calls for one packet with cutout in an example. -/
def withCutout (p : Packet) : List RxOp :=
  hears p ++ [.execute 0 0] ++ hears p ++ [.biDiChannel1, .biDiChannel2]

/-- Two packets for address 3: the address is reported as ID1 0 and ID2 3. -/
example : (sent inChannel1 exampleEnv {}
    (.init :: (withCutout [3#8, 0x3F#8, 0x80#8, 0xBC#8] ++ withCutout [3#8, 0x3F#8, 0x80#8, 0xBC#8]))).map
      read = [word12 1 0, word12 2 3] := by
  decide +kernel

end Dcc
