import Verif.Props.RxLogonQueue
import Verif.Lemmas.RxTos
/-!
C49: the form of everything transmitted on BiDi.
-/
namespace Dcc
open Spec

/-- Messages of a given size with four one bits in every byte. -/
def Good (n : Nat) (q : List (List Byte)) : Prop :=
  ∀ m ∈ q, m.length = n ∧ ∀ c ∈ m, popcount c = 4

/-- The messages waiting. -/
structure WireInv (e : Env) (s : Rx) : Prop where
  adr : Good 2 s.q.adr
  pom : Good 2 s.q.pom
  dyn : DynInv e s.q.dyn
  tos : Good 6 s.q.tos
  logon : Good 8 s.q.logon

theorem Good.nil {n : Nat} : Good n [] := nofun

theorem Good.drop {n : Nat} {q : List (List Byte)} (h : Good n q) (k : Nat) : Good n (q.drop k) :=
  fun m hm => h m (List.mem_of_mem_drop hm)

theorem Good.one {n : Nat} {m : List Byte} (h : m.length = n ∧ ∀ c ∈ m, popcount c = 4) :
    Good n [m] := fun x hx => by rw [List.mem_singleton.mp hx]; exact h

theorem b12_good (id data : Nat) (hid : id < 16) (hd : data < 256) :
    (idBytes .b12 id data).length = 2 ∧ ∀ c ∈ idBytes .b12 id data, popcount c = 4 := by
  obtain ⟨h1, h2, -⟩ := idBytes_spec .b12 id data hid hd
  exact ⟨h1, h2⟩

theorem pom_good (v : Byte) : Good 2 [pomBytes v] := .one (b12_good 0 _ (by omega) v.isLt)

theorem tos_good (as : Addresses) (n : Nat) (h : n < 256) : Good 6 [tosBytes as n] := by
  refine .one ?_
  have h1 := b12_good 1 (adrHighData as as.primary) (by omega) (adrHighData_lt ..)
  have h2 := b12_good 2 (adrLowData as as.primary) (by omega) (adrLowData_lt ..)
  have h3 := b12_good 14 n (by omega) h
  unfold tosBytes
  refine ⟨by simp [h1.1, h2.1, h3.1], fun c hc => ?_⟩
  rw [List.mem_append, List.mem_append] at hc
  rcases hc with (hc | hc) | hc
  · exact h1.2 c hc
  · exact h2.2 c hc
  · exact h3.2 c hc

theorem adrQueue_good (s : Rx) (h : Good 2 s.q.adr) : Good 2 s.adrQueue := by
  unfold Rx.adrQueue
  split
  · split
    · rename_i a _
      intro m hm
      simp only [adrPair, List.mem_cons, List.not_mem_nil, or_false] at hm
      rcases hm with rfl | rfl
      · exact b12_good 1 _ (by omega) (adrHighData_lt ..)
      · exact b12_good 2 _ (by omega) (adrLowData_lt ..)
    · exact .nil
  · exact h

theorem pom_step (e : Env) (s s' : Rx) (op : RxOp)
    (hr : op ≠ .biDiChannel1 → op ≠ .biDiChannel2 → Sound e s) (hi : Good 2 s.q.pom)
    (h : s.step e op = .ok s') : Good 2 s'.q.pom := by
  cases op with
  | init =>
    obtain ⟨cv29, prim, a, v, evs, -, -, -, -, -, rfl⟩ := init_ok e s s' h
    exact hi
  | enable =>
    simp only [Rx.step, Rx.enable, Except.ok.injEq] at h
    subst h
    split <;> exact hi
  | disable =>
    simp only [Rx.step, Rx.disable, Except.ok.injEq] at h
    subst h
    split <;> exact hi
  | receive t r =>
    have f := (receive_frame e s (hr nofun nofun).recv.room t r).out _ h
    rw [f.pom]; exact hi
  | execute now rand =>
    simp only [Rx.step, bind_eq_ok, pure_eq_ok, Except.ok.injEq] at h
    obtain ⟨⟨s1, ret⟩, h1, rfl⟩ := h
    cases execute_pom e s s1 now rand ret (hr nofun nofun).lengths h1 with
    | same h _ => rw [h]; exact hi
    | consist p hf hc hn h =>
      rcases h with h | ⟨v, h⟩
      · rw [h]; exact hi
      · rw [h]; exact pom_good v
    | cv p hf hc h =>
      rcases h with h | ⟨-, v, h, -⟩
      · rw [h, Rx.pomBase]; split
        · exact hi
        · exact .nil
      · rw [h]; exact pom_good v
  | datagram ds =>
    obtain ⟨q, b, rfl⟩ := datagram_eq e s s' ds h
    exact hi
  | biDiChannel1 =>
    simp only [Rx.step, Except.ok.injEq] at h
    obtain ⟨q, evs, h1⟩ := channel1_eq s
    subst h
    rw [h1]; exact hi
  | biDiChannel2 =>
    have h : s.biDiChannel2 = .ok s' := h
    have := channel2_cutout s s' h
    subst this
    cases cutout s with
    | nothing => exact hi
    | tipOff =>
      show Good 2 s.appTos.q.pom
      unfold Rx.appTos; split <;> exact hi
    | cv =>
      show Good 2 s.appPom.q.pom
      unfold Rx.appPom
      split
      · exact hi
      split
      · exact hi
      split
      · exact hi
      · rename_i d rest hq
        rw [hq] at hi
        exact hi.drop 1
    | dynamic =>
      show Good 2 s.appDyn.q.pom
      unfold Rx.appDyn; split <;> exact hi
    | logon =>
      show Good 2 s.appLogon2.q.pom
      unfold Rx.appLogon2; split <;> exact hi
  | callbackByte i v =>
    simp only [Rx.step] at h
    split at h
    · rw [callbackByte_eq] at h
      cases h
      unfold Rx.answerByte
      repeat' split
      all_goals first | exact hi | exact pom_good v
    · cases h; exact hi
  | callbackBit i v =>
    simp only [Rx.step] at h
    split at h
    · rw [callbackBit_eq] at h
      cases h
      unfold Rx.answerBit
      split
      · split <;> exact hi
      · show Good 2 (if _ then [pomBytes _] else _)
        split
        · exact pom_good _
        · exact hi
    · cases h; exact hi

theorem logon_step (e : Env) (s s' : Rx) (op : RxOp)
    (hr : op ≠ .biDiChannel1 → op ≠ .biDiChannel2 → Sound e s) (hi : Good 8 s.q.logon)
    (h : s.step e op = .ok s') : Good 8 s'.q.logon := by
  cases hop : op.isReceive
  · obtain ⟨-, -, -, hq⟩ := other_logon e s s' op h hop
    rcases hq with hq | ⟨-, -, hq⟩ <;> rw [hq]
    · exact hi
    · exact hi.drop 1
  · cases op <;> first | cases hop | skip
    rename_i t r
    have one : ∀ {m w}, Carries m w → Good 8 [m] := fun hm => .one ⟨hm.1, hm.2.1⟩
    have g3 : s'.q.logon = (logonView s').answer := rfl
    rcases Sound.receive_logon e s s' t r (hr nofun nofun) h with hv | ⟨c, -, -, hv⟩
    · rw [g3, hv]; exact hi
    · rw [g3]
      cases hv with
      | fast g cid session hen hsel hk c1 c2 tr i1 i2 a ha hv => rw [hv]; exact hi
      | enable g cid session hen hsel hk v hv h =>
        rcases h with h | ⟨-, -, m, h, hm⟩
        · rw [h, hv]; split <;> exact hi
        · rw [h]; exact one hm
      | select hen has he m hm hv => rw [hv]; exact one hm
      | assign bs hen he a ha m hm hv => rw [hv]; exact one hm

theorem wire_step (e : Env) (s s' : Rx) (op : RxOp)
    (hr : op ≠ .biDiChannel1 → op ≠ .biDiChannel2 → Sound e s) (hi : WireInv e s)
    (h : s.step e op = .ok s') : WireInv e s' := by
  have hp := pom_step e s s' op hr hi.pom h
  have hl := logon_step e s s' op hr hi.logon h
  have rest : op.isExecute = false → (∀ ds, op ≠ .datagram ds) → op ≠ .biDiChannel1 →
      op ≠ .biDiChannel2 → WireInv e s' := by
    intro h1 h2 h3 h4
    have q := other_queues e s s' op (hr h3 h4).recv.room h h1 h2 h3 h4
    have t := other_tos e s s' op (hr h3 h4).recv.room h h1 h4
    exact ⟨q.adr ▸ hi.adr, hp, q.dyn ▸ hi.dyn, t.tos ▸ hi.tos, hl⟩
  cases op with
  | execute now rand =>
    obtain ⟨q1, q2, -, -⟩ := execute_queues e s s' now rand h
    refine ⟨?_, hp, q2 ▸ hi.dyn, ?_, hl⟩
    · rw [q1]; split
      · exact adrQueue_good s hi.adr
      · exact hi.adr
    · rcases execute_tos_any e s s' now rand (hr nofun nofun).lengths h with h | ⟨n, hn, h⟩ <;> rw [h]
      · exact hi.tos
      · exact tos_good _ n hn
  | datagram ds =>
    obtain ⟨q, b, h1, h2, -⟩ := datagram_words e s ds hi.dyn
    have h : s.datagram e ds = .ok s' := h
    rw [h1] at h
    cases h
    exact ⟨hi.adr, hp, h2, hi.tos, hl⟩
  | biDiChannel1 =>
    simp only [Rx.step, Except.ok.injEq] at h
    subst h
    refine ⟨?_, hp, ?_, ?_, hl⟩
    · unfold Rx.biDiChannel1 Rx.appAdr Rx.appLogon1
      have := hi.adr
      (repeat' split) <;> first | exact hi.adr | skip
      all_goals
        rename_i hq
        rw [hq] at this
        exact this.drop 1
    · obtain ⟨q, evs, h1⟩ := channel1_eq s
      rw [h1]; exact hi.dyn
    · obtain ⟨q, evs, h1⟩ := channel1_eq s
      rw [h1]; exact hi.tos
  | biDiChannel2 =>
    obtain ⟨q, evs, h1, h2, -⟩ := channel2_eq s s' h
    refine ⟨?_, hp, ?_, ?_, hl⟩
    · rw [h1]
      show Good 2 q.adr
      rw [h2]; exact hi.adr
    · have := channel2_cutout s s' h
      subst this
      cases cutout s with
      | nothing => exact hi.dyn
      | tipOff =>
        show DynInv e s.appTos.q.dyn
        unfold Rx.appTos; split <;> exact hi.dyn
      | cv =>
        show DynInv e s.appPom.q.dyn
        unfold Rx.appPom; (repeat' split) <;> exact hi.dyn
      | dynamic =>
        show DynInv e s.appDyn.q.dyn
        rcases appDyn_eq e s hi.dyn with ⟨-, h⟩ | ⟨m, h, -⟩ <;> rw [h]
        · exact hi.dyn
        · exact hi.dyn.drop 2
      | logon =>
        show DynInv e s.appLogon2.q.dyn
        unfold Rx.appLogon2; split <;> exact hi.dyn
    · have := (channel2_tos s s' h).2.2
      split at this
      · rw [this.1]; exact hi.tos.drop 1
      · rw [this]; exact hi.tos
  | _ => exact rest rfl nofun nofun nofun

private theorem wire_reachable (e : Env) (s : Rx) (hr : Reachable e s) : WireInv e s := by
  induction hr with
  | start => exact ⟨.nil, .nil, DynInv.nil e, .nil, .nil⟩
  | step op hr h ih => exact wire_step e _ _ op (fun _ _ => hr.sound) ih h

/-- The queue of dynamic data in reachable states. -/
theorem dyn_reachable (e : Env) (s : Rx) (hr : Reachable e s) : DynInv e s.q.dyn :=
  (wire_reachable e s hr).dyn

/-! ### Calls that transmit nothing -/

/-- The event is a transmission. -/
private def Event.isTransmit : Event → Bool
  | .transmitBiDi _ => true
  | _ => false

private theorem transmitted_nil {evs : List Event} (h : ∀ ev ∈ evs, Event.isTransmit ev = false) :
    transmitted evs = [] := by
  unfold transmitted
  rw [List.filterMap_eq_nil_iff]
  intro ev hev
  have := h ev hev
  cases ev <;> first | rfl | cases this

/-- No transmission. -/
private def Silent (ev : Event) : Prop := ev.isTransmit = false

private theorem silent_cv {s s' : Rx} (h : Adds (fun ev => ev.isCv = true) s s') : Adds Silent s s' :=
  h.mono fun ev h => by cases ev <;> first | rfl | cases h

private theorem silent_drives {a : BitVec 16} {s s' : Rx} (h : Drives a s s') : Adds Silent s s' := by
  obtain ⟨evs, m, rfl, h⟩ := h
  refine ⟨evs, rfl, fun ev hev => ?_⟩
  have := h ev hev
  cases ev <;> first | rfl | cases this

private theorem silent_service (s : Rx) (b : Bool) : Adds Silent s (s.setServiceMode b) :=
  ⟨[.serviceModeHook b], rfl, fun _ h => by rw [List.mem_singleton.mp h]; rfl⟩

private theorem silent_prepared (e : Env) (s : Rx) (now : Int) : Adds Silent s (s.prepared e now) := by
  obtain ⟨evs, h, hs⟩ := prepared_trace e s now
  refine ⟨evs, h, fun ev hev => ?_⟩
  have := hs.writes ev hev
  cases ev <;> first | rfl | cases this

private theorem silent_execute (e : Env) (s s' : Rx) (now : Int) (rand : Nat) (ret : Bool)
    (hr : Sound e s) (h : s.execute e now rand = .ok (s', ret)) : Adds Silent s s' := by
  cases exec_cases e s s' now rand ret hr.lengths h with
  | idle _ hs _ => rw [hs]; exact .refl s
  | foreign p rest _ _ _ _ hs _ => rw [hs]; exact silent_prepared e s now
  | operations p rest n s2 _ _ _ _ _ h hs _ =>
    rw [hs]
    refine (silent_prepared e s now).trans ?_
    show Adds Silent (s.prepared e now) s2
    obtain ⟨b, -, hi⟩ := instruction_cases e _ s2 _ p _ rand h
    cases hi with
    | enter _ _ h => rw [h]; exact silent_service ..
    | control _ _ h => rw [h]; exact .refl _
    | consist _ h => exact silent_cv ((instr_consist e _ _).out _ h).adds
    | drives _ h => exact silent_drives h
    | searches _ _ _ h => obtain ⟨_, _, rfl⟩ := h; exact .of_eq rfl
    | cvLong _ h => exact silent_cv ((instr_cvLong e _ _ _ _).out _ h).adds
    | cvShort _ h => exact silent_cv ((instr_cvShort e _ _ _ _).out _ h).adds
  | service p rest s2 _ _ _ h hs =>
    rw [hs]
    refine (silent_prepared e s now).trans ?_
    show Adds Silent (s.prepared e now) s2
    cases (service_cases e _ s2 p ret h).1 with
    | ignored _ hs => rw [hs]; exact .refl _
    | leave _ _ _ _ _ hs => rw [hs]; exact silent_service ..
    | register _ _ _ _ _ h =>
      rcases (cv_registerMode e _ p).out _ h with h | ⟨b, rfl⟩
      · exact silent_cv h.adds
      · exact .of_eq rfl
    | direct _ _ _ _ _ h => exact silent_cv ((instr_cvLong e _ _ _ _).out _ h).adds

/-- Only the two BiDi calls transmit. -/
private theorem silent_step (e : Env) (s s' : Rx) (op : RxOp) (hr : Sound e s)
    (h : s.step e op = .ok s') (h1 : op ≠ .biDiChannel1) (h2 : op ≠ .biDiChannel2) :
    Adds Silent s s' := by
  cases op with
  | init => exact silent_cv ((cv_init e s).out _ h).adds
  | enable =>
    simp only [Rx.step, Rx.enable, Except.ok.injEq] at h
    subst h
    split <;> exact .of_eq rfl
  | disable =>
    simp only [Rx.step, Rx.disable, Except.ok.injEq] at h
    subst h
    split <;> exact .of_eq rfl
  | receive t r =>
    exact silent_cv (((receive_frame e s hr.recv.room t r).out _ h).adds.mono
      fun _ h => Event.isCv_of_quiet h)
  | execute now rand =>
    simp only [Rx.step, bind_eq_ok, pure_eq_ok, Except.ok.injEq] at h
    obtain ⟨⟨s1, ret⟩, h1, rfl⟩ := h
    exact silent_execute e s s1 now rand ret hr h1
  | datagram ds =>
    obtain ⟨q, b, rfl⟩ := datagram_eq e s s' ds h
    exact .of_eq rfl
  | biDiChannel1 => exact absurd rfl h1
  | biDiChannel2 => exact absurd rfl h2
  | callbackByte i v =>
    simp only [Rx.step] at h
    split at h
    · rw [callbackByte_eq] at h
      cases h
      exact silent_cv (CvFrame.answerByte ..).adds
    · cases h; exact .refl s
  | callbackBit i v =>
    simp only [Rx.step] at h
    split at h
    · rw [callbackBit_eq] at h
      cases h
      exact silent_cv (CvFrame.answerBit ..).adds
    · cases h; exact .refl s

/-- Calls are only added. -/
theorem step_trace (e : Env) (s s' : Rx) (op : RxOp) (hr : Reachable e s) (h : s.step e op = .ok s') :
    ∃ evs, s'.trace = s.trace ++ evs := by
  cases op with
  | biDiChannel1 =>
    simp only [Rx.step, Except.ok.injEq] at h
    obtain ⟨q, evs, h1⟩ := channel1_eq s
    exact ⟨evs, by rw [← h, h1]⟩
  | biDiChannel2 =>
    obtain ⟨q, evs, h1, -⟩ := channel2_eq s s' h
    exact ⟨evs, by rw [h1]⟩
  | _ =>
    obtain ⟨evs, h1, -⟩ := silent_step e s s' _ hr.sound h nofun nofun
    exact ⟨evs, h1⟩

/-! ### C49 -/

private theorem sent_one {s s' : Rx} {m : List Byte} (h : s'.trace = s.trace ++ [.transmitBiDi m]) :
    transmitted (newCalls s s') = [m] := by
  rw [newCalls_append h]; rfl

private theorem sent_none {s s' : Rx} (h : s'.trace = s.trace) : transmitted (newCalls s s') = [] := by
  rw [newCalls_self h]; rfl

private theorem head_good {n : Nat} {q : List (List Byte)} {d : List Byte} {rest : List (List Byte)}
    (h : Good n q) (hq : q = d :: rest) : d.length = n ∧ ∀ c ∈ d, popcount c = 4 :=
  h d (by rw [hq]; exact .head _)

/-- What one call transmits. -/
theorem wire_sends (e : Env) (s s' : Rx) (op : RxOp)
    (hr : op ≠ .biDiChannel1 → op ≠ .biDiChannel2 → Sound e s) (hi : WireInv e s)
    (h : s.step e op = .ok s') : WellFormed op (transmitted (newCalls s s')) := by
  cases op with
  | biDiChannel1 =>
    simp only [Rx.step, Except.ok.injEq] at h
    subst h
    have no : ∀ x : Rx, x = s → WellFormed .biDiChannel1 (transmitted (newCalls s x)) := by
      intro x hx; rw [sent_none (by rw [hx])]; exact .nothing _
    have adr : WellFormed .biDiChannel1 (transmitted (newCalls s s.appAdr)) := by
      unfold Rx.appAdr
      split
      · exact no _ rfl
      · rename_i d rest hq
        obtain ⟨h1, h2⟩ := head_good hi.adr hq
        rw [sent_one rfl]
        exact .channel1 d h1 h2
    have logon : WellFormed .biDiChannel1 (transmitted (newCalls s s.appLogon1)) := by
      unfold Rx.appLogon1
      split
      · exact no _ rfl
      · rename_i d rest hq
        obtain ⟨h1, h2⟩ := head_good hi.logon hq
        rw [sent_one rfl]
        exact .channel1 _ (by rw [List.length_take, h1]; rfl) fun c hc => h2 c (List.mem_of_mem_take hc)
    unfold Rx.biDiChannel1
    split
    · exact adr
    · exact adr
    · exact adr
    · exact logon
    · exact no _ rfl
  | biDiChannel2 =>
    have h : s.biDiChannel2 = .ok s' := h
    have := channel2_cutout s s' h
    subst this
    have no : ∀ x : Rx, x = s → WellFormed .biDiChannel2 (transmitted (newCalls s x)) := by
      intro x hx; rw [sent_none (by rw [hx])]; exact .nothing _
    cases cutout s with
    | nothing => exact no _ rfl
    | tipOff =>
      show WellFormed _ (transmitted (newCalls s s.appTos))
      unfold Rx.appTos
      split
      · exact no _ rfl
      · rename_i d rest hq
        obtain ⟨h1, h2⟩ := head_good hi.tos hq
        rw [sent_one rfl]
        exact .channel2 d (by omega) (by omega) h2
    | cv =>
      show WellFormed _ (transmitted (newCalls s s.appPom))
      unfold Rx.appPom
      split
      · exact no _ rfl
      split
      · rw [sent_one rfl]
        exact .channel2 _ (by decide) (by decide) (by decide)
      split
      · exact no _ rfl
      · rename_i d rest hq
        obtain ⟨h1, h2⟩ := head_good hi.pom hq
        rw [sent_one rfl]
        exact .channel2 d (by omega) (by omega) h2
    | dynamic =>
      show WellFormed _ (transmitted (newCalls s s.appDyn))
      rcases appDyn_eq e s hi.dyn with ⟨-, h⟩ | ⟨m, h, -, hm, hne⟩ <;> rw [h]
      · exact no _ rfl
      · rw [sent_one rfl]
        have len : ∀ q : List (List Byte), DynInv e q → q ≠ [] →
            1 ≤ (q.take 2).flatten.length ∧ (q.take 2).flatten.length ≤ 6 := by
          intro q hq hne
          match q, hq, hne with
          | [a], hq, _ => simp [hq.size a (.head _)]
          | a :: b :: _, hq, _ => simp [hq.size a (.head _), hq.size b (.tail _ (.head _))]
        obtain ⟨l1, l2⟩ := len _ hi.dyn hne
        rw [← hm] at l1 l2
        refine .channel2 m l1 l2 fun c hc => ?_
        rw [hm, List.mem_flatten] at hc
        obtain ⟨d, hd, hc⟩ := hc
        exact hi.dyn.valid d (List.mem_of_mem_take hd) c hc
    | logon =>
      show WellFormed _ (transmitted (newCalls s s.appLogon2))
      unfold Rx.appLogon2
      split
      · exact no _ rfl
      · rename_i d rest hq
        obtain ⟨h1, h2⟩ := head_good hi.logon hq
        rw [sent_one rfl]
        have h3 : (d.drop 2).length = 6 := by rw [List.length_drop, h1]
        exact .channel2 _ (by omega) (by omega) fun c hc => h2 c (List.mem_of_mem_drop hc)
  | _ =>
    obtain ⟨evs, h1, h2⟩ := silent_step e s s' _ (hr nofun nofun) h nofun nofun
    rw [newCalls_append h1, transmitted_nil h2]
    exact .nothing _

/-- **C49** In every history every call transmits at most one message: none unless it is one of the
two BiDi calls, two bytes in channel 1 and one to six in channel 2, and every byte has exactly four
one bits. -/
theorem C49_well_formed (e : Env) (ops : List RxOp) (op : RxOp) (s s' : Rx)
    (h : ({} : Rx).run e ops = .ok s) (h' : s.step e op = .ok s') :
    WellFormed op (transmitted (newCalls s s')) :=
  wire_sends e s s' op (fun _ _ => (Reachable.of_run h).sound) (wire_reachable e s (.of_run h)) h'

/-- **C49** Over a whole history: every byte has four one bits, no message is empty or longer than
six bytes. -/
theorem C49_bytes (e : Env) (ops : List RxOp) (s : Rx) (h : ({} : Rx).run e ops = .ok s) :
    ∀ m ∈ transmitted s.trace, 1 ≤ m.length ∧ m.length ≤ 6 ∧ ∀ c ∈ m, popcount c = 4 := by
  have hr : Reachable e s := .of_run h
  clear h
  induction hr with
  | start => nofun
  | step op hr h ih =>
    rename_i x y
    obtain ⟨evs, ht⟩ := step_trace e x y op hr h
    intro m hm
    rw [ht, transmitted, List.filterMap_append, List.mem_append] at hm
    rcases hm with hm | hm
    · exact ih m hm
    · have hw := wire_sends e x y op (fun _ _ => hr.sound) (wire_reachable e x hr) h
      rw [newCalls_append ht] at hw
      have hm : m ∈ transmitted evs := hm
      generalize transmitted evs = ms at hw hm
      cases hw with
      | nothing => cases hm
      | channel1 d h1 h2 => rw [List.mem_singleton.mp hm]; exact ⟨by omega, by omega, h2⟩
      | channel2 d h1 h2 h3 => rw [List.mem_singleton.mp hm]; exact ⟨h1, h2, h3⟩

/-- Two packets for address 3 with cutouts after them: an ID1 datagram and dynamic data after the
first one, an ID2 datagram after the second one. -/
example : holdsAfter (({} : Rx).run exampleEnv
    (.init :: .datagram [.kmh 300#16] :: (withCutout [3#8, 0x3F#8, 0x80#8, 0xBC#8] ++
      withCutout [3#8, 0x3F#8, 0x80#8, 0xBC#8]))) (fun s =>
        decide ((transmitted s.trace).map List.length = [2, 6, 2])) = true := by
  decide +kernel

end Dcc
