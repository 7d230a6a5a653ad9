import Verif.Props.Detector
import Verif.Lemmas.RxMain
/-! Whether channel 1 announces the address a decoder has now: C119. -/
namespace Dcc
open Spec

/-- The words waiting for channel 1 after a history. -/
def waitingWords (e : Env) (s : Rx) (w : List Nat) : List RxOp → List Nat
  | [] => w
  | op :: ops =>
    match s.step e op with
    | .error _ => w
    | .ok s' =>
      match op with
      | .execute _ _ =>
        waitingWords e s'
          (if (front s).isSome && s.cfg.ch1AddrEnabled && w.isEmpty then reportWords s else w) ops
      | .biDiChannel1 => waitingWords e s' (if afterLoco s then w.drop 1 else w) ops
      | _ => waitingWords e s' w ops

theorem reportWords_le (s : Rx) : (reportWords s).length ≤ 2 := by
  unfold reportWords
  split
  · exact Nat.le_refl 2
  · exact Nat.zero_le 2

theorem waitingWords_length (e : Env) : ∀ (ops : List RxOp) (s : Rx) (w : List Nat), w.length ≤ 2 →
    (waitingWords e s w ops).length ≤ 2 := by
  intro ops
  induction ops with
  | nil => exact fun _ _ h => h
  | cons op ops ih =>
    intro s w h
    rw [waitingWords]
    split
    · exact h
    · split
      · refine ih _ _ ?_
        split
        · exact reportWords_le s
        · exact h
      · refine ih _ _ ?_
        split
        · rw [List.length_drop]; omega
        · exact h
      · exact ih _ _ h

theorem dueChannel1_append (e : Env) (b : List RxOp) : ∀ (a : List RxOp) (s s1 : Rx) (w : List Nat),
    s.run e a = .ok s1 →
    dueChannel1 e s w (a ++ b) = dueChannel1 e s w a ++ dueChannel1 e s1 (waitingWords e s w a) b := by
  intro a
  induction a with
  | nil => intro s s1 w h; cases h; rfl
  | cons op a ih =>
    intro s s1 w h
    rw [Rx.run, bind_eq_ok] at h
    obtain ⟨s2, h1, h2⟩ := h
    cases op with
    | execute now rand => simp only [List.cons_append, dueChannel1, waitingWords, h1, ih s2 s1 _ h2]
    | biDiChannel1 =>
      simp only [List.cons_append, dueChannel1, waitingWords, h1, ih s2 s1 _ h2]
      split
      · rw [List.append_assoc]
      · rfl
    | _ => simp only [List.cons_append, dueChannel1, waitingWords, h1, ih s2 s1 _ h2]

/-- What is transmitted after a history is what the reference with the words then waiting says. -/
theorem channel1_after (e : Env) (a b : List RxOp) (s : Rx) (ha : Rx.run e {} a = .ok s) :
    (sent inChannel1 e s b).map read = dueChannel1 e s (waitingWords e {} [] a) b := by
  have h := C46_channel1 e (a ++ b)
  rw [sent_append _ e b a {} s ha, List.map_append, C46_channel1 e a, dueChannel1_append e b a {} s [] ha] at h
  exact List.append_cancel_left h

theorem due_repeats (e : Env) (r : List Nat) : ∀ (ops : List RxOp) (s : Rx) (w : List Nat),
    Along (fun t => t.cfg.ch1AddrEnabled = true → reportWords t = r) e s ops →
    ∃ k, dueChannel1 e s w ops <+: w ++ (List.replicate k r).flatten := by
  intro ops
  induction ops with
  | nil => exact fun _ _ _ => ⟨0, List.nil_prefix⟩
  | cons op ops ih =>
    intro s w h
    rw [Along] at h
    rw [dueChannel1]
    split
    · exact ⟨0, List.nil_prefix⟩
    · rename_i s' hs
      rw [hs] at h
      have ha := h.2
      split
      · split
        · rename_i hc
          simp only [Bool.and_eq_true, List.isEmpty_iff] at hc
          obtain ⟨k, hk⟩ := ih s' (reportWords s) ha
          refine ⟨k + 1, ?_⟩
          rw [hc.2, List.nil_append, List.replicate_succ, List.flatten_cons]
          rw [h.1 hc.1.2] at hk ⊢
          exact hk
        · exact ih s' w ha
      · split
        · obtain ⟨k, hk⟩ := ih s' (w.drop 1) ha
          refine ⟨k, ?_⟩
          cases w with
          | nil => exact hk
          | cons x w => exact List.cons_prefix_cons.mpr ⟨rfl, hk⟩
        · exact ih s' w ha
      · exact ih s' w ha

/-- **C119** From the moment on the address to be announced is another one, at most two datagrams in channel 1 are
still those of the old address.  All that follow are `r`, the pair of the new one, over and over. -/
theorem C119_two_old (e : Env) (a b : List RxOp) (s : Rx) (ha : Rx.run e {} a = .ok s) (r : List Nat)
    (hr : Along (fun t => t.cfg.ch1AddrEnabled = true → reportWords t = r) e s b) :
    ∃ old new k, (sent inChannel1 e s b).map read = old ++ new ∧ old.length ≤ 2 ∧
      new <+: (List.replicate k r).flatten := by
  rw [channel1_after e a b s ha]
  obtain ⟨k, t, hk⟩ := due_repeats e r b s (waitingWords e {} [] a) hr
  have hl := waitingWords_length e a {} [] (Nat.zero_le 2)
  generalize waitingWords e {} [] a = w at hk hl ⊢
  generalize dueChannel1 e s w b = d at hk ⊢
  rcases List.append_eq_append_iff.mp hk with ⟨x, h1, h2⟩ | ⟨x, h1, h2⟩
  · refine ⟨d, [], 0, (List.append_nil d).symm, ?_, List.nil_prefix⟩
    rw [h1, List.length_append] at hl
    omega
  · exact ⟨w, x, k, h1, hl, t, h2.symm⟩

theorem along_mono {P Q : Rx → Prop} (hpq : ∀ t, P t → Q t) (e : Env) : ∀ (ops : List RxOp) (s : Rx),
    Along P e s ops → Along Q e s ops := by
  intro ops
  induction ops with
  | nil => exact fun s h => hpq s h
  | cons op ops ih =>
    intro s h
    rw [Along] at h ⊢
    refine ⟨hpq s h.1, ?_⟩
    cases hs : s.step e op with
    | error f => trivial
    | ok s' =>
      have h2 := h.2
      rw [hs] at h2
      exact ih s' h2

/-- **C119** When the announcements are switched off, at most two more datagrams are transmitted. -/
theorem C119_off (e : Env) (a b : List RxOp) (s : Rx) (ha : Rx.run e {} a = .ok s)
    (hr : Along (fun t => t.cfg.ch1AddrEnabled = false) e s b) : (sent inChannel1 e s b).length ≤ 2 := by
  have hr' : Along (fun t => t.cfg.ch1AddrEnabled = true → reportWords t = []) e s b :=
    along_mono (fun t h h' => by rw [h] at h'; cases h') e b s hr
  obtain ⟨old, new, k, h1, h2, h3⟩ := C119_two_old e a b s ha [] hr'
  have h4 : new = [] := by
    rw [List.flatten_replicate_nil] at h3
    exact List.prefix_nil.mp h3
  rw [← List.length_map (f := read), h1, h4, List.append_nil]
  exact h2

/-! ### Examples -/

/-- Locomotive 3 executes a command and is then put into consist 5. -/
def joined : List RxOp := .init :: hears [3#8, 0x3F#8, 0x80#8, 0xBC#8] ++ .execute 0 0 ::
  hears [3#8, 0x12#8, 5#8, 0x14#8] ++ [.execute 0 0]

/-- Afterwards it is sent commands, with a cutout after each. -/
def fourCutouts : List RxOp := (List.replicate 4 (hears [3#8, 0x3F#8, 0x80#8, 0xBC#8] ++
  [.biDiChannel1, .execute 0 0])).flatten

/-- **C119** fails: a locomotive that is in consist 5 announces itself as locomotive 3 in the next two cutouts, and as
consist 5 only after them. -/
theorem C119_old_false : ∃ s, Rx.run exampleEnv {} joined = .ok s ∧
    Along (fun t => t.cfg.ch1AddrEnabled = true → reportWords t = [word12 1 0x60, word12 2 5]) exampleEnv s fourCutouts ∧
    (sent inChannel1 exampleEnv s fourCutouts).map read =
      [word12 1 0, word12 2 3, word12 1 0x60, word12 2 5] := by
  have key : holdsAfter (Rx.run exampleEnv {} joined) (fun s =>
      decide (Along (fun t => t.cfg.ch1AddrEnabled = true → reportWords t = [word12 1 0x60, word12 2 5]) exampleEnv s
        fourCutouts) && decide ((sent inChannel1 exampleEnv s fourCutouts).map read =
      [word12 1 0, word12 2 3, word12 1 0x60, word12 2 5])) = true := by decide +kernel
  obtain ⟨s, h, hs⟩ := holdsAfter_ok key
  rw [Bool.and_eq_true, decide_eq_true_eq, decide_eq_true_eq] at hs
  exact ⟨s, h, hs.1, hs.2⟩

/-- CV28 is set to 2 on the main. -/
def silenced : List RxOp := .init :: hears [3#8, 0xEC#8, 27#8, 2#8, 0xF6#8] ++ .execute 0 0 ::
  hears [3#8, 0xEC#8, 27#8, 2#8, 0xF6#8] ++ [.execute 0 0]

/-- Two datagrams do come after the announcements are switched off. -/
example : ∃ s, Rx.run exampleEnv {} silenced = .ok s ∧
    Along (fun t => t.cfg.ch1AddrEnabled = false) exampleEnv s fourCutouts ∧
    (sent inChannel1 exampleEnv s fourCutouts).length = 2 := by
  have key : holdsAfter (Rx.run exampleEnv {} silenced) (fun s =>
      decide (Along (fun t => t.cfg.ch1AddrEnabled = false) exampleEnv s fourCutouts) &&
        decide ((sent inChannel1 exampleEnv s fourCutouts).length = 2)) = true := by decide +kernel
  obtain ⟨s, h, hs⟩ := holdsAfter_ok key
  rw [Bool.and_eq_true, decide_eq_true_eq, decide_eq_true_eq] at hs
  exact ⟨s, h, hs.1, hs.2⟩

end Dcc
