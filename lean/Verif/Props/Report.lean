import Verif.Props.RxDynQueue
import Verif.Lemmas.RxMain
import Verif.Spec.Report
/-! Whether what a decoder reports again and again is heard: C120. -/
namespace Dcc
open Spec

theorem dueDynamic_append (e : Env) (b : List RxOp) : ∀ (a : List RxOp) (s s1 : Rx) (q : DynQueue),
    s.run e a = .ok s1 →
    dueDynamic e s q (a ++ b) = dueDynamic e s q a ++ dueDynamic e s1 (dynQueue e s q a) b := by
  intro a
  induction a with
  | nil => intro s s1 q h; cases h; rfl
  | cons op a ih =>
    intro s s1 q h
    rw [Rx.run, bind_eq_ok] at h
    obtain ⟨s2, h1, h2⟩ := h
    simp only [List.cons_append, dueDynamic, dynQueue, h1, ih s2 s1 _ h2, List.append_assoc]

theorem dynQueue_append (e : Env) (b : List RxOp) : ∀ (a : List RxOp) (s s1 : Rx) (q : DynQueue),
    s.run e a = .ok s1 → dynQueue e s q (a ++ b) = dynQueue e s1 (dynQueue e s q a) b := by
  intro a
  induction a with
  | nil => intro s s1 q h; cases h; rfl
  | cons op a ih =>
    intro s s1 q h
    rw [Rx.run, bind_eq_ok] at h
    obtain ⟨s2, h1, h2⟩ := h
    simp only [List.cons_append, dynQueue, h1, ih s2 s1 _ h2]

theorem reported_due (e : Env) (a b : List RxOp) (s : Rx) (ha : Rx.run e {} a = .ok s) :
    reported e s b = (dueDynamic e s (dynQueue e {} {} a) b).flatten := by
  have h := C48_dynamic e (a ++ b)
  rw [sent_append _ e b a {} s ha, List.map_append, C48_dynamic e a, dueDynamic_append e b a {} s {} ha] at h
  unfold reported
  rw [List.append_cancel_left h]

theorem datagram_keeps (cap : Nat) (en : Bool) (qos : Byte) (ds : List Dyn) (q : DynQueue) :
    q.words <+: (q.datagram cap en qos ds).words := by
  unfold DynQueue.datagram DynQueue.add
  dsimp only
  split
  · exact List.prefix_rfl
  · split
    · rename_i h
      rw [h]
      exact List.nil_prefix
    · split
      · exact List.prefix_rfl
      · exact List.prefix_append _ _

theorem due_soon (e : Env) : ∀ (ops : List RxOp) (s : Rx) (q : DynQueue) (w : List Nat), w <+: q.words →
    w.length ≤ 2 * reportCutouts e s ops → w <+: (dueDynamic e s q ops).flatten := by
  intro ops
  induction ops with
  | nil =>
    intro s q w _ hl
    rw [List.length_eq_zero_iff.mp (Nat.le_zero.mp hl)]
    exact List.nil_prefix
  | cons op ops ih =>
    intro s q w hw hl
    rw [reportCutouts] at hl
    rw [dueDynamic]
    split
    · rename_i hs
      rw [hs] at hl
      rw [List.length_eq_zero_iff.mp (Nat.le_zero.mp hl)]
      exact List.nil_prefix
    · rename_i s' hs
      rw [hs] at hl
      dsimp only at hl
      by_cases hd : inChannel2 .dynamic s op = true
      · rw [if_pos hd] at hl
        have hop : op = .biDiChannel2 ∧ cutout s = .dynamic := by
          cases op with
          | biDiChannel2 => exact ⟨rfl, of_decide_eq_true hd⟩
          | _ => cases hd
        obtain ⟨rfl, hc⟩ := hop
        have hst : q.step e s .biDiChannel2 = { q with words := q.words.drop 2 } := if_pos hc
        obtain ⟨t, ht⟩ := hw
        have h2 : w.drop 2 <+: (q.step e s .biDiChannel2).words := by
          rw [hst, ← ht]
          dsimp only
          rw [List.drop_append]
          exact List.prefix_append _ _
        have h3 := ih s' _ (w.drop 2) h2 (by rw [List.length_drop]; omega)
        by_cases hq : q.words = []
        · rw [hq] at ht
          rw [(List.append_eq_nil_iff.mp ht).1]
          exact List.nil_prefix
        · rw [if_pos ⟨hd, hq⟩, List.flatten_append, List.flatten_singleton]
          obtain ⟨u, hu⟩ := h3
          by_cases hl2 : 2 ≤ w.length
          · refine ⟨u, ?_⟩
            rw [← hu, ← ht, List.take_append_of_le_length hl2, ← List.append_assoc, List.take_append_drop]
          · refine List.IsPrefix.trans ?_ (List.prefix_append _ _)
            rw [← ht, List.take_append, List.take_of_length_le (by omega)]
            exact List.prefix_append _ _
      · rw [if_neg hd, Nat.zero_add] at hl
        rw [if_neg (fun h => hd h.1), List.nil_append]
        refine ih s' _ w (hw.trans ?_) hl
        unfold DynQueue.step
        split
        · exact datagram_keeps _ _ _ _ _
        · rename_i hd
          rw [if_neg (fun hc => hd (by exact decide_eq_true hc))]
          exact List.prefix_rfl
        · exact List.prefix_rfl

/-- **C120** Whatever waits is transmitted first, in half as many cutouts as there are datagrams waiting. -/
theorem C120_soon (e : Env) (a b : List RxOp) (s : Rx) (ha : Rx.run e {} a = .ok s)
    (hk : (dynQueue e {} {} a).words.length ≤ 2 * reportCutouts e s b) :
    (dynQueue e {} {} a).words <+: reported e s b := by
  rw [reported_due e a b s ha]
  exact due_soon e b s _ _ List.prefix_rfl hk

/-- **C120** No value waits longer than half as many cutouts as the queue has places. -/
theorem C120_bound (e : Env) (a b : List RxOp) (s : Rx) (ha : Rx.run e {} a = .ok s)
    (hk : e.bidiDeque ≤ 2 * reportCutouts e s b) : (dynQueue e {} {} a).words <+: reported e s b :=
  C120_soon e a b s ha (Nat.le_trans (C48_bounded e a) hk)

/-- **C120** (partial) A report of fewer values than the queue has places, made while nothing waits, is transmitted
whole, behind the quality of service. -/
theorem C120_report_partial (e : Env) (a b : List RxOp) (ds : List Dyn) (s s1 : Rx) (ha : Rx.run e {} a = .ok s)
    (h0 : (dynQueue e {} {} a).words = []) (hen : s.cfg.ch2DataEnabled = true) (hd : ds.length < e.bidiDeque)
    (hs : s.step e (.datagram ds) = .ok s1) (hk : ds.length + 1 ≤ 2 * reportCutouts e s1 b) :
    dynWord s.qos 7#8 :: ds.map dynWordOf <+: reported e s1 b := by
  have ha1 : Rx.run e {} (a ++ [.datagram ds]) = .ok s1 := by
    rw [run_append e a _ {} s ha, Rx.run, hs, ok_bind, Rx.run]
  have hq : (dynQueue e {} {} (a ++ [.datagram ds])).words = dynWord s.qos 7#8 :: ds.map dynWordOf := by
    have := dynQueue_append e [.datagram ds] a {} s {} ha
    rw [this, dynQueue, hs]
    show (DynQueue.datagram _ _ _ _ _).words = _
    unfold DynQueue.datagram DynQueue.add
    rw [h0, hen]
    dsimp only
    rw [if_neg (by show ¬ 0 = e.bidiDeque; omega), if_pos rfl]
    show List.take (e.bidiDeque - 0) (dynWord s.qos 7#8 :: ds.map dynWordOf) = _
    exact List.take_of_length_le (by rw [List.length_cons, List.length_map]; omega)
  rw [← hq]
  exact C120_soon e _ b s1 ha1 (by rw [hq, List.length_cons, List.length_map]; exact hk)

/-! ### One report for every cutout -/

theorem dynStep_other (e : Env) (s : Rx) (q : DynQueue) (op : RxOp) (h1 : ¬ inChannel2 .dynamic s op = true)
    (h2 : ¬ isDatagram op = true) : q.step e s op = q := by
  cases op with
  | datagram ds => exact absurd rfl h2
  | biDiChannel2 => exact if_neg fun hc => h1 (decide_eq_true hc)
  | _ => rfl

theorem due_paced (e : Env) (ds : List Dyn) (hcap : 3 ≤ e.bidiDeque) (hds : 2 ≤ ds.length) : ∀ (ops : List RxOp)
    (s : Rx) (q : DynQueue) (cut : Bool), paced ds e s cut ops = true → q.blocked = false →
    q.words.length = (if cut then e.bidiDeque else e.bidiDeque - 2) →
    Along (fun t => t.cfg.ch2DataEnabled = true) e s ops →
    ∃ k, (dueDynamic e s q ops).flatten <+: q.words ++ (List.replicate k ((ds.take 2).map dynWordOf)).flatten := by
  intro ops
  induction ops with
  | nil => exact fun _ _ _ _ _ _ _ => ⟨0, List.nil_prefix⟩
  | cons op ops ih =>
    intro s q cut hp hb hl he
    rw [paced] at hp
    rw [Along] at he
    rw [dueDynamic]
    cases hs : s.step e op with
    | error f => exact ⟨0, List.nil_prefix⟩
    | ok s' =>
      rw [hs] at hp he
      dsimp only at hp ⊢
      obtain ⟨hen, he⟩ := he
      by_cases hd : inChannel2 .dynamic s op = true
      · rw [if_pos hd, Bool.and_eq_true] at hp
        obtain ⟨rfl, hp⟩ := hp
        rw [if_pos rfl] at hl
        have hop : op = .biDiChannel2 ∧ cutout s = .dynamic := by
          cases op with
          | biDiChannel2 => exact ⟨rfl, of_decide_eq_true hd⟩
          | _ => cases hd
        obtain ⟨rfl, hc⟩ := hop
        have hst : q.step e s .biDiChannel2 = { q with words := q.words.drop 2 } := if_pos hc
        rw [hst, if_pos ⟨hd, fun h => by rw [h] at hl; have : 0 = e.bidiDeque := hl; omega⟩, List.flatten_append,
          List.flatten_singleton]
        obtain ⟨k, hk⟩ := ih s' { q with words := q.words.drop 2 } false hp hb
          (by rw [if_neg Bool.false_ne_true]; show (q.words.drop 2).length = _; rw [List.length_drop, hl]) he
        refine ⟨k, ?_⟩
        obtain ⟨u, hu⟩ := hk
        refine ⟨u, ?_⟩
        rw [List.append_assoc, hu, ← List.append_assoc, List.take_append_drop]
      · rw [if_neg hd] at hp
        rw [if_neg (fun h => hd h.1), List.nil_append]
        by_cases hg : isDatagram op = true
        · rw [if_pos hg, Bool.and_eq_true, Bool.and_eq_true, decide_eq_true_eq] at hp
          obtain ⟨⟨hc, rfl⟩, hp⟩ := hp
          have hc : cut = false := by cases cut <;> simp_all
          subst hc
          rw [if_neg Bool.false_ne_true] at hl
          have hst : q.step e s (.datagram ds) = { q with words := q.words ++ (ds.take 2).map dynWordOf } := by
            show q.datagram _ _ _ _ = _
            unfold DynQueue.datagram DynQueue.add
            rw [hen, hb]
            dsimp only
            rw [if_neg (by omega), if_neg (fun h => by rw [h] at hl; have : 0 = e.bidiDeque - 2 := hl; omega),
              if_neg Bool.false_ne_true, if_pos rfl, hl, show e.bidiDeque - (e.bidiDeque - 2) = 2 by omega,
              List.map_take]
          rw [hst]
          obtain ⟨k, hk⟩ := ih s' { q with words := q.words ++ (ds.take 2).map dynWordOf } true hp hb
            (by
              rw [if_pos rfl]
              show (q.words ++ (ds.take 2).map dynWordOf).length = _
              rw [List.length_append, List.length_map, List.length_take, hl]
              omega) he
          refine ⟨k + 1, ?_⟩
          rw [List.replicate_succ, List.flatten_cons, ← List.append_assoc]
          exact hk
        · rw [if_neg hg] at hp
          rw [dynStep_other e s q op hd hg]
          exact ih s' q cut hp hb hl he

/-- **C120** fails: a program that reports the same values once before every cutout fills the queue in the end, and
from then on every cutout makes room for two datagrams.  So behind what waits only the first two values are ever
transmitted, over and over; the third and all others are never heard again. -/
theorem C120_starved_false (e : Env) (hcap : 3 ≤ e.bidiDeque) (a b : List RxOp) (s : Rx) (ds : List Dyn)
    (ha : Rx.run e {} a = .ok s) (hds : 2 ≤ ds.length)
    (hfull : (dynQueue e {} {} a).words.length = e.bidiDeque) (hb : (dynQueue e {} {} a).blocked = false)
    (hen : Along (fun t => t.cfg.ch2DataEnabled = true) e s b) (hp : paced ds e s true b = true) :
    ∃ k, reported e s b <+:
      (dynQueue e {} {} a).words ++ (List.replicate k ((ds.take 2).map dynWordOf)).flatten := by
  rw [reported_due e a b s ha]
  exact due_paced e ds hcap hds b s _ true hp hb hfull hen

/-! ### Two reports for every cutout -/

/-- A report is refused or cut off, which leaves the queue blocked or full, or it is accepted whole. -/
theorem datagram_whole (cap : Nat) (qos : Byte) (ds : List Dyn) (q : DynQueue) (hd : ds.length < cap)
    (hl : q.words.length ≤ cap) :
    ds.map dynWordOf <:+: (q.datagram cap true qos ds).words ∨
      (q.words ≠ [] ∧ (q.datagram cap true qos ds).words ≠ [] ∧
        ((q.words.length = cap ∧ q.datagram cap true qos ds = { q with blocked := true }) ∨
         (q.blocked = true ∧ q.datagram cap true qos ds = q) ∨
         (q.blocked = false ∧ q.words.length ≠ cap ∧ (q.datagram cap true qos ds).blocked = false ∧
          (q.datagram cap true qos ds).words.length = cap))) := by
  unfold DynQueue.datagram DynQueue.add
  dsimp only
  by_cases h1 : q.words.length = cap
  · have h0 : q.words ≠ [] := fun h => by rw [h] at h1; have : 0 = cap := h1; omega
    rw [if_pos h1]
    exact .inr ⟨h0, h0, .inl ⟨h1, rfl⟩⟩
  · rw [if_neg h1]
    by_cases h2 : q.words = []
    · rw [if_pos h2, if_pos rfl, if_pos rfl]
      left
      refine ⟨[dynWord qos 7#8], [], ?_⟩
      rw [List.append_nil]
      show _ = List.take (cap - 0) _
      rw [List.take_of_length_le (by simp; omega)]
    · rw [if_neg h2]
      cases hb : q.blocked
      · rw [if_neg Bool.false_ne_true, if_pos rfl]
        by_cases h3 : ds.length ≤ cap - q.words.length
        · left
          rw [List.take_of_length_le (by rw [List.length_map]; exact h3)]
          exact (List.suffix_append _ _).isInfix
        · refine .inr ⟨h2, by simp [h2], .inr (.inr ⟨rfl, h1, rfl, ?_⟩)⟩
          show (_ ++ _ : List Nat).length = _
          rw [List.length_append, List.length_take, List.length_map]
          omega
      · rw [if_pos rfl]
        exact .inr ⟨h2, h2, .inr (.inl ⟨rfl, rfl⟩)⟩

theorem datagram_le (cap : Nat) (en : Bool) (qos : Byte) (ds : List Dyn) (q : DynQueue) (hl : q.words.length ≤ cap) :
    (q.datagram cap en qos ds).words.length ≤ cap := by
  unfold DynQueue.datagram DynQueue.add
  dsimp only
  split
  · exact hl
  · split
    · show (List.take (cap - 0) _).length ≤ cap
      rw [List.length_take]
      omega
    · split
      · exact hl
      · rw [List.length_append, List.length_take]
        omega

theorem due_eager (e : Env) (ds : List Dyn) (hd : ds.length < e.bidiDeque) : ∀ (ops : List RxOp)
    (s : Rx) (q : DynQueue) (n : Nat), eager ds e s n ops = true → q.words.length ≤ e.bidiDeque →
    Along (fun t => t.cfg.ch2DataEnabled = true) e s ops →
    (1 ≤ n → q.words ≠ [] ∧ (q.blocked = true ∨ q.words.length = e.bidiDeque)) →
    (2 ≤ n → q.blocked = true) →
    (if q.blocked then 2 * ((q.words.length + 1) / 2) else 2 * ((e.bidiDeque + 1) / 2)) + e.bidiDeque ≤
      2 * reportCutouts e s ops →
    ds.map dynWordOf <:+: (dueDynamic e s q ops).flatten := by
  intro ops
  induction ops with
  | nil =>
    intro s q n _ _ _ _ _ hc
    have : 2 * reportCutouts e s [] = 0 := rfl
    omega
  | cons op ops ih =>
    intro s q n hp hl he h1 h2 hc
    rw [eager] at hp
    rw [Along] at he
    rw [reportCutouts] at hc
    rw [dueDynamic]
    cases hs : s.step e op with
    | error f =>
      rw [hs] at hc
      dsimp only at hc
      omega
    | ok s' =>
      rw [hs] at hp he hc
      dsimp only at hp hc ⊢
      obtain ⟨hen, he⟩ := he
      by_cases hx : inChannel2 .dynamic s op = true
      · rw [if_pos hx, Bool.and_eq_true, decide_eq_true_eq] at hp
        rw [if_pos hx] at hc
        have hop : op = .biDiChannel2 ∧ cutout s = .dynamic := by
          cases op with
          | biDiChannel2 => exact ⟨rfl, of_decide_eq_true hx⟩
          | _ => cases hx
        obtain ⟨rfl, hcut⟩ := hop
        have hst : q.step e s .biDiChannel2 = { q with words := q.words.drop 2 } := if_pos hcut
        rw [hst, List.flatten_append]
        have hb := h2 hp.1
        rw [hb, if_pos rfl] at hc
        refine List.IsInfix.trans ?_ (List.suffix_append _ _).isInfix
        refine ih s' { q with words := q.words.drop 2 } 0 hp.2 ?_ he (fun h => absurd h (by omega))
          (fun h => absurd h (by omega)) ?_
        · show (q.words.drop 2).length ≤ _
          rw [List.length_drop]
          omega
        · show (if q.blocked = true then 2 * (((q.words.drop 2).length + 1) / 2) else _) + _ ≤ _
          have h0 : q.words.length ≠ 0 := fun h => (h1 (by omega)).1 (List.length_eq_zero_iff.mp h)
          rw [hb, if_pos rfl, List.length_drop]
          omega
      · rw [if_neg hx] at hp hc
        rw [if_neg (fun h => hx h.1), List.nil_append]
        by_cases hg : isDatagram op = true
        · rw [if_pos hg, Bool.and_eq_true, decide_eq_true_eq] at hp
          obtain ⟨rfl, hp⟩ := hp
          have hst : q.step e s (.datagram ds) = q.datagram e.bidiDeque true s.qos ds := by
            show q.datagram _ _ _ _ = _
            rw [hen]
          rw [hst]
          have hcap := datagram_le e.bidiDeque true s.qos ds q hl
          rcases datagram_whole e.bidiDeque s.qos ds q hd hl with hw | ⟨k0, k1, k2⟩
          · refine hw.trans (due_soon e ops s' _ _ List.prefix_rfl ?_).isInfix
            omega
          · rcases k2 with ⟨k2, k3⟩ | ⟨k2, k3⟩ | ⟨k2, k5, k3, k4⟩
            · rw [k3]
              refine ih s' _ (n + 1) hp hl he (fun _ => ⟨k0, .inl rfl⟩) (fun _ => rfl) ?_
              show (if true = true then 2 * ((q.words.length + 1) / 2) else _) + _ ≤ _
              rw [if_pos rfl]
              split at hc <;> omega
            · rw [k3]
              refine ih s' _ (n + 1) hp hl he (fun _ => ⟨k0, .inl k2⟩) (fun _ => k2) (by omega)
            · refine ih s' _ (n + 1) hp hcap he (fun _ => ⟨k1, .inr k4⟩) (fun hn => ?_) ?_
              · exfalso
                rcases (h1 (by omega)).2 with hb | hb
                · rw [k2] at hb; cases hb
                · exact k5 hb
              · rw [k3, if_neg Bool.false_ne_true]
                rw [k2, if_neg Bool.false_ne_true] at hc
                omega
        · rw [if_neg hg] at hp
          rw [dynStep_other e s q op hx hg]
          exact ih s' q n hp hl he h1 h2 (by omega)

/-- **C120** (partial) A program that reports the same values at least twice before every cutout, fewer of them than the
queue has places, is heard: in as many cutouts as the queue has places, and one more, all the values are
transmitted one after the other. -/
theorem C120_twice_partial (e : Env) (a b : List RxOp) (s : Rx) (ds : List Dyn) (ha : Rx.run e {} a = .ok s)
    (hd : ds.length < e.bidiDeque) (hen : Along (fun t => t.cfg.ch2DataEnabled = true) e s b)
    (hp : eager ds e s 0 b = true) (hk : e.bidiDeque + 1 ≤ reportCutouts e s b) :
    ds.map dynWordOf <:+: reported e s b := by
  rw [reported_due e a b s ha]
  have hl := C48_bounded e a
  refine due_eager e ds hd b s _ 0 hp hl hen (fun h => absurd h (by omega)) (fun h => absurd h (by omega)) ?_
  split <;> omega

/-! ### Examples -/

/-- Speed, temperature and track voltage. -/
def threeValues : List Dyn := [.kmh 60#16, .temperature 40#16, .trackVoltage 15000#16]

/-- A command for locomotive 3, the cutout after it, and the next report. -/
def reportRound : List RxOp := hears [3#8, 0x3F#8, 0x80#8, 0xBC#8] ++ [.biDiChannel2, .execute 0 0, .datagram threeValues]

/-- The first rounds, until the queue is full. -/
def reportingStart : List RxOp := .init :: .datagram threeValues :: (List.replicate 3 reportRound).flatten

/-- Seven cutouts later the voltage is no longer among what is transmitted or waits. -/
example : ∃ s s', Rx.run exampleEnv {} reportingStart = .ok s ∧ 3 ≤ exampleEnv.bidiDeque ∧ 2 ≤ threeValues.length ∧
    (dynQueue exampleEnv {} {} reportingStart).words.length = exampleEnv.bidiDeque ∧
    (dynQueue exampleEnv {} {} reportingStart).blocked = false ∧
    Along (fun t => t.cfg.ch2DataEnabled = true) exampleEnv s (List.replicate 7 reportRound).flatten ∧
    paced threeValues exampleEnv s true (List.replicate 7 reportRound).flatten = true ∧
    s.run exampleEnv (List.replicate 7 reportRound).flatten = .ok s' ∧
    (reported exampleEnv s (List.replicate 7 reportRound).flatten).drop 7 =
      [0, 1, 0, 1, 0, 1, 0].map (fun i => dynWordOf (threeValues.getD i (.kmh 0#16))) := by
  have key : holdsAfter (Rx.run exampleEnv {} reportingStart) (fun s =>
      decide (Along (fun t => t.cfg.ch2DataEnabled = true) exampleEnv s (List.replicate 7 reportRound).flatten) &&
        paced threeValues exampleEnv s true (List.replicate 7 reportRound).flatten &&
        holdsAfter (s.run exampleEnv (List.replicate 7 reportRound).flatten) (fun _ => true) &&
        decide ((reported exampleEnv s (List.replicate 7 reportRound).flatten).drop 7 =
          [0, 1, 0, 1, 0, 1, 0].map (fun i => dynWordOf (threeValues.getD i (.kmh 0#16))))) = true := by
    decide +kernel
  obtain ⟨s, h, hs⟩ := holdsAfter_ok key
  rw [Bool.and_eq_true, Bool.and_eq_true, Bool.and_eq_true, decide_eq_true_eq, decide_eq_true_eq] at hs
  obtain ⟨s', h', -⟩ := holdsAfter_ok hs.1.2
  exact ⟨s, s', h, by decide, by decide, by decide +kernel, by decide +kernel, hs.1.1.1, hs.1.1.2, h', hs.2⟩

/-- A report made while nothing waits. -/
example : ∃ s s1, Rx.run exampleEnv {} [.init] = .ok s ∧ (dynQueue exampleEnv {} {} [.init]).words = [] ∧
    s.cfg.ch2DataEnabled = true ∧ threeValues.length < exampleEnv.bidiDeque ∧
    s.step exampleEnv (.datagram threeValues) = .ok s1 ∧
    threeValues.length + 1 ≤ 2 * reportCutouts exampleEnv s1 (List.replicate 2 reportRound).flatten := by
  have key : holdsAfter (Rx.run exampleEnv {} [.init]) (fun s => s.cfg.ch2DataEnabled &&
      holdsAfter (s.step exampleEnv (.datagram threeValues)) (fun s1 =>
        decide (threeValues.length + 1 ≤ 2 * reportCutouts exampleEnv s1 (List.replicate 2 reportRound).flatten))) =
      true := by decide +kernel
  obtain ⟨s, h, hs⟩ := holdsAfter_ok key
  rw [Bool.and_eq_true] at hs
  obtain ⟨s1, h1, h2⟩ := holdsAfter_ok hs.2
  exact ⟨s, s1, h, by decide +kernel, hs.1, by decide, h1, of_decide_eq_true h2⟩

/-- Two reports, a command and its cutout. -/
def eagerRound : List RxOp := .datagram threeValues :: .datagram threeValues ::
  hears [3#8, 0x3F#8, 0x80#8, 0xBC#8] ++ [.biDiChannel2, .execute 0 0]

/-- Eight rounds are enough. -/
example : ∃ s, Rx.run exampleEnv {} reportingStart = .ok s ∧ threeValues.length < exampleEnv.bidiDeque ∧
    Along (fun t => t.cfg.ch2DataEnabled = true) exampleEnv s (List.replicate 8 eagerRound).flatten ∧
    eager threeValues exampleEnv s 0 (List.replicate 8 eagerRound).flatten = true ∧
    exampleEnv.bidiDeque + 1 ≤ reportCutouts exampleEnv s (List.replicate 8 eagerRound).flatten := by
  have key : holdsAfter (Rx.run exampleEnv {} reportingStart) (fun s =>
      decide (Along (fun t => t.cfg.ch2DataEnabled = true) exampleEnv s (List.replicate 8 eagerRound).flatten) &&
        eager threeValues exampleEnv s 0 (List.replicate 8 eagerRound).flatten &&
        decide (exampleEnv.bidiDeque + 1 ≤ reportCutouts exampleEnv s (List.replicate 8 eagerRound).flatten)) =
      true := by decide +kernel
  obtain ⟨s, h, hs⟩ := holdsAfter_ok key
  rw [Bool.and_eq_true, Bool.and_eq_true, decide_eq_true_eq, decide_eq_true_eq] at hs
  exact ⟨s, h, by decide, hs.1.1, hs.1.2, hs.2⟩

end Dcc
