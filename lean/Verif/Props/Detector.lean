import Verif.Lemmas.RxAddrRange
import Verif.Props.RxBidi
import Verif.Props.RxDyn
import Verif.Props.RxDynQueue
import Verif.Props.RxLogon
import Verif.Spec.Detector

/-!
Property C94: a detector on the track shows the right address of every decoder, and the values the
decoder reports.
-/

namespace Dcc

open Spec

/-! ### Addresses -/

/-- The words that announce an address. -/
private def Seen.words : Seen → List Nat
  | .short n => [word12 1 0, word12 2 n]
  | .consist n r => [word12 1 96, word12 2 ((if r then 128 else 0) + n % 128)]
  | .long n => [word12 1 (128 + n / 256 % 64), word12 2 (n % 256)]

private theorem words_announced {s : Rx} (hr : Ranged s) (ha : Apart s) {x : Seen} (hx : announced s = some x) :
    reportWords s = Seen.words x ∧ ∀ ws, detect (Seen.words x ++ ws) = some x :: detect ws := by
  unfold announced at hx
  unfold reportWords
  obtain ⟨a, h1, h2⟩ := Option.map_eq_some_iff.mp hx
  rw [h1]
  have hrange : a.value.toNat < 16384 ∧ (SameDecoder a s.addrs.consist → a.value.toNat < 128) := by
    unfold reportedAddress at h1
    split at h1
    · cases h1
      refine ⟨Nat.lt_trans hr.logon (by decide), fun h => ?_⟩
      exact ha.resolve_right fun hn => hn h.1
    split at h1
    · rename_i hc
      cases h1
      exact ⟨Nat.lt_trans hr.primary (by decide), fun h => by rw [h.1]; omega⟩
    split at h1
    · rename_i hc
      cases h1
      exact ⟨by omega, fun _ => hc⟩
    · cases h1
  obtain ⟨b1, b2⟩ := hrange
  have hsame : (a.value.toNat = s.addrs.consist.value.toNat ∧
      (a.type = s.addrs.consist.type ∨ a.type.isLoco = true ∧ s.addrs.consist.type.isLoco = true)) ↔
      SameDecoder a s.addrs.consist := by
    unfold SameDecoder
    rw [BitVec.toNat_inj]
  have key : ∀ n r, n < 128 → (if r then 128 else 0) + n % 128 < 256 ∧
      ((if r then 128 else 0) + n % 128) % 128 = n ∧
      decide (128 ≤ (if r then 128 else 0) + n % 128) = r := by
    intro n r h
    cases r
    · simp only [Bool.false_eq_true, if_false]; refine ⟨by omega, by omega, ?_⟩
      exact decide_eq_false (by omega)
    · simp only [if_true]; refine ⟨by omega, by omega, ?_⟩
      exact decide_eq_true (by omega)
  dsimp only [reportData]
  simp only [hsame]
  by_cases hs : SameDecoder a s.addrs.consist
  · rw [if_pos hs] at h2 ⊢
    subst h2
    refine ⟨rfl, fun ws => ?_⟩
    obtain ⟨k1, k2, k3⟩ := key _ s.addrs.consist.reversed (b2 hs)
    simp only [Seen.words, List.cons_append, List.nil_append, detect, word12]
    generalize (if s.addrs.consist.reversed then 128 else 0) + a.value.toNat % 128 = low at *
    rw [if_pos ⟨trivial, by omega⟩, seen, if_neg (by decide), if_pos rfl,
      show (2 * 256 + low) % 256 = low by omega, k2, k3]
  · rw [if_neg hs] at h2 ⊢
    split at h2
    · rename_i hn
      rw [if_pos hn]
      subst h2
      refine ⟨rfl, fun ws => ?_⟩
      simp only [Seen.words, List.cons_append, List.nil_append, detect, word12]
      rw [if_pos ⟨trivial, by omega⟩, seen, if_pos rfl, if_pos (by omega),
        show (2 * 256 + a.value.toNat) % 256 = a.value.toNat by omega]
    · rename_i hn
      rw [if_neg hn]
      subst h2
      refine ⟨rfl, fun ws => ?_⟩
      simp only [Seen.words, List.cons_append, List.nil_append, detect, word12]
      rw [if_pos ⟨by omega, by omega⟩, seen, if_neg (by omega), if_neg (by omega), if_pos ⟨by omega, by omega⟩,
        show ((1 * 256 + (128 + a.value.toNat / 256 % 64)) % 256 - 128) * 256 +
          (2 * 256 + a.value.toNat % 256) % 256 = a.value.toNat by omega]

private theorem announced_some {s : Rx} (h : (reportedAddress s).isSome = true) :
    ∃ x, announced s = some x := by
  obtain ⟨a, ha⟩ := Option.isSome_iff_exists.mp h
  exact ⟨_, by rw [announced, ha]; rfl⟩

private theorem reportWords_length {s : Rx} (h : (reportedAddress s).isSome = true) :
    (reportWords s).length = 2 := by
  obtain ⟨a, ha⟩ := Option.isSome_iff_exists.mp h
  rw [reportWords, ha]
  rfl

private theorem reportWords_none {s : Rx} (h : (reportedAddress s).isSome = false) : reportWords s = [] := by
  rw [reportWords, Option.isSome_eq_false_iff.mp h |> Option.isNone_iff_eq_none.mp]

/-- The words due are those of the announcements, without the last two at most. -/
private theorem due_announcing (e : Env) (ops : List RxOp) : ∀ (s : Rx) (w : List Nat), w.length ≤ 2 →
    ∃ rest, dueChannel1 e s w ops ++ rest = w ++ (announcing e s w.length ops).flatMap reportWords ∧
      rest.length ≤ 2 := by
  induction ops with
  | nil => intro s w hw; exact ⟨w, by simp [dueChannel1, announcing], hw⟩
  | cons op ops ih =>
    intro s w hw
    rw [dueChannel1, announcing]
    cases h : s.step e op with
    | error f => exact ⟨w, by simp, hw⟩
    | ok s' =>
      cases op with
      | execute now rand =>
        dsimp only
        by_cases hc : ((front s).isSome && s.cfg.ch1AddrEnabled) = true
        · cases w with
          | nil =>
            cases hs : (reportedAddress s).isSome
            · simp only [hc, List.isEmpty_nil, Bool.and_true, List.length_nil, decide_true,
                Bool.and_false, Bool.false_eq_true, if_false, if_true, reportWords_none hs]
              exact ih s' [] hw
            · simp only [hc, List.isEmpty_nil, Bool.and_true, List.length_nil, decide_true, if_true]
              obtain ⟨rest, h1, h2⟩ := ih s' (reportWords s) (by rw [reportWords_length hs]; decide)
              rw [reportWords_length hs] at h1
              exact ⟨rest, by rw [h1, List.flatMap_cons, List.nil_append], h2⟩
          | cons a w =>
            simp only [hc, List.isEmpty_cons, Bool.and_false, Bool.false_eq_true, if_false,
              List.length_cons, Nat.succ_ne_zero, decide_false, Bool.false_and]
            exact ih s' (a :: w) hw
        · have hc : ((front s).isSome && s.cfg.ch1AddrEnabled) = false := by simpa using hc
          simp only [hc, Bool.false_and, Bool.false_eq_true, if_false]
          exact ih s' w hw
      | biDiChannel1 =>
        dsimp only
        cases afterLoco s
        · exact ih s' w hw
        · simp only [if_true]
          obtain ⟨rest, h1, h2⟩ := ih s' (w.drop 1) (by rw [List.length_drop]; omega)
          refine ⟨rest, ?_, h2⟩
          rw [List.length_drop] at h1
          rw [List.append_assoc, h1, ← List.append_assoc, List.take_append_drop]
      | _ => exact ih s' w hw

private theorem announcing_states (P : Rx → Prop) (e : Env) (ops : List RxOp) : ∀ (s : Rx) (k : Nat),
    Reachable e s → Along P e s ops →
    ∀ t ∈ announcing e s k ops, Reachable e t ∧ P t ∧ (reportedAddress t).isSome = true := by
  induction ops with
  | nil => intro s k _ _ t ht; cases ht
  | cons op ops ih =>
    intro s k hr ha t ht
    rw [announcing] at ht
    rw [Along] at ha
    obtain ⟨a1, a2⟩ := ha
    cases h : s.step e op with
    | error f => rw [h] at ht; cases ht
    | ok s' =>
      rw [h] at ht a2
      have hr' := hr.step op h
      cases op with
      | execute now rand =>
        dsimp only at ht
        split at ht
        · rename_i hc
          rcases List.mem_cons.mp ht with rfl | ht
          · simp only [Bool.and_eq_true] at hc
            exact ⟨hr, a1, hc.2⟩
          · exact ih s' _ hr' a2 t ht
        · exact ih s' _ hr' a2 t ht
      | _ => exact ih s' _ hr' a2 t ht

private theorem detect_prefix (l : List Rx) : ∀ (xs rest : List Nat), rest.length ≤ 2 →
    (∀ t ∈ l, Ranged t ∧ Apart t ∧ (reportedAddress t).isSome = true) →
    xs ++ rest = l.flatMap reportWords →
    ∃ unheard, unheard.length ≤ 1 ∧ detect xs ++ unheard = l.map announced := by
  induction l with
  | nil =>
    intro xs rest _ _ h
    have h : xs ++ rest = [] := h
    rw [(List.append_eq_nil_iff.mp h).1]
    exact ⟨[], Nat.zero_le _, rfl⟩
  | cons t l ih =>
    intro xs rest hl ht h
    obtain ⟨r1, r2, r3⟩ := ht t (.head _)
    have ht' : ∀ u ∈ l, _ := fun u hu => ht u (.tail _ hu)
    have len : ∀ l : List Rx, (∀ t ∈ l, Ranged t ∧ Apart t ∧ (reportedAddress t).isSome = true) →
        (l.flatMap reportWords).length = 2 * l.length := by
      intro l
      induction l with
      | nil => intro _; rfl
      | cons u l ih =>
        intro hu
        rw [List.flatMap_cons, List.length_append, ih fun v hv => hu v (.tail _ hv),
          reportWords_length (hu u (.head _)).2.2, List.length_cons]
        omega
    have hlen := congrArg List.length h
    rw [len _ ht, List.length_append, List.length_cons] at hlen
    obtain ⟨x, hx⟩ := announced_some r3
    obtain ⟨w1, w2⟩ := words_announced r1 r2 hx
    have h2 := reportWords_length r3
    match xs, h, hlen with
    | [], _, hlen =>
      refine ⟨[announced t], Nat.le_refl _, ?_⟩
      simp only [List.length_nil] at hlen
      obtain rfl : l = [] := List.eq_nil_of_length_eq_zero (by omega)
      rfl
    | [a], _, hlen =>
      refine ⟨[announced t], Nat.le_refl _, ?_⟩
      simp only [List.length_cons, List.length_nil] at hlen
      obtain rfl : l = [] := List.eq_nil_of_length_eq_zero (by omega)
      rfl
    | a :: b :: xs, h, _ =>
      rw [List.flatMap_cons] at h
      have h' : [a, b] ++ (xs ++ rest) = reportWords t ++ l.flatMap reportWords := h
      obtain ⟨e1, e2⟩ := List.append_inj h' (by rw [h2]; rfl)
      obtain ⟨u, u1, u2⟩ := ih xs rest hl ht' e2
      refine ⟨u, u1, ?_⟩
      rw [show a :: b :: xs = [a, b] ++ xs from rfl, e1, w1, w2, List.cons_append, u2, List.map_cons, hx]

/-- **C94** In every history (in which no assigned address above 127 is the number of the consist as
well) a detector shows exactly the addresses the decoder announces, in order; the last one may not
be complete yet.  The number shown is that of the address assigned, of the consist, or the primary
one. -/
theorem C94_addresses_partial (e : Env) (ops : List RxOp) (h : Along Apart e {} ops) :
    ∃ unheard, unheard.length ≤ 1 ∧
      detect ((sent inChannel1 e {} ops).map read) ++ unheard = (announcing e {} 0 ops).map announced ∧
      ∀ s ∈ announcing e {} 0 ops,
        (announced s).map Seen.number = (reportedAddress s).map fun a => a.value.toNat := by
  rw [C46_channel1]
  obtain ⟨rest, h1, h2⟩ := due_announcing e ops {} [] (Nat.zero_le _)
  have hst := announcing_states Apart e ops {} 0 .start h
  obtain ⟨u, u1, u2⟩ := detect_prefix (announcing e {} 0 ops) _ rest h2
    (fun t ht => ⟨(hst t ht).1.ranged, (hst t ht).2⟩) (by rw [h1]; rfl)
  refine ⟨u, u1, u2, fun s _ => ?_⟩
  unfold announced
  cases reportedAddress s with
  | none => rfl
  | some a =>
    simp only [Option.map_some]
    split
    · rfl
    split <;> rfl

private theorem detect_same (x : Seen) (hx : ∀ ws, detect (Seen.words x ++ ws) = some x :: detect ws) :
    ∀ ws : List Nat, (∀ w ∈ ws, w ∈ Seen.words x) → ∀ y ∈ detect ws, y = some x := by
  obtain ⟨a, b, hab⟩ : ∃ a b, Seen.words x = [a, b] := by cases x <;> exact ⟨_, _, rfl⟩
  have h0 := hx []
  rw [hab, List.append_nil, detect] at h0
  split at h0
  · rename_i hc
    obtain ⟨c1, c2⟩ := hc
    rw [List.cons.injEq] at h0
    intro ws
    induction ws using detect.induct with
    | case1 w w' ws hc ih =>
      intro hw y hy
      rw [detect, if_pos hc] at hy
      rw [hab] at hw
      have e1 : w = a := by
        have := hw w (.head _)
        simp only [List.mem_cons, List.not_mem_nil, or_false] at this
        rcases this with h | h
        · exact h
        · omega
      have e2 : w' = b := by
        have := hw w' (.tail _ (.head _))
        simp only [List.mem_cons, List.not_mem_nil, or_false] at this
        rcases this with h | h
        · omega
        · exact h
      rcases List.mem_cons.mp hy with rfl | hy
      · rw [e1, e2]; exact h0.1
      · exact ih (fun v hv => by rw [hab]; exact hw v (.tail _ (.tail _ hv))) y hy
    | case2 w w' ws hc ih =>
      intro hw y hy
      rw [detect, if_neg hc] at hy
      exact ih (fun v hv => hw v (.tail _ hv)) y hy
    | case3 ws h =>
      intro _ y hy
      match ws, h with
      | [], _ => cases hy
      | [_], _ => cases hy
      | a :: b :: c, h => exact absurd rfl (h a b c)
  · rw [detect] at h0
    · cases h0
    · nofun

private theorem run_due (e : Env) (ops : List RxOp) (s : Rx) (hr : Reachable e s) (hq : s.q.adr = []) :
    ∃ rest, (sent inChannel1 e s ops).map read ++ rest = (announcing e s 0 ops).flatMap reportWords := by
  rw [channel1_due e ops s hr, hq]
  obtain ⟨rest, h, -⟩ := due_announcing e ops s [] (Nat.zero_le _)
  exact ⟨rest, h⟩

/-- **C94** A detector that misses any of the messages, or comes later, shows nothing else than the
address of the decoder as long as that stays the same. -/
theorem C94_misses_partial (e : Env) (s : Rx) (hr : Reachable e s) (hq : s.q.adr = []) (ops : List RxOp)
    (h : Along Apart e s ops) (x : Seen) (hx : ∀ t ∈ announcing e s 0 ops, announced t = some x)
    (heard : List (List Byte)) (hsub : heard.Sublist (sent inChannel1 e s ops)) :
    ∀ y ∈ detect (heard.map read), y = some x := by
  obtain ⟨rest, h1⟩ := run_due e ops s hr hq
  have hst := announcing_states Apart e ops s 0 hr h
  cases hl : announcing e s 0 ops with
  | nil =>
    rw [hl] at h1
    have h2 := List.map_eq_nil_iff.mp (List.append_eq_nil_iff.mp h1).1
    rw [h2] at hsub
    rw [List.sublist_nil.mp hsub]
    intro y hy
    cases hy
  | cons t l =>
    obtain ⟨w1, w2⟩ := words_announced (hst t (by rw [hl]; exact .head _)).1.ranged
      (hst t (by rw [hl]; exact .head _)).2.1 (hx t (by rw [hl]; exact .head _))
    refine detect_same x w2 _ fun w hw => ?_
    obtain ⟨m, hm, rfl⟩ := List.mem_map.mp hw
    have : read m ∈ (announcing e s 0 ops).flatMap reportWords := by
      rw [← h1]
      exact List.mem_append_left _ (List.mem_map_of_mem (hsub.subset hm))
    obtain ⟨u, hu, hm'⟩ := List.mem_flatMap.mp this
    obtain ⟨u1, u2, -⟩ := hst u hu
    rwa [(words_announced u1.ranged u2 (hx u hu)).1] at hm'

/-! ### Values -/

private theorem reading_word (d x : Byte) (h : x.toNat < 64) :
    dynWord d x / 64 % 256 = d.toNat ∧ dynWord d x % 64 = x.toNat := by
  have hor : d.toNat * 64 ||| x.toNat = d.toNat * 64 + x.toNat := by
    have := Nat.shiftLeft_add_eq_or_of_lt (i := 6) h d.toNat
    rw [Nat.shiftLeft_eq] at this
    exact this.symm
  unfold dynWord
  rw [hor]
  have := d.isLt
  omega

private theorem reading_index (d x : Byte) (i : Nat) (hx : x.toNat = i) (hi : i < 64) :
    reading (dynWord d x) = readingOf d.toNat i := by
  obtain ⟨h1, h2⟩ := reading_word d x (by omega)
  rw [reading, h1, h2, hx]

private theorem toInt_toNat16 (d : BitVec 16) (h : 0 ≤ d.toInt) : (d.toNat : Int) = d.toInt := by
  rw [BitVec.toInt_eq_toNat_cond] at h ⊢
  split at h
  · rw [if_pos (by assumption)]
  · have := d.isLt; omega

/-- **C94** Every value the user's class reports, if it can be transmitted at all, is read as that value (a
voltage in steps of 100 mV, a speed of 511 km/h at most). -/
theorem C94_reading (d : Dyn) (h : Tellable d) : reading (dynWordOf d) = readAs d := by
  unfold dynWordOf
  cases d with
  | kmh d =>
    have h : 0 ≤ d.toInt := h
    obtain ⟨h1, h2⟩ := C61_kmh d h
    have h3 := toInt_toNat16 d h
    have : (Dyn.kmh d).convert.2.toNat = 0 ∨ (Dyn.kmh d).convert.2.toNat = 1 := by omega
    rcases this with h4 | h4
    · rw [reading_index _ _ 0 h4 (by decide)]
      show Reading.speed _ = Reading.speed _
      congr 1; omega
    · rw [reading_index _ _ 1 h4 (by decide)]
      show Reading.speed _ = Reading.speed _
      congr 1; omega
  | temperature d =>
    obtain ⟨h1, h2⟩ := C61_temperature d h.1 h.2
    rw [reading_index _ _ 26 (by rw [h2]; rfl) (by decide)]
    show Reading.temperature _ = Reading.temperature _
    congr 1; omega
  | trackVoltage d =>
    obtain ⟨h1, h2⟩ := C61_voltage d h.1 h.2
    have h3 := toInt_toNat16 d h.1
    rw [reading_index _ _ 46 (by rw [h2]; rfl) (by decide)]
    show Reading.voltage _ = Reading.voltage _
    congr 1; omega
  | directionStatusByte d =>
    rw [(C61_plain d 0#8).2, reading_index _ _ 27 rfl (by decide)]
    show Reading.other _ _ = Reading.other _ _
    rw [BitVec.toNat_setWidth]
  | raw d x =>
    obtain ⟨h0, h1, h2, h3, h4, h5⟩ := h
    rw [(C61_plain d x).1, reading_index _ _ x.toNat rfl h0]
    unfold readingOf
    split <;> first | contradiction | skip
    show Reading.other _ _ = Reading.other _ _
    rw [BitVec.toNat_setWidth]

private theorem reading_quality (q : Byte) : reading (dynWord q 7#8) = .quality q.toNat :=
  reading_index q 7#8 7 rfl (by decide)

private theorem queued_words (cap : Nat) (en : Bool) (qos : Byte) (ds : List Dyn) (q : DynQueue) :
    ∃ k, (q.datagram cap en qos ds).words = q.words ++
      ((if q.words = [] then [dynWord qos 7#8] else []) ++ ds.map dynWordOf).take k := by
  unfold DynQueue.datagram DynQueue.add
  dsimp only
  split
  · exact ⟨0, by simp⟩
  split
  · rename_i h
    rw [h]
    cases en
    · exact ⟨0, by simp⟩
    · exact ⟨cap, by simp⟩
  split
  · exact ⟨0, by simp⟩
  · rename_i h _
    cases en
    · exact ⟨0, by simp⟩
    · exact ⟨cap - q.words.length, by simp⟩

private theorem accepted_readings (e : Env) (ops : List RxOp)
    (h : ∀ ds, .datagram ds ∈ ops → ∀ d ∈ ds, Tellable d) : ∀ (s : Rx) (q : DynQueue),
    (accepted e s q ops).map reading = taken e s q ops := by
  induction ops with
  | nil => intro s q; rfl
  | cons op ops ih =>
    intro s q
    have ih := ih fun ds hd => h ds (.tail _ hd)
    rw [accepted, taken]
    cases hs : s.step e op with
    | error f => rfl
    | ok s' =>
      dsimp only
      rw [List.map_append, ih]
      congr 1
      cases op with
      | datagram ds =>
        rw [show isDatagram (.datagram ds) = true from rfl, if_pos rfl]
        obtain ⟨k, hk⟩ := queued_words e.bidiDeque s.cfg.ch2DataEnabled s.qos ds q
        have hk : (q.step e s (.datagram ds)).words = _ := hk
        rw [hk, List.drop_left, List.length_append, Nat.add_sub_cancel_left, List.length_take, List.map_take]
        have hds : (ds.map dynWordOf).map reading = ds.map readAs := by
          rw [List.map_map]
          exact List.map_congr_left fun d hd => C94_reading d (h ds (.head _) d hd)
        have hq : ((if q.words = [] then [dynWord s.qos 7#8] else []) ++ ds.map dynWordOf).map reading =
            (if q.words = [] then [Reading.quality s.qos.toNat] else []) ++ ds.map readAs := by
          rw [List.map_append, hds]
          split
          · rw [List.map_singleton, reading_quality]
          · rfl
        rw [hq, ← List.length_map (f := reading), hq]
        exact List.take_eq_take_min
      | _ => exact (List.take_nil).symm

/-- **C94** In every history the values a command station reads in channel 2, followed by those still waiting,
are exactly the values accepted by `datagram` (each batch preceded by the quality of service). -/
theorem C94_values (e : Env) (ops : List RxOp) (h : ∀ ds, .datagram ds ∈ ops → ∀ d ∈ ds, Tellable d) :
    (sent (inChannel2 .dynamic) e {} ops).flatMap (fun m => (triples m).map fun d => reading (read d)) ++
      (dynQueue e {} {} ops).words.map reading = taken e {} {} ops := by
  rw [← accepted_readings e ops h, ← C48_exactly_once, List.map_append, List.map_flatten, List.map_map,
    List.flatMap_def]
  congr 3
  funext m
  rw [Function.comp, List.map_map]
  rfl

/-- **C94** (false) A value with a subindex of 64 or more is read as another value: 0 with subindex 64 as a
speed of 1 km/h. -/
theorem C94_reading_false : reading (dynWordOf (.raw 0#16 64#8)) = .speed 1 := by decide

/-! ### The address shown may be wrong -/

/-- Packets for locomotive 1000, which has just logged on: CV20 becomes 10 (the number of the consist is
100 * CV20 + CV19), then a command with two cutouts. -/
def consistOf1000 : List RxOp :=
  let packet (bs : List Byte) : Packet := bs ++ [exor bs]
  let pom := packet [0xC3#8, 0xE8#8, 0xEC#8, 19#8, 10#8]
  let drive := packet [0xC3#8, 0xE8#8, 0x3F#8, 0x80#8]
  logonExample ++ hears pom ++ [.execute 0 0] ++ hears pom ++ [.execute 0 0, .biDiChannel1] ++
    hears drive ++ [.biDiChannel1, .execute 0 0] ++
    hears drive ++ [.biDiChannel1] ++ hears drive ++ [.biDiChannel1]

/-- **C94** (false) The locomotive 1000 is shown as 104, that is 1000 modulo 128, once 1000 is the number of
its consist too: `app:adr_high` and `app:adr_low` take any address that is the consist address for a
short one. -/
theorem C94_addresses_false :
    ∃ s, ({} : Rx).run logonEnv consistOf1000 = .ok s ∧
    detect ((sent inChannel1 logonEnv {} consistOf1000).map read) =
      [some (.long 1000), some (.consist 104 false)] ∧
    (announcing logonEnv {} 0 consistOf1000).map announced =
      [some (.long 1000), some (.consist 1000 false)] ∧
    s.addrs.logon.value = 1000#16 ∧ s.addrs.consist.value = 1000#16 := by
  have key : holdsAfter (({} : Rx).run logonEnv consistOf1000)
      (fun s => decide (s.addrs.logon.value = 1000#16 ∧ s.addrs.consist.value = 1000#16)) = true := by
    decide +kernel
  obtain ⟨s, h, hs⟩ := holdsAfter_ok key
  exact ⟨s, h, by decide +kernel, by decide +kernel, of_decide_eq_true hs⟩

/-! ### Examples -/

/-- A decoder with address 3 that reports 300 km/h, -20 degrees and 16.05 V, and hears four packets with
cutout. -/
def watched : List RxOp :=
  .init :: .datagram [.kmh 300#16, .temperature (-20#16), .trackVoltage 16050#16] ::
    (withCutout [3#8, 0x3F#8, 0x80#8, 0xBC#8] ++ withCutout [3#8, 0x3F#8, 0x80#8, 0xBC#8] ++
      withCutout [3#8, 0x3F#8, 0x80#8, 0xBC#8] ++ withCutout [3#8, 0x3F#8, 0x80#8, 0xBC#8])

/-- The history meets the hypothesis of `C94_addresses_partial`: the detector shows short address 3, twice. -/
example : Along Apart exampleEnv {} watched ∧
    detect ((sent inChannel1 exampleEnv {} watched).map read) = [some (.short 3), some (.short 3)] ∧
    (announcing exampleEnv {} 0 watched).map announced = [some (.short 3), some (.short 3)] := by
  decide +kernel

/-- It meets those of `C94_misses_partial` as well: if the second and third message get lost, what is left
is still short address 3. -/
example : (∀ t ∈ announcing exampleEnv {} 0 watched, announced t = some (.short 3)) ∧
    (let m := sent inChannel1 exampleEnv {} watched; (m.take 1 ++ m.drop 3).Sublist m ∧
      detect ((m.take 1 ++ m.drop 3).map read) = [some (.short 3)]) := by
  decide +kernel

/-- The values are tellable. -/
example : ∀ ds, RxOp.datagram ds ∈ watched → ∀ d ∈ ds, Tellable d := by
  have key : watched.all (fun
      | .datagram ds => ds.all fun d => decide (Tellable d)
      | _ => true) = true := by decide +kernel
  intro ds h d hd
  exact of_decide_eq_true (List.all_eq_true.mp (List.all_eq_true.mp key _ h) d hd)

/-- And they arrive: the quality of service, 300 km/h, -20 degrees, 16.0 V. -/
example : (sent (inChannel2 .dynamic) exampleEnv {} watched).flatMap
      (fun m => (triples m).map fun d => reading (read d)) =
    [.quality 0, .speed 300, .temperature (-20), .voltage 16000] := by
  decide +kernel

end Dcc
