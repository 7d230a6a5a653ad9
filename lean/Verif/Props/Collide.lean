import Verif.Props.GuestStays
import Verif.Spec.Collide
/-! Several decoders that log on at the same time: C117. -/
namespace Dcc
open Spec

theorem replies_enquiries (items : List GuestItem) (hq : ∀ i ∈ items, i.Enquiry) (ks : List Nat)
    (hl : ks.length = items.length) (g : Guest) (hg : g.selected = false) :
    g.replies (ks.zip items) = (g.pause.answers ks).map fun b => if b then none else some .id := by
  induction items generalizing ks g with
  | nil =>
    match ks, hl with
    | [], _ => rfl
  | cons i items ih =>
    match ks, hl with
    | k :: ks, hl =>
    have hq0 := hq i List.mem_cons_self
    obtain ⟨st, key⟩ : ∃ st, g.hear k i = ({ g with pause := (g.pause.query k).1, station := st },
        if (g.pause.query k).2 then none else some .id) := by
      match i, hq0 with
      | .enable .all c n, _ =>
        refine ⟨some (c, n), ?_⟩
        unfold Guest.hear
        dsimp only
        rw [if_neg (by rw [hg]; decide), show groupNumber .all = 0 from rfl, Pause.enable, if_neg (by decide),
          if_neg (by decide)]
      | .enable .loco c n, _ =>
        refine ⟨some (c, n), ?_⟩
        unfold Guest.hear
        dsimp only
        rw [if_neg (by rw [hg]; decide), show groupNumber .loco = 1 from rfl, Pause.enable, if_neg (by decide),
          if_neg (by decide)]
    rw [List.zip_cons_cons, Guest.replies, Pause.answers, List.map_cons]
    dsimp only
    rw [key]
    dsimp only
    rw [ih (fun x hx => hq x (List.mem_cons_of_mem _ hx)) ks (by simpa using hl) _ (by exact hg)]

theorem answers_length (p : Pause) (ks : List Nat) : (p.answers ks).length = ks.length := by
  induction ks generalizing p with
  | nil => rfl
  | cons k ks ih => rw [Pause.answers, List.length_cons, ih]; rfl

theorem answers_left (ks : List Nat) (p : Pause) : (∀ i < p.left, i < ks.length → (p.answers ks)[i]? = some true) ∧
    (p.left < ks.length → (p.answers ks)[p.left]? = some false) := by
  induction ks generalizing p with
  | nil => exact ⟨fun i _ h => absurd h (Nat.not_lt_zero _), fun h => absurd h (Nat.not_lt_zero _)⟩
  | cons k ks ih =>
    rw [Pause.answers]
    obtain ⟨f, l⟩ := p
    cases l with
    | zero => exact ⟨fun i h => absurd h (Nat.not_lt_zero _), fun _ => rfl⟩
    | succ l =>
      have hq : Pause.query ⟨f, l + 1⟩ k = (⟨f, l⟩, true) := by
        unfold Pause.query
        rw [if_pos (Nat.succ_pos l)]
        rfl
      rw [hq]
      obtain ⟨h1, h2⟩ := ih ⟨f, l⟩
      refine ⟨fun i hi hi2 => ?_, fun h => ?_⟩
      · cases i with
        | zero => rfl
        | succ i =>
          rw [List.getElem?_cons_succ]
          exact h1 i (Nat.lt_of_succ_lt_succ hi) (Nat.lt_of_succ_lt_succ hi2)
      · show (true :: _)[l + 1]? = _
        rw [List.getElem?_cons_succ]
        exact h2 (Nat.lt_of_succ_lt_succ h)

theorem window_le (k : Nat) : 0 < window k ∧ window k ≤ 64 := by
  unfold window
  split
  · omega
  · split
    · omega
    · split <;> omega

theorem pause_query_lt (p : Pause) (k : Nat) (h : p.left < 64) : (p.query k).1.left < 64 := by
  unfold Pause.query
  split
  · show p.left - 1 < 64
    omega
  · have := window_le p.free
    exact Nat.lt_of_lt_of_le (Nat.mod_lt _ this.1) this.2

theorem logonPause_lt (e : Env) (ops : List RxOp) (s : Rx) (p : Pause) (h : p.left < 64) :
    (logonPause e s p ops).left < 64 := by
  induction ops generalizing s p with
  | nil => exact h
  | cons op ops ih =>
    rw [logonPause]
    split
    · exact h
    · refine ih _ _ ?_
      unfold Pause.logon
      split
      · unfold Pause.enable
        split
        · exact h
        · refine pause_query_lt _ _ ?_
          split
          · decide
          · exact h
      · exact h

theorem Spec.Contender.rounds_length {d : Contender} {items : List GuestItem} (h : d.Hears items) :
    d.rounds.length = items.length := by
  have := congrArg List.length h.packets
  simpa using this.symm

/-- What the decoder does in the cutout after an enquiry is what its backoff says. -/
theorem Spec.Contender.cutouts {d : Contender} {items : List GuestItem} (h : d.Hears items) (hq : ∀ i ∈ items, i.Enquiry)
    (i : Nat) : ((d.pause.answers (d.rounds.map Round.drawn))[i]? = some true → d.Silent i) ∧
      ((d.pause.answers (d.rounds.map Round.drawn))[i]? = some false → d.Answers i) := by
  obtain ⟨s', -, -, h3⟩ := C88_guest d.env d.ops d.state d.uid d.rounds items h
  rw [replies_enquiries items hq _ (by rw [List.length_map]; exact rounds_length h) _ rfl] at h3
  have h4 := congrArg (fun l => l[i]?) h3
  dsimp only at h4
  rw [List.getElem?_map, List.getElem?_map, List.getElem?_map] at h4
  refine ⟨fun hx => ?_, fun hx => ?_⟩
  · rw [show (logonPause d.env {} {} d.ops).answers _ = d.pause.answers _ from rfl, hx] at h4
    unfold Contender.Silent Contender.transmits
    cases hy : (heardRounds d.env d.state d.rounds)[i]? with
    | none => rw [hy] at h4; cases h4
    | some m =>
      rw [hy] at h4
      rw [inCutout_nothing (m := m) (Option.some.inj h4)]
  · rw [show (logonPause d.env {} {} d.ops).answers _ = d.pause.answers _ from rfl, hx] at h4
    unfold Contender.Answers Contender.transmits
    cases hy : (heardRounds d.env d.state d.rounds)[i]? with
    | none => rw [hy] at h4; cases h4
    | some m =>
      rw [hy] at h4
      exact ⟨m, rfl, Option.some.inj h4⟩

/-- **C117** Of any 64 enquiries in a row a decoder that has not been selected answers at least one. -/
theorem C117_heard (d : Contender) (items : List GuestItem) (h : d.Hears items) (hq : ∀ i ∈ items, i.Enquiry)
    (hl : 64 ≤ items.length) : ∃ i < 64, d.Answers i := by
  have hb : d.pause.left < 64 := logonPause_lt _ _ _ _ (by decide)
  refine ⟨d.pause.left, hb, (d.cutouts h hq _).2 ((answers_left _ _).2 ?_)⟩
  rw [List.length_map, d.rounds_length h]
  omega

/-- **C117** A decoder that answers an enquiry and draws `r` is silent for the next `r` (modulo 8, 16, 32 and then
64) and answers the one after them. -/
theorem C117_next (d : Contender) (items : List GuestItem) (h : d.Hears items) (hq : ∀ i ∈ items, i.Enquiry)
    (h0 : d.pause.left = 0) (hl : d.draws 0 % window d.pause.free + 1 < items.length) :
    d.Answers 0 ∧ (∀ i, 1 ≤ i → i ≤ d.draws 0 % window d.pause.free → d.Silent i) ∧
      d.Answers (d.draws 0 % window d.pause.free + 1) := by
  have hlen := d.rounds_length h
  have hc := d.cutouts h hq
  match hr : d.rounds, hlen with
  | [], hlen => rw [List.length_nil] at hlen; omega
  | r :: rs, hlen =>
  rw [hr] at hc
  have hd : d.draws 0 = r.drawn := by unfold Contender.draws; rw [hr]; rfl
  have hqy : d.pause.query r.drawn = (⟨d.pause.free + 1, r.drawn % window d.pause.free⟩, false) := by
    unfold Pause.query
    rw [h0]
    rfl
  rw [hd] at hl ⊢
  rw [List.map_cons, Pause.answers, hqy] at hc
  obtain ⟨k1, k2⟩ := answers_left (rs.map Round.drawn) ⟨d.pause.free + 1, r.drawn % window d.pause.free⟩
  rw [List.length_cons] at hlen
  refine ⟨(hc 0).2 rfl, fun i h1 h2 => ?_, (hc _).2 ?_⟩
  · refine (hc i).1 ?_
    obtain ⟨j, rfl⟩ : ∃ j, i = j + 1 := ⟨i - 1, by omega⟩
    rw [List.getElem?_cons_succ]
    exact k1 j (by show j < r.drawn % _; omega) (by rw [List.length_map]; omega)
  · rw [List.getElem?_cons_succ]
    exact k2 (by rw [List.length_map]; show r.drawn % _ < _; omega)

/-- **C117** Decoders that answered at the same time, any number of them, one of which has drawn a smaller number than
all the others: in the cutout of its next answer it transmits alone. -/
theorem C117_alone {ι : Type} (d : ι → Contender) (items : List GuestItem) (h : ∀ j, (d j).Hears items)
    (hq : ∀ i ∈ items, i.Enquiry) (h0 : ∀ j, (d j).pause.left = 0) (j : ι)
    (hlow : ∀ k, k ≠ j → (d j).draws 0 % window (d j).pause.free < (d k).draws 0 % window (d k).pause.free)
    (hl : ∀ k, (d k).draws 0 % window (d k).pause.free + 1 < items.length) :
    (d j).Answers ((d j).draws 0 % window (d j).pause.free + 1) ∧
      ∀ k, k ≠ j → (d k).Silent ((d j).draws 0 % window (d j).pause.free + 1) := by
  refine ⟨(C117_next (d j) items (h j) hq (h0 j) (hl j)).2.2, fun k hk => ?_⟩
  have := hlow k hk
  exact (C117_next (d k) items (h k) hq (h0 k) (hl k)).2.1 _ (by omega) (by omega)

/-! ### Equal random numbers -/

theorem replies_twins (xs : List (Nat × GuestItem)) : ∀ (g g' : Guest), g.pause = g'.pause → g.selected = g'.selected →
    (∀ x ∈ xs, x.2.names g.uid = false ∧ x.2.names g'.uid = false) → g.replies xs = g'.replies xs := by
  induction xs with
  | nil => exact fun _ _ _ _ _ => rfl
  | cons x xs ih =>
    intro g g' hp hs hn
    obtain ⟨n1, n2⟩ := hn x List.mem_cons_self
    have hn' : ∀ y ∈ xs, y.2.names g.uid = false ∧ y.2.names g'.uid = false :=
      fun y hy => hn y (List.mem_cons_of_mem _ hy)
    obtain ⟨k, i⟩ := x
    rw [Guest.replies, Guest.replies]
    match i, n1, n2 with
    | .enable group c n, _, _ =>
      show (Guest.hear g k (.enable group c n)).2 :: _ = (Guest.hear g' k (.enable group c n)).2 :: _
      unfold Guest.hear
      dsimp only
      by_cases hsel : g.selected = true
      · rw [if_pos hsel, if_pos (c := g'.selected = true) (hs ▸ hsel), ih g g' hp hs hn']
      · rw [if_neg hsel, if_neg (c := g'.selected = true) (hs ▸ hsel), hp]
        congr 1
        exact ih _ _ rfl hs hn'
    | .select m u n, n1, n2 =>
      have n1 : u ≠ g.uid := of_decide_eq_false n1
      have n2 : u ≠ g'.uid := of_decide_eq_false n2
      show (if u = g.uid ∧ _ then _ else _ : Guest × Option Reply).2 :: (if u = g.uid ∧ _ then _ else _ : Guest × Option Reply).1.replies xs =
        (if u = g'.uid ∧ _ then _ else _ : Guest × Option Reply).2 :: (if u = g'.uid ∧ _ then _ else _ : Guest × Option Reply).1.replies xs
      rw [if_neg (fun hx => n1 hx.1), if_neg (fun hx => n2 hx.1)]
      exact congrArg _ (ih g g' hp hs hn')
    | .assign m u n, n1, n2 =>
      have n1 : u ≠ g.uid := of_decide_eq_false n1
      have n2 : u ≠ g'.uid := of_decide_eq_false n2
      show (if u = g.uid then _ else _ : Guest × Option Reply).2 :: (if u = g.uid then _ else _ : Guest × Option Reply).1.replies xs =
        (if u = g'.uid then _ else _ : Guest × Option Reply).2 :: (if u = g'.uid then _ else _ : Guest × Option Reply).1.replies xs
      rw [if_neg n1, if_neg n2]
      exact congrArg _ (ih g g' hp hs hn')
    | .idle, _, _ => exact congrArg _ (ih g g' hp hs hn')
    | .drive c, _, _ => exact congrArg _ (ih g g' hp hs hn')

/-- **C117** fails: decoders that draw the same random numbers are never told apart.  As long as neither is addressed
by its unique ID, which the station cannot know, one is silent exactly in the cutouts in which the other is silent.
(Nothing in the library seeds `rand()`, so decoders of one kind that are switched on together draw the same
numbers.) -/
theorem C117_twins_false (d d' : Contender) (items : List GuestItem) (h : d.Hears items) (h' : d'.Hears items)
    (hp : d.pause = d'.pause) (hr : d.rounds.map Round.drawn = d'.rounds.map Round.drawn)
    (hn : ∀ i ∈ items, i.names d.uid = false ∧ i.names d'.uid = false) (i : Nat) : d.Silent i ↔ d'.Silent i := by
  obtain ⟨-, -, -, h3⟩ := C88_guest d.env d.ops d.state d.uid d.rounds items h
  obtain ⟨-, -, -, k3⟩ := C88_guest d'.env d'.ops d'.state d'.uid d'.rounds items h'
  have key := replies_twins ((d.rounds.map Round.drawn).zip items) { uid := d.uid, pause := logonPause d.env {} {} d.ops }
    { uid := d'.uid, pause := logonPause d'.env {} {} d'.ops } hp rfl
    (fun x hx => hn x.2 (List.of_mem_zip hx).2)
  rw [← hr, ← key] at k3
  generalize Guest.replies _ _ = rep at h3 k3
  have one : ∀ (x : Contender), (heardRounds x.env x.state x.rounds).map inCutout =
      rep.map (fun r => some (r.map (Reply.word x.env x.state))) → (x.Silent i ↔ rep[i]? = some none) := by
    intro x hx
    have h4 := congrArg (fun l => l[i]?) hx
    rw [List.getElem?_map, List.getElem?_map] at h4
    unfold Contender.Silent Contender.transmits
    cases hy : (heardRounds x.env x.state x.rounds)[i]? with
    | none =>
      rw [hy] at h4
      cases hz : rep[i]? with
      | none => exact ⟨fun h => (by cases h), fun h => (by cases h)⟩
      | some r => rw [hz] at h4; cases h4
    | some m =>
      rw [hy] at h4
      cases hz : rep[i]? with
      | none => rw [hz] at h4; cases h4
      | some r =>
        rw [hz] at h4
        have h5 : inCutout m = some (r.map (Reply.word x.env x.state)) := Option.some.inj h4
        refine ⟨fun hm => ?_, fun hr => ?_⟩
        · cases hm
          cases r with
          | none => rfl
          | some r => cases h5
        · cases hr
          rw [inCutout_nothing h5]
  rw [one d h3, one d' k3]

/-! ### Examples -/

/-- The round of an item in which `r` is drawn. -/
def drawingRound (r : Nat) (i : GuestItem) : Round :=
  { guestRound i with wave := (guestRound i).wave.map fun w => (w.1, r) }

theorem drawing_logsOn {e : Env} {ops : List RxOp} {s : Rx} {uid : BitVec 32} {items : List GuestItem} (r : Nat)
    (h : LogsOn e ops s uid (items.map guestRound) items) : LogsOn e ops s uid (items.map (drawingRound r)) items := by
  refine ⟨h.run, h.ready, h.may, h.uid, fun x hx => ?_, ?_, h.legal, h.first⟩
  · obtain ⟨i, hi, rfl⟩ := List.mem_map.mp hx
    obtain ⟨cfg, h1, h2⟩ := h.sent (guestRound i) (List.mem_map.mpr ⟨i, hi, rfl⟩)
    refine ⟨cfg, h1, ?_⟩
    unfold drawingRound
    dsimp only
    rw [List.map_map]
    exact h2
  · rw [h.packets, List.map_map, List.map_map]
    rfl

/-- LOGON_ENABLE again and again. -/
def enquiries : List GuestItem := List.replicate 6 (.enable .all 513#16 7#8)

theorem enquiries_ok : buildable enquiries = true ∧ (∀ i ∈ enquiries, i.Legal 0#16 0#8) ∧ SelectedFirst [] enquiries ∧
    (∀ i ∈ enquiries, i.Enquiry) ∧ ∀ i ∈ enquiries, ∀ uid, i.names uid = false := by
  have hi : ∀ i ∈ enquiries, i = .enable .all 513#16 7#8 := fun i hi => (List.mem_replicate.mp hi).2
  refine ⟨by decide +kernel, fun i h => ?_, by simp [enquiries, List.replicate, SelectedFirst], fun i h => ?_,
    fun i h uid => ?_⟩ <;> rw [hi i h]
  · exact fun hx => absurd hx.1 (by decide)
  · trivial
  · rfl

/-- Two decoders; one draws 2, the other 4: the first is alone with its second answer. -/
example : ∃ d d' : Contender, d.Hears enquiries ∧ d'.Hears enquiries ∧ d.uid ≠ d'.uid ∧ d.pause.left = 0 ∧
    d'.pause.left = 0 ∧ d.draws 0 % window d.pause.free = 2 ∧ d'.draws 0 % window d'.pause.free = 4 ∧
    4 + 1 < enquiries.length := by
  obtain ⟨h1, h2, h3, -, -⟩ := enquiries_ok
  obtain ⟨s, h⟩ := guest_example logonEnv 0x01020304#32 (by decide) (by decide +kernel) _ h1 h2 h3
  obtain ⟨s', h'⟩ := guest_example otherGuestEnv 0x05060708#32 (by decide) (by decide +kernel) _ h1 h2 h3
  refine ⟨⟨_, _, _, _, _⟩, ⟨_, _, _, _, _⟩, drawing_logsOn 2 h, drawing_logsOn 12 h', by dsimp only; decide, ?_, ?_, ?_, ?_, by decide⟩
  · show (logonPause logonEnv {} {} [.init]).left = 0
    decide +kernel
  · show (logonPause otherGuestEnv {} {} [.init]).left = 0
    decide +kernel
  · show (((enquiries.map (drawingRound 2))[0]?).map Round.drawn).getD 0 % window (logonPause logonEnv {} {} [.init]).free = 2
    decide +kernel
  · show (((enquiries.map (drawingRound 12))[0]?).map Round.drawn).getD 0 % window (logonPause otherGuestEnv {} {} [.init]).free = 4
    decide +kernel

/-- Two decoders with different unique IDs that draw the same numbers; they answer the first enquiry, and then never
one without the other. -/
example : ∃ d d' : Contender, d.Hears enquiries ∧ d'.Hears enquiries ∧ d.uid ≠ d'.uid ∧ d.pause = d'.pause ∧
    d.rounds.map Round.drawn = d'.rounds.map Round.drawn ∧ d.Answers 0 ∧ d'.Answers 0 ∧
    ∀ i, d.Silent i ↔ d'.Silent i := by
  obtain ⟨h1, h2, h3, h4, h5⟩ := enquiries_ok
  obtain ⟨s, h⟩ := guest_example logonEnv 0x01020304#32 (by decide) (by decide +kernel) _ h1 h2 h3
  obtain ⟨s', h'⟩ := guest_example otherGuestEnv 0x05060708#32 (by decide) (by decide +kernel) _ h1 h2 h3
  have p : logonPause logonEnv {} {} [.init] = {} := by decide +kernel
  have p' : logonPause otherGuestEnv {} {} [.init] = {} := by decide +kernel
  have hd := drawing_logsOn 2 h
  have hd' := drawing_logsOn 2 h'
  have l : (((enquiries.map (drawingRound 2))[0]?).map Round.drawn).getD 0 = 2 := by decide +kernel
  refine ⟨⟨_, _, _, _, _⟩, ⟨_, _, _, _, _⟩, hd, hd', by dsimp only; decide, p.trans p'.symm, rfl, ?_, ?_,
    C117_twins_false ⟨_, _, _, _, _⟩ ⟨_, _, _, _, _⟩ enquiries hd hd' (p.trans p'.symm) rfl fun i hi => ⟨h5 i hi _, h5 i hi _⟩⟩
  · refine (C117_next ⟨_, _, _, _, _⟩ enquiries hd h4 (congrArg Pause.left p) ?_).1
    show (((enquiries.map (drawingRound 2))[0]?).map Round.drawn).getD 0 % window (logonPause logonEnv {} {} [.init]).free + 1 < _
    rw [p, l]
    decide
  · refine (C117_next ⟨_, _, _, _, _⟩ enquiries hd' h4 (congrArg Pause.left p') ?_).1
    show (((enquiries.map (drawingRound 2))[0]?).map Round.drawn).getD 0 % window (logonPause otherGuestEnv {} {} [.init]).free + 1 < _
    rw [p', l]
    decide

/-- And 64 of them. -/
example : (∀ i ∈ List.replicate 64 (GuestItem.enable .all 513#16 7#8), i.Enquiry) ∧
    64 ≤ (List.replicate 64 (GuestItem.enable .all 513#16 7#8)).length :=
  ⟨fun i hi => (by rw [(List.mem_replicate.mp hi).2]; trivial), by rw [List.length_replicate]; omega⟩

end Dcc
