import Verif.Lemmas.RxThrottle
import Verif.Spec.Polling
/-! How fast packets can follow each other. -/
namespace Dcc
open Spec

/-- From one packet to the next at least `w` µs pass, not counting the first interval after a packet.  Of
each interval the time measured and the time that really passes are given.  `since` is the time since the
first call of `receive` after the packet before, `none` if there was no call yet. -/
def Link.Spaced (w : Nat) : Link → Option Nat → List (Nat × Nat) → Prop
  | _, _, [] => True
  | l, since, (t, d) :: ts => ∀ l' o, l.step t = .ok (l', o) →
    match o with
    | some (.packet _) => (∀ x, since = some x → w ≤ x + d) ∧ Link.Spaced w l' none ts
    | _ => Link.Spaced w l' (some (since.elim 0 (· + d))) ts

/-- Only the end of a packet sets `packetEnd`. -/
theorem step_packetEnd (l l' : Link) (t : Nat) (o : Option LinkOut) (h : l.step t = .ok (l', o)) :
    l'.packetEnd = true ↔ ∃ p, o = some (.packet p) := by
  have key : ∀ (m : Link) v, m.packetEnd = false → m.bit v = .ok (l', o) →
      (l'.packetEnd = true ↔ ∃ p, o = some (.packet p)) := by
    intro m v hm h
    unfold Link.bit at h
    split at h
    · split at h
      · cases h; simp [hm]
      · split at h <;> · cases h; simp [hm, Link.reset]
    · cases h; simp [hm]
    · dsimp only at h
      split at h
      · cases h; simp [hm]
      · split at h <;> cases h
        simp [hm]
    · split at h
      · cases h; simp [hm]
      · split at h <;> · cases h; simp [hm, Link.reset]
  unfold Link.step at h
  dsimp only at h
  split at h
  · cases h; simp
  · split at h
    · cases h; simp
    · refine key _ _ ?_ h
      split <;> rfl

/-- The calls of `execute` left out are no more than the spare ones. -/
theorem missed_le {period spare time last : Nat} (h : time ≤ last + (spare + 1) * period) :
    (time - last - 1) / period ≤ spare := by
  rcases Nat.eq_zero_or_pos period with rfl | hp
  · simp
  · refine Nat.lt_succ_iff.mp ((Nat.div_lt_iff_lt_mul hp).mpr ?_)
    rw [Nat.succ_eq_add_one]
    have : 0 < (spare + 1) * period := Nat.mul_pos (by omega) hp
    omega

/-- If `j` packets came since, as many calls were left out. -/
theorem le_missed {w period j time last : Nat} (hw : period < w) (h : last + j * w ≤ time) :
    j ≤ (time - last - 1) / period ∨ j = 0 ∨ period = 0 := by
  rcases Nat.eq_zero_or_pos period with rfl | hp
  · exact .inr (.inr rfl)
  · rcases Nat.eq_zero_or_pos j with rfl | hj
    · exact .inr (.inl rfl)
    · refine .inl ((Nat.le_div_iff_mul_le hp).mpr ?_)
      have h1 : j * (period + 1) ≤ j * w := Nat.mul_le_mul_left _ hw
      rw [Nat.mul_succ] at h1
      omega

/-- No more than the spare calls are left out now. -/
theorem j_le {w period spare j time last : Nat} (hw : period < w) (h1 : last + j * w ≤ time)
    (h2 : time ≤ last + (spare + 1) * period) : j ≤ spare := by
  refine Decidable.byContradiction fun hn => ?_
  have h3 : (spare + 1) * w ≤ j * w := Nat.mul_le_mul_right _ (by omega)
  have h4 : (spare + 1) * (period + 1) ≤ (spare + 1) * w := Nat.mul_le_mul_left _ hw
  rw [Nat.mul_succ] at h4
  omega

/-- If packets come at least `w` µs apart and `execute` is called more often than that, only for each call
left out another packet waits. -/
theorem serving (e : Env) (w period : Nat) (hw : period < w) (xs : List (Nat × RxOp)) :
    ∀ (z : Rx) (since : Option Nat) (ds : List Nat) (now last edge spare used : Nat),
    spare + used + 2 ≤ e.rxDeque → Reachable e z →
    Attended period spare now last xs → Lasting edge ds xs → .disable ∉ calls xs →
    z.link.Spaced w since ((recvTimes (calls xs)).zip ds) → z.deque.length ≤ spare + used + 1 →
    last ≤ now →
    (since = none → z.packetEnd = true) → (z.packetEnd = true → since = none ∨ z.deque.length ≤ used) →
    (z.deque.length ≤ used ∨ ∃ j, z.deque.length ≤ used + 1 + j ∧
      last + j * w ≤ now ∧ ∀ x, since = some x → last + j * w + x ≤ edge) →
    NeverFull e z (calls xs) ∧ ∀ z', z.run e (calls xs) = .ok z' → z'.deque.length ≤ spare + used + 1 := by
  induction xs with
  | nil =>
    intro z since ds now last edge spare used _ _ _ _ _ _ h1 _ _ _ _
    exact ⟨trivial, fun z' h => by cases h; exact h1⟩
  | cons x xs ih =>
    obtain ⟨time, op⟩ := x
    intro z since ds now last edge spare used hroom hr hp hl hd hs h1 h2 h3 h4 h5
    have hops : calls ((time, op) :: xs) = op :: calls xs := rfl
    rw [hops] at hd hs ⊢
    have hd' : .disable ∉ calls xs := fun hm => hd (List.mem_cons_of_mem _ hm)
    have hlt : z.deque.length < e.rxDeque := by omega
    cases hz1 : z.step e op with
    | error f =>
      refine ⟨⟨fun _ => hlt, by rw [hz1]; trivial⟩, fun z' h => ?_⟩
      rw [Rx.run, hz1] at h
      have h : (Except.error f : R Rx) = .ok z' := h
      cases h
    | ok z1 =>
      suffices hgo : NeverFull e z1 (calls xs) ∧
          ∀ z', z1.run e (calls xs) = .ok z' → z'.deque.length ≤ spare + used + 1 by
        refine ⟨⟨fun _ => hlt, by rw [hz1]; exact hgo.1⟩, fun z' h => ?_⟩
        rw [Rx.run, hz1, ok_bind] at h
        exact hgo.2 z' h
      have hr1 := hr.step op hz1
      obtain ⟨hp1, hp2, hp3⟩ := hp
      by_cases hrecv : ∃ t r, op = .receive t r
      · obtain ⟨t, r, rfl⟩ := hrecv
        cases ds with
        | nil => exact absurd hl.1 (by simp [RxOp.isReceive])
        | cons d ds =>
        have hl : edge + d ≤ time ∧ Lasting time ds xs := hl
        obtain ⟨hl1, hl2⟩ := hl
        have hp4 : Attended period spare time last xs := hp3
        obtain ⟨o, h6, h7⟩ := receive_spec e z z1 _ _ hz1 hlt
        have hdq := h7.deque.2
        have hpe := step_packetEnd _ _ _ _ h6
        have hs : z.link.Spaced w since ((t, d) :: (recvTimes (calls xs)).zip ds) := hs
        have hs := hs _ _ h6
        by_cases hpk : ∃ p, o = some (.packet p)
        · obtain ⟨p, rfl⟩ := hpk
          obtain ⟨hs1, hs2⟩ := hs
          have hle : (queued (some (LinkOut.packet p))).length ≤ 1 := by
            simp only [queued]
            split <;> simp
          have hlen : z1.deque.length ≤ z.deque.length + 1 := by
            rw [hdq, List.length_append]; omega
          have hj : ∃ j, z1.deque.length ≤ used + 1 + j ∧ last + j * w ≤ time := by
            rcases h5 with h5 | ⟨j, h5, h8, h9⟩
            · exact ⟨0, by omega, by omega⟩
            · refine ⟨j + 1, by omega, ?_⟩
              cases hsn : since with
              | none =>
                have := preamble_no_packet z.link _ _ _ (hr.recvInv.link.pend (h3 hsn)).1 h6
                cases this
              | some x =>
                have := h9 x hsn
                have := hs1 x hsn
                rw [Nat.succ_mul]
                omega
          obtain ⟨j, hj1, hj2⟩ := hj
          have hj3 := j_le hw hj2 hp2
          exact ih z1 none ds time last time spare used hroom hr1 hp4 hl2 hd' hs2 (by omega) (by omega)
            (fun _ => hpe.mpr ⟨p, rfl⟩) (fun _ => .inl rfl)
            (.inr ⟨j, hj1, hj2, fun x hx => by cases hx⟩)
        · have hq : queued o = [] := by
            rcases o with _ | (_ | p | _) <;> first | rfl | exact absurd ⟨p, rfl⟩ hpk
          have hs2 : z1.link.Spaced w (some (since.elim 0 (· + d))) ((recvTimes (calls xs)).zip ds) := by
            rcases o with _ | (_ | p | _) <;> first | exact hs | exact absurd ⟨p, rfl⟩ hpk
          rw [hq, List.append_nil] at hdq
          refine ih z1 _ ds time last time spare used hroom hr1 hp4 hl2 hd' hs2 (by rw [hdq]; exact h1) (by omega)
            (fun hx => by cases hx) (fun hx => absurd (hpe.mp hx) hpk) ?_
          rw [hdq]
          refine h5.imp id ?_
          rintro ⟨j, h5, h8, h9⟩
          refine ⟨j, h5, by omega, fun x hx => ?_⟩
          cases hsn : since with
          | none =>
            rw [hsn] at hx
            simp only [Option.elim_none, Option.some.injEq] at hx
            omega
          | some y =>
            rw [hsn] at hx
            simp only [Option.elim_some, Option.some.injEq] at hx
            have := h9 y hsn
            omega
      · have hno : ∀ t r, op ≠ .receive t r := fun t r h => hrecv ⟨t, r, h⟩
        have hnr : op.isReceive = false := by
          cases op <;> first | rfl | exact absurd rfl (hno _ _)
        have hnd : op ≠ .disable := fun h => hd (by rw [h]; exact List.mem_cons_self)
        obtain ⟨h6, h7⟩ := step_other e z z1 op hz1 hno hnd
        have hrt : recvTimes (op :: calls xs) = recvTimes (calls xs) := by
          cases op <;> first | rfl | exact absurd rfl (hno _ _)
        rw [hrt, ← h6] at hs
        have hl2 : Lasting edge ds xs := by
          cases ds with
          | nil => exact hl.2
          | cons d ds => simpa only [Lasting, hnr, Bool.false_eq_true, if_false] using hl
        have hpe : z1.packetEnd = z.packetEnd := by unfold Rx.packetEnd; rw [h6]
        by_cases hex : op.isExecute = true
        · rw [if_pos hex] at hp3
          have hm := missed_le hp2
          generalize hk : (time - last - 1) / period = k at hp3 hm
          have hspare : spare - k + (used + k) = spare + used := by omega
          have hroom' : spare - k + (used + k) + 2 ≤ e.rxDeque := by omega
          rw [← hspare]
          have hjk : ∀ j, last + j * w ≤ time → j ≤ k := by
            intro j hj
            rcases le_missed hw hj with h | h | h
            · omega
            · omega
            · have := j_le (spare := 0) hw hj (by rw [h] at hp2 ⊢; omega)
              omega
          have hj : z.deque.length ≤ used + k + 1 := by
            rcases h5 with h5 | ⟨j, h5, h8, h9⟩
            · omega
            · have := hjk j (by omega)
              omega
          cases hpz : z.packetEnd with
          | true =>
            rw [hpz, hex] at h7
            simp only [Bool.not_true, Bool.and_false, Bool.false_eq_true, if_false] at h7
            refine ih z1 since ds time time edge (spare - k) (used + k) hroom' hr1 hp3 hl2 hd' hs
              (by rw [h7]; omega) (Nat.le_refl _) (fun hx => by rw [hpe]; exact h3 hx)
              (fun hx => by rw [h7]; exact (h4 hpz).imp id fun h => by omega) ?_
            rw [h7]
            rcases h4 hpz with h | h
            · exact .inr ⟨0, by omega, by omega, fun x hx => by rw [h] at hx; cases hx⟩
            · exact .inl (by omega)
          | false =>
            rw [hpz, hex] at h7
            simp only [Bool.not_false, Bool.and_self, if_true] at h7
            have hlen : z1.deque.length ≤ used + k := by
              rw [h7, List.length_drop]; omega
            exact ih z1 since ds time time edge (spare - k) (used + k) hroom' hr1 hp3 hl2 hd' hs
              (by omega) (Nat.le_refl _) (fun hx => by rw [hpe]; exact h3 hx) (fun _ => .inr hlen) (.inl hlen)
        · rw [if_neg hex] at hp3
          have hdq : z1.deque = z.deque := by
            rw [h7]; simp [hex]
          exact ih z1 since ds time last edge spare used hroom hr1 hp3 hl2 hd' hs (by rw [hdq]; exact h1) (by omega)
            (fun hx => by rw [hpe]; exact h3 hx) (fun hx => by rw [hdq]; exact h4 (hpe ▸ hx))
            (by rw [hdq]; exact h5.imp id fun ⟨j, a, b, c⟩ => ⟨j, a, by omega, c⟩)

/-! ### Any signal -/

/-- The time from the end of byte number `k` to the end of a packet is at least this. -/
def endTime : Nat → Nat
  | 0 => 3026
  | 1 => 2052
  | 2 => 1078
  | _ => 104

/-- At least this much time passes before a packet is complete. -/
def Link.need (l : Link) : Nat :=
  match l.state with
  | .preamble => (20 - l.bitCount) * 52 + 3026
  | .startbit => 2936
  | .data => (8 - l.bitCount) * 104 + endTime (l.packet.length + 1) - if l.isHalfbit then 52 else 0
  | .endbit => endTime l.packet.length - if l.isHalfbit then 52 else 0

theorem endTime_ge (k : Nat) : 104 ≤ endTime k := by
  unfold endTime
  split <;> decide

theorem endTime_step (k : Nat) : endTime k ≤ 974 + endTime (k + 1) := by
  match k with
  | 0 | 1 | 2 => simp [endTime]
  | _ + 3 => simp [endTime]

theorem need_reset (l : Link) : l.reset.need = 4066 := by simp [Link.need, Link.reset]

theorem need_le (l : Link) : l.need ≤ 4066 := by
  have h1 : ∀ k, endTime (k + 1) ≤ 2052 := by
    intro k
    match k with
    | 0 | 1 => simp [endTime]
    | _ + 2 => simp [endTime]
  have h2 : ∀ k, endTime k ≤ 3026 := by
    intro k
    match k with
    | 0 | 1 | 2 => simp [endTime]
    | _ + 3 => simp [endTime]
  unfold Link.need
  split
  · omega
  · omega
  · have := h1 l.packet.length; omega
  · have := h2 l.packet.length; omega

/-- No duration brings the end of a packet closer than it lasts. -/
theorem need_step (l l' : Link) (t : Nat) (o : Option LinkOut) (hinv : LinkInv l)
    (h : l.step t = .ok (l', o)) :
    ((∃ p, o = some (.packet p)) → l.need ≤ t) ∧
    ((¬∃ p, o = some (.packet p)) → l.need ≤ l'.need + t) := by
  have hi : ∀ k, 104 ≤ endTime k := endTime_ge
  unfold Link.step at h
  dsimp only at h
  have ht : time2bit t ≠ .invalid → 52 ≤ t ∧ (¬time2bit t = .b1 → 90 ≤ t) := by
    unfold time2bit
    split
    · intro _; exact ⟨by omega, fun h => absurd rfl h⟩
    · split
      · intro _; exact ⟨by omega, fun _ => by omega⟩
      · intro h; exact absurd rfl h
  split at h
  · cases h
    refine ⟨fun h => (by obtain ⟨p, h⟩ := h; cases h), fun _ => ?_⟩
    exact Nat.le_add_right l.need t
  · rename_i hni
    obtain ⟨ht1, ht2⟩ := ht hni
    split at h
    · rename_i hh
      cases h
      refine ⟨fun h => (by obtain ⟨p, h⟩ := h; cases h), fun _ => ?_⟩
      simp only [Bool.and_eq_true, Bool.not_eq_true'] at hh
      unfold Link.need
      cases hst : l.state <;> simp only [hst, LinkState.halves, Bool.false_eq_true, false_and] at hh
      · simp only [hh, Bool.false_eq_true, if_false, if_true]
        have := hi (l.packet.length + 1)
        omega
      · simp only [hh, Bool.false_eq_true, if_false, if_true]
        have := hi l.packet.length
        omega
    · rename_i hh
      unfold Link.need
      cases hst : l.state <;> simp only [hst, LinkState.halves, Bool.false_eq_true, if_false, if_true,
        Bool.true_and, Bool.not_eq_true', Bool.not_eq_false] at h hh
      · simp only [Link.bit] at h
        split at h
        · cases h
          refine ⟨fun h => (by obtain ⟨p, h⟩ := h; cases h), fun _ => ?_⟩
          simp only
          omega
        · rename_i hb
          have := ht2 (by simpa using hb)
          split at h
          · cases h
            refine ⟨fun h => (by obtain ⟨p, h⟩ := h; cases h), fun _ => ?_⟩
            simp only [Link.reset]
            omega
          · cases h
            refine ⟨fun h => (by obtain ⟨p, h⟩ := h; cases h), fun _ => ?_⟩
            simp only
            omega
      · simp only [Link.bit] at h
        cases h
        refine ⟨fun h => (by obtain ⟨p, h⟩ := h; cases h), fun _ => ?_⟩
        simp [endTime]
        omega
      · simp only [Link.bit] at h
        split at h
        · cases h
          refine ⟨fun h => (by obtain ⟨p, h⟩ := h; cases h), fun _ => ?_⟩
          simp only [hh, if_true, Bool.false_eq_true, if_false]
          omega
        · split at h <;> cases h
          refine ⟨fun h => (by obtain ⟨p, h⟩ := h; cases h), fun _ => ?_⟩
          simp only [hh, if_true, Bool.false_eq_true, if_false, List.length_append, List.length_cons,
            List.length_nil, Nat.zero_add]
          omega
      · simp only [Link.bit] at h
        split at h
        · rename_i hb
          have := ht2 (by simpa using hb)
          cases h
          refine ⟨fun h => (by obtain ⟨p, h⟩ := h; cases h), fun _ => ?_⟩
          simp only [hh, if_true, Bool.false_eq_true, if_false]
          have := endTime_step l.packet.length
          have := hi l.packet.length
          have := (hinv.atEnd hst).1
          simp only [this]
          omega
        · split at h
          · rename_i hc
            cases h
            refine ⟨fun _ => ?_, fun h => absurd ⟨_, rfl⟩ h⟩
            have : endTime l.packet.length = 104 := by
              unfold endTime
              split <;> first | omega | rfl
            simp only [hh, if_true]
            omega
          · cases h
            refine ⟨fun h => (by obtain ⟨p, h⟩ := h; cases h), fun _ => ?_⟩
            have h2 := need_le l
            simp only [Link.need, hst, hh, if_true] at h2
            simp only [Link.reset, hh, if_true]
            omega

/-- The state after a packet. -/
theorem step_packet (l l' : Link) (t : Nat) (p : Packet)
    (h : l.step t = .ok (l', some (.packet p))) : l'.state = .preamble ∧ l'.bitCount = 0 := by
  have key : ∀ (m : Link) v, m.bit v = .ok (l', some (.packet p)) →
      l'.state = .preamble ∧ l'.bitCount = 0 := by
    intro m v h
    unfold Link.bit at h
    split at h
    · split at h
      · cases h
      · split at h <;> cases h
    · cases h
    · dsimp only at h
      split at h
      · cases h
      · split at h <;> cases h
    · split at h
      · cases h
      · split at h <;> cases h
        exact ⟨rfl, rfl⟩
  unfold Link.step at h
  dsimp only at h
  split at h
  · cases h
  · split at h
    · cases h
    · exact key _ _ h

theorem need_first (l l' : Link) (t : Nat) (o : Option LinkOut) (h : l.step t = .ok (l', o))
    (hs : l.state = .preamble) (hb : l.bitCount = 0) : 4014 ≤ l'.need := by
  unfold Link.step at h
  dsimp only at h
  split at h
  · cases h
    simp [Link.need, hs, hb]
  · simp only [hs, LinkState.halves, Bool.false_and, Bool.false_eq_true, if_false, Link.bit, hb] at h
    split at h
    · cases h
      simp [Link.need]
    · simp only [Nat.zero_lt_succ, if_true] at h
      cases h
      rw [need_reset]
      decide

/-- Whatever comes from the track, packets are at least 4014 µs apart. -/
theorem spaced_any (ts : List (Nat × Nat)) : ∀ (l : Link) (since : Option Nat), LinkInv l →
    (∀ t ∈ ts, t.1 ≤ t.2) → (since = none → l.state = .preamble ∧ l.bitCount = 0) →
    (∀ x, since = some x → 4014 ≤ x + l.need) → l.Spaced 4014 since ts := by
  induction ts with
  | nil => intro _ _ _ _ _ _; trivial
  | cons t ts ih =>
    obtain ⟨t, d⟩ := t
    intro l since hinv hle h1 h2 l' o h
    have htd : t ≤ d := hle (t, d) List.mem_cons_self
    have hle : ∀ t ∈ ts, t.1 ≤ t.2 := fun x hx => hle x (List.mem_cons_of_mem _ hx)
    obtain ⟨h3, h4⟩ := need_step l l' t o hinv h
    have hinv' := (hinv.step h).1
    by_cases hp : ∃ p, o = some (.packet p)
    · obtain ⟨p, rfl⟩ := hp
      refine ⟨fun x hx => ?_, ih l' none hinv' hle (fun _ => ?_) (fun x hx => by cases hx)⟩
      · have := h2 x hx
        have := h3 ⟨p, rfl⟩
        omega
      · exact step_packet l l' t p h
    · have hgo : l'.Spaced 4014 (some (since.elim 0 (· + d))) ts := by
        refine ih l' _ hinv' hle (fun hx => by cases hx) fun x hx => ?_
        cases hsn : since with
        | none =>
          have := need_first l l' t o h (h1 hsn).1 (h1 hsn).2
          omega
        | some y =>
          rw [hsn] at hx
          simp only [Option.elim_some, Option.some.injEq] at hx
          have := h2 y hsn
          have := h4 hp
          omega
      rcases o with _ | (_ | p | _) <;> first | exact hgo | exact absurd ⟨p, rfl⟩ hp

/-! ### A command station -/

/-- The time since a packet after further durations that complete none. -/
def later : Option Nat → List Nat → Option Nat
  | some x, ts => some (x + ts.sum)
  | none, [] => none
  | none, _ :: ts => some ts.sum

theorem later_cons (since : Option Nat) (t : Nat) (ts : List Nat) :
    later (some (since.elim 0 (· + t))) ts = later since (t :: ts) := by
  cases since <;> simp [later, Nat.add_assoc]

theorem spaced_append (w : Nat) (as bs : List (Nat × Nat)) : ∀ (l l' : Link) (os : List LinkOut)
    (since : Option Nat), l.run (as.map (·.1)) = .ok (l', os) → packetsOf os = [] →
    l'.Spaced w (later since (as.map (·.2))) bs → l.Spaced w since (as ++ bs) := by
  induction as with
  | nil =>
    intro l l' os since h _ hs
    cases h
    cases since <;> exact hs
  | cons t ts ih =>
    obtain ⟨t, d⟩ := t
    intro l l' os since h hp hs l1 o h1
    rw [List.map_cons, Link.run_cons _ h1] at h
    simp only [bind_eq_ok] at h
    obtain ⟨⟨l2, ps⟩, h2, h3⟩ := h
    simp only [pure_eq_ok, Except.ok.injEq, Prod.mk.injEq] at h3
    obtain ⟨rfl, rfl⟩ := h3
    simp only [packetsOf, List.filterMap_append, List.append_eq_nil_iff] at hp
    rw [List.map_cons, ← later_cons] at hs
    have hgo := ih l1 l2 ps _ h2 hp.2 hs
    rcases o with _ | (_ | p | _)
    · exact hgo
    · exact hgo
    · simp at hp
    · exact hgo

/-- An interval that completes a packet. -/
theorem spaced_packet {w : Nat} {l l' : Link} {since : Option Nat} {t d : Nat} {p : Packet}
    {bs : List (Nat × Nat)} (h : l.step t = .ok (l', some (.packet p))) (hw : ∀ x, since = some x → w ≤ x + d)
    (hs : l'.Spaced w none bs) : l.Spaced w since ((t, d) :: bs) := by
  intro l1 o h1
  rw [h] at h1
  cases h1
  exact ⟨hw, hs⟩

theorem wave_sum (c : TxConfig) (bits : List Bool) :
    (Spec.wave c bits).sum = 2 * (c.bit1.toNat * bits.count true + c.bit0.toNat * bits.count false) := by
  induction bits with
  | nil => rfl
  | cons b bs ih =>
    rw [wave_cons, List.sum_append, ih]
    cases b <;> simp [Spec.wave, Nat.mul_add] <;> omega

theorem count_bits (l : List Bool) : l.count true + l.count false = l.length := by
  induction l with
  | nil => rfl
  | cons x xs ih => cases x <;> simp <;> omega

/-- Of three bytes with a checksum at most 16 bits are ones. -/
theorem ones_le (x y z : Byte) (h : exor [x, y, z] = 0#8) :
    (Spec.byteBits x).count true + (Spec.byteBits y).count true + (Spec.byteBits z).count true ≤ 16 := by
  have hz : z = x ^^^ y := by
    simp only [exor, List.foldl_cons, List.foldl_nil, BitVec.zero_xor] at h
    exact (BitVec.xor_eq_zero_iff.mp h).symm
  subst hz
  simp only [Spec.byteBits, List.count_cons, List.count_nil, BitVec.getLsbD_xor]
  generalize x.getLsbD 0 = x0
  generalize x.getLsbD 1 = x1
  generalize x.getLsbD 2 = x2
  generalize x.getLsbD 3 = x3
  generalize x.getLsbD 4 = x4
  generalize x.getLsbD 5 = x5
  generalize x.getLsbD 6 = x6
  generalize x.getLsbD 7 = x7
  generalize y.getLsbD 0 = y0
  generalize y.getLsbD 1 = y1
  generalize y.getLsbD 2 = y2
  generalize y.getLsbD 3 = y3
  generalize y.getLsbD 4 = y4
  generalize y.getLsbD 5 = y5
  generalize y.getLsbD 6 = y6
  generalize y.getLsbD 7 = y7
  have col : ∀ a b : Bool, (if (a == true) = true then 1 else 0) + (if (b == true) = true then 1 else 0) +
      (if ((a ^^ b) == true) = true then 1 else 0) ≤ 2 := by decide
  have c0 := col x0 y0
  have c1 := col x1 y1
  have c2 := col x2 y2
  have c3 := col x3 y3
  have c4 := col x4 y4
  have c5 := col x5 y5
  have c6 := col x6 y6
  have c7 := col x7 y7
  omega

/-- The bits of a packet besides preamble and end bit. -/
theorem packet_bits (p : Packet) : p.length * 9 =
      (p.flatMap fun b => false :: Spec.byteBits b).count true +
        (p.flatMap fun b => false :: Spec.byteBits b).count false ∧
      p.length ≤ (p.flatMap fun b => false :: Spec.byteBits b).count false := by
  induction p with
  | nil => simp
  | cons b bs ih =>
    simp only [List.flatMap_cons, List.count_append, List.length_cons, List.count_cons]
    have : (Spec.byteBits b).count true + (Spec.byteBits b).count false = 8 := by
      rw [count_bits]; rfl
    simp
    omega

theorem packet_zeros (p : Packet) (hp : ValidPacket p) :
    p.length = 3 ∧ 11 ≤ (p.flatMap fun b => false :: Spec.byteBits b).count false ∨ 4 ≤ p.length := by
  have h3 := hp.min
  rcases Nat.lt_or_ge p.length 4 with h | h
  · refine .inl ⟨by omega, ?_⟩
    have hb := (packet_bits p).1
    match p, hp.sum with
    | [x, y, z], hs =>
      have := ones_le x y z hs
      simp only [List.flatMap_cons, List.flatMap_nil, List.count_append, List.count_cons, List.length_cons,
        List.length_nil, List.count_nil] at hb ⊢
      simp at hb ⊢
      omega
    | [], _ | [_], _ | [_, _], _ => simp at h3
    | _ :: _ :: _ :: _ :: _, _ =>
      simp only [List.length_cons] at h
      omega
  · exact .inr h

/-- A packet lasts at least as long as the shortest one, not counting its first half bit. -/
theorem packetWave_time (c : TxConfig) (h : Spec.ValidConfig c) (p : Packet) (hp : ValidPacket p) :
    ∃ ts, Spec.packetWave c p = c.bit1.toNat :: ts ∧ shortest c ≤ ts.sum := by
  obtain ⟨h1, _, h2, h2', h3, h3'⟩ := h
  obtain ⟨n, hn⟩ : ∃ n, c.numPreamble.toNat = n + 1 := ⟨c.numPreamble.toNat - 1, by omega⟩
  have hsum := wave_sum c (Spec.frameBits c.numPreamble.toNat p)
  obtain ⟨hc1, hc2⟩ := packet_bits p
  have hz := packet_zeros p hp
  refine ⟨(Spec.packetWave c p).tail, ?_, ?_⟩
  · simp [Spec.packetWave, Spec.frameBits, hn, List.replicate_succ, Spec.wave]
  · have hcons : Spec.packetWave c p = c.bit1.toNat :: (Spec.packetWave c p).tail := by
      simp [Spec.packetWave, Spec.frameBits, hn, List.replicate_succ, Spec.wave]
    have hs2 := congrArg List.sum hcons
    rw [List.sum_cons] at hs2
    have hs3 : (Spec.packetWave c p).sum = _ := hsum
    rw [hs3] at hs2
    simp only [Spec.frameBits, List.count_append, List.count_replicate_self, List.count_cons,
      List.count_nil] at hs2
    unfold shortest
    generalize (p.flatMap fun b => false :: Spec.byteBits b).count true = a at *
    generalize (p.flatMap fun b => false :: Spec.byteBits b).count false = z at *
    simp [List.count_replicate, hn] at hs2
    rw [hn]
    generalize c.bit1.toNat = b1 at *
    generalize c.bit0.toNat = b0 at *
    obtain ⟨δ, rfl⟩ : ∃ δ, b0 = b1 + δ := ⟨b0 - b1, by omega⟩
    have e1 : b1 * (n + 1 + a + 1) + (b1 + δ) * z = b1 * (n + 2) + b1 * (a + z) + δ * z := by
      rw [Nat.add_mul b1 δ z, show n + 1 + a + 1 = n + 2 + a by omega, Nat.mul_add b1 (n + 2) a,
        Nat.mul_add b1 a z]
      omega
    have e2 : (n + 1 + 17) * b1 + 11 * (b1 + δ) = b1 * (n + 2) + 27 * b1 + 11 * δ := by
      rw [Nat.mul_comm b1 (n + 2), show n + 1 + 17 = n + 2 + 16 by omega, Nat.add_mul (n + 2) 16 b1]
      omega
    have e3 : 27 * b1 + 11 * δ ≤ b1 * (a + z) + δ * z := by
      rcases hz with ⟨hl, hz⟩ | hl
      · have f1 : a + z = 27 := by omega
        have f2 : δ * 11 ≤ δ * z := Nat.mul_le_mul_left _ hz
        rw [f1]
        omega
      · have f1 : b1 * 36 ≤ b1 * (a + z) := Nat.mul_le_mul_left _ (by omega)
        have f2 : δ * 4 ≤ δ * z := Nat.mul_le_mul_left _ (by omega)
        omega
    have e4 : b1 * (n + 1 + a) + b1 = b1 * (n + 1 + a + 1) := by rw [Nat.mul_succ]
    omega

/-- Valid configurations send no packet in less than 5886 µs. -/
theorem shortest_ge {c : TxConfig} (h : Spec.ValidConfig c) : 5886 ≤ shortest c := by
  obtain ⟨h1, _, h2, h2', h3, h3'⟩ := h
  unfold shortest
  have : 34 * c.bit1.toNat ≤ (c.numPreamble.toNat + 17) * c.bit1.toNat :=
    Nat.mul_le_mul_right _ (by omega)
  omega

/-- A segment of at least `w` µs without its first half bit. -/
def CarriesFor (w : Nat) (g : Spec.Segment) (p : Packet) : Prop :=
  ∃ c, Spec.ValidConfig c ∧ w ≤ shortest c ∧ ValidPacket p ∧ g.wave = Spec.packetWave c p

/-- Durations that are handed over as they are. -/
def asIs (ts : List Nat) : List (Nat × Nat) := ts.map fun t => (t, t)

theorem asIs_fst (ts : List Nat) : (asIs ts).map (·.1) = ts := by
  induction ts with
  | nil => rfl
  | cons t ts ih => exact congrArg _ ih

theorem asIs_snd (ts : List Nat) : (asIs ts).map (·.2) = ts := by
  induction ts with
  | nil => rfl
  | cons t ts ih => exact congrArg _ ih

/-- What a command station transmits is spaced. -/
theorem spaced_segments {P : TxConfig → Prop} (w : Nat) (gs : List (Spec.Segment × Packet))
    (cur : Spec.Segment × Packet) :
    ∀ (l : Link) (since : Option Nat), l.Synced →
    (∀ g ∈ gs ++ [cur], g.1.Ok P ∧ CarriesFor w g.1 g.2) →
    (∀ g ∈ gs, g.1.halves.length = g.1.wave.length) →
    l.Spaced w since (asIs (((gs ++ [cur]).flatMap fun g => g.1.outs).map (·.duration))) := by
  have whole : ∀ (g : Spec.Segment × Packet) (rest : List (Nat × Nat)) (l : Link) (since : Option Nat), l.Synced →
      g.1.Ok P ∧ CarriesFor w g.1 g.2 → g.1.halves.length = g.1.wave.length →
      (∀ (l' : Link) (since' : Option Nat), l'.Synced → l'.Spaced w since' rest) →
      l.Spaced w since (asIs (g.1.outs.map (·.duration)) ++ rest) := by
    rintro g rest l since hs ⟨h, c, hc, hcw, hp, hw⟩ hl hrest
    rw [Spec.Segment.outs, List.map_append, halves_times h, cut_times h, hl, List.take_length, hw]
    obtain ⟨v, hv, h1⟩ := run_packet_init l c hc g.2 hp hs.state hs.byte hs.checksum
    obtain ⟨ts, ht1, ht2⟩ := packetWave_time c hc g.2 hp
    rw [hv]
    simp only [asIs, List.map_append, List.append_assoc, List.map_cons, List.map_nil]
    refine spaced_append _ (asIs v) _ _ _ _ _ (by rw [asIs_fst]; exact h1) rfl ?_
    rw [asIs_snd]
    have h2 := run_packet l c hc g.2 hp hs.state hs.byte hs.checksum
    rw [hv] at h2
    obtain ⟨l3, o3, qs, h3, h4⟩ := Link.run_snoc _ _ _ h1 h2
    have ho : o3 = some (.packet g.2) := by
      rcases o3 with _ | o3
      · have h5 := Link.run_append_ok (ps' := []) _ [c.bit1.toNat] h1 (by rw [Link.run_cons _ h3]; rfl)
        rw [h5] at h2
        simp at h2
      · simp only [List.cons_append, List.nil_append, Option.toList_some, List.cons.injEq, true_and] at h4
        rw [h4.1]
    subst ho
    have h5 : l3 = Link.after g.2 := by
      have h5 := Link.run_append_ok (ps' := [.packet g.2]) _ [c.bit1.toNat] h1
        (by rw [Link.run_cons _ h3]; rfl)
      rw [h5] at h2
      simp only [Except.ok.injEq, Prod.mk.injEq] at h2
      exact h2.1
    refine spaced_packet h3 (fun x hx => ?_) ?_
    · rw [hv] at ht1
      cases hv2 : v with
      | nil =>
        have := shortest_ge hc
        rw [hv2] at ht1
        simp only [List.nil_append, List.cons.injEq] at ht1
        rw [← ht1.2] at ht2
        simp at ht2
        omega
      | cons a as =>
        rw [hv2] at ht1 hx
        simp only [List.cons_append, List.cons.injEq] at ht1
        rw [← ht1.2, List.sum_append] at ht2
        simp only [List.sum_cons, List.sum_nil, Nat.add_zero] at ht2
        cases since <;> simp only [later, List.sum_cons, Option.some.injEq] at hx <;> omega
    · obtain ⟨l4, h6, h7⟩ := run_cut g.1.cut.length (Link.after g.2) (Link.synced_after _)
        (Nat.zero_lt_succ 19)
      rw [h5]
      exact spaced_append _ (asIs (g.1.cut.length |> cutTimes.take)) rest _ _ _ _ (by rw [asIs_fst]; exact h6) rfl
        (hrest _ _ h7)
  have nil : ∀ (l : Link) (since : Option Nat), l.Synced → l.Spaced w since [] :=
    fun _ _ _ => trivial
  induction gs with
  | nil =>
    intro l since hs hok _
    have hok := hok cur (by simp)
    simp only [List.nil_append, List.flatMap_cons, List.flatMap_nil, List.append_nil]
    by_cases hl : cur.1.halves.length = cur.1.wave.length
    · have := whole cur [] l since hs hok hl nil
      rwa [List.append_nil] at this
    · obtain ⟨h1, c, hc, _, hp, hw⟩ := hok
      obtain ⟨l', os, h2, h3⟩ := run_segment_part h1 c hc cur.2 hp hw hl l hs
      have := spaced_append w (asIs (cur.1.outs.map (·.duration))) [] _ _ _ since (by rw [asIs_fst]; exact h2) h3
        trivial
      rwa [List.append_nil] at this
  | cons g gs ih =>
    intro l since hs hok hcomp
    rw [List.cons_append, List.flatMap_cons, List.map_append, asIs, List.map_append]
    exact whole g _ l since hs (hok g (by simp)) (hcomp g (by simp)) fun l' since' hs' =>
      ih l' since' hs' (fun x hx => hok x (by simp at hx ⊢; exact .inr hx))
        (fun x hx => hcomp x (by simp [hx]))

/-- The segments of a command station whose configurations send no packet in less than `w` µs. -/
theorem station_segments (n w : Nat) (txOps : List TxOp) (h : TxHist)
    (ht : ({ s := {} } : TxHist).run n txOps = .ok h) (hw : w ≤ shortest {})
    (hc : ∀ c, .init c ∈ txOps → w ≤ shortest c) (hv : ∀ a ∈ h.acc, ValidPacket a.2)
    (g : Spec.Segment × Packet) (hg : (g.1.frame = none ∧ g.2 = [0xFF#8, 0x00#8, 0xFF#8]) ∨
      ∃ c, (c, g.2) ∈ h.acc ∧ g.1.frame = some (Spec.packetWave c g.2)) : CarriesFor w g.1 g.2 := by
  have hvc := run_init_valid _ ht
  obtain ⟨done, cur, i⟩ := TxInv.run (P := fun c => Spec.ValidConfig c ∧ w ≤ shortest c) txOps
    (TxInv.initial n _ {} ⟨by simp [Spec.ValidConfig], hw⟩) (fun c hm => ⟨hvc c hm, hc c hm⟩) h ht
  rcases hg with ⟨hn, hi⟩ | ⟨cf, hm, hfr⟩
  · exact ⟨{}, by simp [Spec.ValidConfig], hw, by rw [hi]; exact idle_valid,
      by rw [hi, Spec.Segment.wave, hn]; rfl⟩
  · exact ⟨cf, (i.acc_ok _ hm).1.1, (i.acc_ok _ hm).1.2, hv _ hm, by rw [Spec.Segment.wave, hfr]; rfl⟩

/-- The same for a history of a command station. -/
theorem station_spaced (n w : Nat) (txOps : List TxOp) (h : TxHist)
    (ht : ({ s := {} } : TxHist).run n txOps = .ok h) (hw : w ≤ shortest {})
    (hc : ∀ c, .init c ∈ txOps → w ≤ shortest c) (hv : ∀ a ∈ h.acc, ValidPacket a.2) (l : Link)
    (hl : l.Synced) (since : Option Nat) : l.Spaced w since (asIs (h.out.map (·.duration))) := by
  obtain ⟨gs, c, rest, l', os, h1, h2, h3, _⟩ := station_track n txOps h ht hv l hl
  rw [h1]
  exact spaced_segments w gs c l since hl
    (fun g hg => ⟨(h2 g hg).1, station_segments n w txOps h ht hw hc hv g (h2 g hg).2⟩) h3

/-! ### Punctual calls -/

theorem Spec.Punctual.attended {period : Nat} (xs : List (Nat × RxOp)) : ∀ {now last edge : Nat},
    Punctual period now last edge xs → Attended period 0 now last xs := by
  induction xs with
  | nil => intro _ _ _ _; trivial
  | cons x xs ih =>
    obtain ⟨time, op⟩ := x
    intro now last edge h
    obtain ⟨h1, h2, h3⟩ := h
    refine ⟨h1, by omega, ?_⟩
    cases op
    case receive t r => exact ih h3.2
    case execute =>
      rw [Nat.zero_sub]
      exact ih h3
    all_goals exact ih h3

theorem Spec.Punctual.lasting {period : Nat} (xs : List (Nat × RxOp)) : ∀ {now last edge : Nat},
    Punctual period now last edge xs → Lasting edge (recvTimes (calls xs)) xs := by
  induction xs with
  | nil => intro _ _ _ _; rfl
  | cons x xs ih =>
    obtain ⟨time, op⟩ := x
    intro now last edge h
    obtain ⟨h1, h2, h3⟩ := h
    have other : ∀ {edge : Nat}, op.isReceive = false → Lasting edge (recvTimes (calls xs)) xs →
        Lasting edge (recvTimes (calls ((time, op) :: xs))) ((time, op) :: xs) := by
      intro edge hr hl
      have : recvTimes (calls ((time, op) :: xs)) = recvTimes (calls xs) := by
        cases op <;> first | rfl | cases hr
      rw [this]
      cases hd : recvTimes (calls xs) with
      | nil => rw [hd] at hl; exact ⟨hr, hl⟩
      | cons d ds =>
        rw [hd] at hl
        simpa only [Lasting, hr, Bool.false_eq_true, if_false] using hl
    cases op
    case receive t r => exact (⟨h3.1, ih h3.2⟩ : edge + t ≤ time ∧ Lasting time (recvTimes (calls xs)) xs)
    all_goals exact other rfl (ih h3)

/-- As `serving`, for calls that are punctual. -/
theorem polling (e : Env) (hroom : 2 ≤ e.rxDeque) (w period : Nat) (hw : period < w)
    (xs : List (Nat × RxOp)) (z : Rx) (now last edge : Nat) (hr : Reachable e z)
    (hp : Punctual period now last edge xs) (hd : .disable ∉ calls xs)
    (hs : z.link.Spaced w (some w) (asIs (recvTimes (calls xs)))) (hq : z.deque = []) (hn : last ≤ now) :
    NeverFull e z (calls xs) ∧ ∀ z', z.run e (calls xs) = .ok z' → z'.deque.length ≤ 1 := by
  have hzip : (recvTimes (calls xs)).zip (recvTimes (calls xs)) = asIs (recvTimes (calls xs)) := by
    generalize recvTimes (calls xs) = ts
    induction ts with
    | nil => rfl
    | cons t ts ih => exact congrArg _ ih
  exact serving e w period hw xs z (some w) _ now last edge 0 0 (by omega) hr hp.attended hp.lasting hd
    (by rw [hzip]; exact hs) (by simp [hq]) hn nofun (fun _ => .inr (by simp [hq])) (.inl (by simp [hq]))

end Dcc
