import Verif.Lemmas.RxAttend
import Verif.Lemmas.RxHeardTime
import Verif.Lemmas.RxLate
import Verif.Lemmas.TxDelay
/-! A receiver in any state finds back into step on an undisturbed signal, whatever it was in the middle of. -/
namespace Dcc
open Spec

/-! ### Becoming like new -/

/-- Waiting for a preamble of which nothing has come yet. -/
structure Link.Fresh (l : Link) : Prop where
  synced : l.Synced
  count : l.bitCount = 0

theorem Link.reset_fresh (l : Link) : l.reset.Fresh := ⟨⟨rfl, rfl, rfl⟩, rfl⟩

/-- The end of a packet. -/
theorem Link.step_packet {l l' : Link} {t : Nat} {p : Packet} (h : l.step t = .ok (l', some (.packet p))) :
    l'.Fresh := by
  have key : ∀ (l : Link) (b : Bool), l.bit b = .ok (l', some (.packet p)) → l'.Fresh := by
    intro l b h
    unfold Link.bit at h
    repeat' split at h
    all_goals first
      | cases h; exact Link.reset_fresh _
      | cases h
  unfold Link.step at h
  dsimp only at h
  split at h
  · cases h
  · split at h
    · cases h
    · exact key _ _ h

/-- A run until the assembly is as new, or without a packet. -/
theorem first_fresh (ts : List Nat) : ∀ {l l' : Link} {os : List LinkOut}, l.run ts = .ok (l', os) →
    (∃ a b l1 os1 os2, ts = a ++ b ∧ l.run a = .ok (l1, os1) ∧ l1.Fresh ∧ l1.run b = .ok (l', os2) ∧ os = os1 ++ os2 ∧
      (packetsOf os1).length ≤ 1 ∧ ∀ c d l2 os3, a = c ++ d → l.run c = .ok (l2, os3) → l2.Fresh → d = []) ∨
    (packetsOf os = [] ∧ ∀ c d l2 os3, ts = c ++ d → l.run c = .ok (l2, os3) → ¬ l2.Fresh) := by
  induction ts with
  | nil =>
    intro l l' os h
    cases h
    by_cases hf : l.Fresh
    · exact .inl ⟨[], [], l, [], [], rfl, rfl, hf, rfl, rfl, by simp [packetsOf],
        fun c d _ _ h _ _ => (List.append_eq_nil_iff.mp h.symm).2⟩
    · refine .inr ⟨rfl, fun c d l2 os3 h1 h2 => ?_⟩
      obtain ⟨rfl, rfl⟩ := List.append_eq_nil_iff.mp h1.symm
      cases h2
      exact hf
  | cons t ts ih =>
    intro l l' os h
    by_cases hf : l.Fresh
    · exact .inl ⟨[], t :: ts, l, [], os, rfl, rfl, hf, h, rfl, by simp [packetsOf],
        fun c d _ _ h _ _ => (List.append_eq_nil_iff.mp h.symm).2⟩
    · simp only [Link.run, bind_eq_ok] at h
      obtain ⟨⟨l1, o⟩, h1, ⟨l2, os2⟩, h2, h3⟩ := h
      simp only [pure_eq_ok, Except.ok.injEq, Prod.mk.injEq] at h3
      obtain ⟨rfl, rfl⟩ := h3
      -- a proper beginning
      have hpre : ∀ (c d a' : List Nat) l3 os3, t :: a' = c ++ d → l.run c = .ok (l3, os3) → l3.Fresh →
          ∃ c' os4, c = t :: c' ∧ a' = c' ++ d ∧ l1.run c' = .ok (l3, os4) := by
        intro c d a' l3 os3 e1 e2 e3
        cases c with
        | nil => cases e2; exact absurd e3 hf
        | cons x c' =>
          obtain ⟨rfl, rfl⟩ := List.cons.inj e1
          rw [Link.run_cons _ h1] at e2
          simp only [bind_eq_ok] at e2
          obtain ⟨⟨l4, os4⟩, e4, e5⟩ := e2
          simp only [pure_eq_ok, Except.ok.injEq, Prod.mk.injEq] at e5
          obtain ⟨rfl, rfl⟩ := e5
          exact ⟨c', os4, rfl, rfl, e4⟩
      by_cases hf1 : l1.Fresh
      · refine .inl ⟨[t], ts, l1, o.toList, os2, rfl, by rw [Link.run_cons _ h1]; simp, hf1, h2, rfl, ?_, ?_⟩
        · cases o with
          | none => simp [packetsOf]
          | some o => exact List.length_filterMap_le _ _
        · intro c d l3 os3 e1 e2 e3
          obtain ⟨c', os4, rfl, e5, e6⟩ := hpre c d [] l3 os3 e1 e2 e3
          exact (List.append_eq_nil_iff.mp e5.symm).2
      · have ho : packetsOf o.toList = [] := by
          cases o with
          | none => rfl
          | some o =>
            cases o with
            | packet p => exact absurd (Link.step_packet h1) hf1
            | _ => rfl
        have happ : ∀ os, packetsOf (o.toList ++ os) = packetsOf os := by
          intro os
          have : packetsOf (o.toList ++ os) = packetsOf o.toList ++ packetsOf os := by simp [packetsOf]
          rw [this, ho]; rfl
        rcases ih h2 with ⟨a, b, l3, os1, os3, rfl, e1, e2, e3, rfl, e4, e5⟩ | ⟨e1, e2⟩
        · refine .inl ⟨t :: a, b, l3, o.toList ++ os1, os3, rfl, ?_, e2, e3, by simp, by rw [happ]; exact e4, ?_⟩
          · rw [Link.run_cons _ h1, e1]; rfl
          · intro c d l4 os4 e6 e7 e8
            obtain ⟨c', os5, rfl, e9, e10⟩ := hpre c d a l4 os4 e6 e7 e8
            exact e5 c' d l4 os5 e9 e10 e8
        · refine .inr ⟨by rw [happ]; exact e1, ?_⟩
          intro c d l4 os4 e6 e7 e8
          obtain ⟨c', os5, rfl, e9, e10⟩ := hpre c d ts l4 os4 e6 e7 e8
          exact e2 c' d l4 os5 e9 e10 e8

/-- How many half ones an assembly in the middle of a packet can take at most. -/
def Link.ahead (l : Link) : Nat :=
  match l.state with
  | .preamble => 0
  | .startbit => 19
  | .data => 2 * (8 - l.bitCount) + 2 - l.isHalfbit.toNat
  | .endbit => 2 - l.isHalfbit.toNat

/-- Enough ones end whatever is being assembled. -/
theorem ones_end (ts : List Nat) : ∀ {l l' : Link} {os : List LinkOut}, LinkInv l → l.state ≠ .preamble →
    (∀ t ∈ ts, time2bit t = .b1) → l.ahead ≤ ts.length → l.run ts = .ok (l', os) →
    ∃ a b l1 os1, ts = a ++ b ∧ l.run a = .ok (l1, os1) ∧ l1.Fresh := by
  induction ts with
  | nil =>
    intro l l' os hi hs _ ha _
    exfalso
    unfold Link.ahead at ha
    cases hst : l.state with
    | preamble => exact hs hst
    | startbit => simp [hst] at ha
    | data =>
      simp only [hst, List.length_nil] at ha
      cases hh : l.isHalfbit <;> rw [hh] at ha <;> simp at ha
    | endbit =>
      simp only [hst, List.length_nil] at ha
      cases hh : l.isHalfbit <;> rw [hh] at ha <;> simp at ha
  | cons t ts ih =>
    intro l l' os hi hs h1 ha hr
    simp only [Link.run, bind_eq_ok] at hr
    obtain ⟨⟨l1, o⟩, h2, ⟨l2, os2⟩, h3, h4⟩ := hr
    have hi1 := (hi.step h2).1
    have ht : time2bit t = .b1 := h1 t (by simp)
    by_cases hf : l1.Fresh
    · exact ⟨[t], ts, l1, o.toList, rfl, by rw [Link.run_cons _ h2]; simp, hf⟩
    have key : l1.state ≠ .preamble ∧ l1.ahead + 1 ≤ l.ahead := by
      have hc := hi.count
      obtain ⟨st, bc, by_, cs, ih, pe, pk⟩ := l
      simp only at hs hc
      simp only [Link.step, ht] at h2
      cases st with
      | preamble => exact absurd rfl hs
      | startbit =>
        simp only [LinkState.halves, Link.bit, Bool.false_and, Bool.false_eq_true, if_false, Except.ok.injEq,
          Prod.mk.injEq] at h2
        obtain ⟨rfl, -⟩ := h2
        exact ⟨by simp, by simp [Link.ahead]⟩
      | data =>
        have hc := hc rfl
        cases ih
        · simp [LinkState.halves] at h2
          obtain ⟨rfl, -⟩ := h2
          exact ⟨by simp, by simp [Link.ahead]⟩
        · simp [LinkState.halves, Link.bit] at h2
          split at h2
          · simp at h2
            obtain ⟨rfl, -⟩ := h2
            exact ⟨by simp, by simp [Link.ahead]; omega⟩
          · split at h2
            · simp at h2
              obtain ⟨rfl, -⟩ := h2
              exact ⟨by simp, by simp [Link.ahead]; omega⟩
            · cases h2
      | endbit =>
        cases ih
        · simp [LinkState.halves] at h2
          obtain ⟨rfl, -⟩ := h2
          exact ⟨by simp, by simp [Link.ahead]⟩
        · exfalso
          simp [LinkState.halves, Link.bit] at h2
          split at h2 <;> simp at h2 <;> obtain ⟨rfl, -⟩ := h2 <;> exact hf (Link.reset_fresh _)
    obtain ⟨a, b, l3, os3, rfl, e1, e2⟩ := ih hi1 key.1 (fun x hx => h1 x (by simp [hx]))
      (by rw [List.length_cons] at ha; omega) h3
    exact ⟨t :: a, b, l3, o.toList ++ os3, rfl, by rw [Link.run_cons _ h2, e1]; rfl, e2⟩

theorem ahead_le {l : Link} : l.ahead ≤ 19 := by
  unfold Link.ahead
  split <;> omega

/-- All half bits of a packet but the first one are enough for any receiver. -/
theorem packet_fresh (l : Link) (hi : LinkInv l) (cfg : TxConfig) (h : ValidConfig cfg) (p : Packet)
    (hp : ValidPacket p) {l' : Link} {os : List LinkOut} (hr : l.run ((packetWave cfg p).drop 1) = .ok (l', os)) :
    ∃ a b l1 os1, (packetWave cfg p).drop 1 = a ++ b ∧ l.run a = .ok (l1, os1) ∧ l1.Fresh := by
  have hv := h.1
  have hsplit : (packetWave cfg p).drop 1 = List.replicate (2 * cfg.numPreamble.toNat - 1) cfg.bit1.toNat ++
      wave cfg (p.flatMap (fun b => false :: byteBits b) ++ [true]) := by
    have e : packetWave cfg p = List.replicate (2 * cfg.numPreamble.toNat) cfg.bit1.toNat ++
        wave cfg (p.flatMap (fun b => false :: byteBits b) ++ [true]) := by
      rw [← wave_half_ones, ← wave_append]
      simp [packetWave, frameBits]
    rw [e, List.drop_append_of_le_length (by rw [List.length_replicate]; omega), List.drop_replicate]
  by_cases hs : l.state = .preamble
  · obtain ⟨l1, h1, h2, h3⟩ := run_half_ones (2 * cfg.numPreamble.toNat - 1) l cfg h (hi.synced hs)
    have h4 := run_frame l1 cfg h p hp h2 (by omega)
    refine ⟨_, [], Link.after p, [.start, .packet p], (List.append_nil _).symm, ?_, ⟨Link.synced_after p, rfl⟩⟩
    rw [hsplit]
    exact Link.run_append_nil _ _ h1 h4
  · rw [hsplit] at hr
    obtain ⟨l1, os1, _, h1, _⟩ := link_run_split _ _ _ _ _ hr
    obtain ⟨a, b, l2, os2, h2, h3, h4⟩ := ones_end _ hi hs (fun t ht => by
      rw [List.eq_of_mem_replicate ht]; exact time2bit_bit1 h) (by
      have := @ahead_le l
      rw [List.length_replicate]
      omega) h1
    exact ⟨a, b ++ wave cfg (p.flatMap (fun b => false :: byteBits b) ++ [true]), l2, os2, by rw [hsplit, h2]; simp, h3, h4⟩

/-! ### The signal -/

theorem LinkInv.after_run (ts : List Nat) : ∀ {l l' : Link} {os : List LinkOut}, LinkInv l →
    l.run ts = .ok (l', os) → LinkInv l' := by
  induction ts with
  | nil => intro l l' os hi h; cases h; exact hi
  | cons t ts ih =>
    intro l l' os hi h
    simp only [Link.run, bind_eq_ok] at h
    obtain ⟨⟨l1, o⟩, h1, ⟨l2, os2⟩, h2, h3⟩ := h
    simp only [pure_eq_ok, Except.ok.injEq, Prod.mk.injEq] at h3
    obtain ⟨rfl, rfl⟩ := h3
    exact ih (hi.step h1).1 h2

/-- The calls of `transmit` up to an interval. -/
theorem crossings_split (off : Option Bool) (outs : List TxOut) : ∀ (seen : Bool) (acc : List Nat) (k : Nat),
    k ≤ (crossings off seen acc outs).length →
    ∃ oA oB, outs = oA ++ oB ∧ (crossings off seen acc oA).length = k := by
  induction outs with
  | nil => intro seen acc k hk; exact ⟨[], [], rfl, by simpa [crossings, eq_comm] using hk⟩
  | cons o os ih =>
    intro seen acc k hk
    cases k with
    | zero => exact ⟨[], o :: os, rfl, rfl⟩
    | succ k =>
      rw [crossings] at hk
      by_cases hs : looks off seen o = seen
      · rw [if_pos hs] at hk
        obtain ⟨oA, oB, rfl, h⟩ := ih _ _ _ hk
        exact ⟨o :: oA, oB, rfl, by rw [crossings, if_pos hs, h]⟩
      · rw [if_neg hs, List.length_cons] at hk
        obtain ⟨oA, oB, rfl, h⟩ := ih _ _ k (Nat.le_of_succ_le_succ hk)
        exact ⟨o :: oA, oB, rfl, by rw [crossings, if_neg hs, List.length_cons, h]⟩

/-- What has been measured until some moment and after it. -/
theorem measured_split (off : Option Bool) (outs : List TxOut) (seen : Bool) (acc a b : List Nat)
    (h : Measured (crossings off seen acc outs) (a ++ b)) :
    ∃ oA oB seen' acc', outs = oA ++ oB ∧ Measured (crossings off seen acc oA) a ∧
      Measured (crossings off seen' acc' oB) b := by
  have hl := h.length
  rw [List.length_append] at hl
  obtain ⟨oA, oB, rfl, hk⟩ := crossings_split off outs seen acc a.length (by omega)
  rw [crossings_append] at h
  obtain ⟨t1, t2, h1, h2, h3⟩ := Measured.append h
  obtain ⟨rfl, rfl⟩ := List.append_inj h1 (by rw [h2.length, hk])
  exact ⟨oA, oB, _, _, rfl, h2, h3⟩

/-- Until some call of `transmit`. -/
theorem TxHist.run_until {n : Nat} (ops : List TxOp) : ∀ {h h' : TxHist} (k : Nat), h.run n ops = .ok h' →
    h.out.length + k ≤ h'.out.length →
    ∃ o1 o2 hm, ops = o1 ++ o2 ∧ h.run n o1 = .ok hm ∧ hm.run n o2 = .ok h' ∧ hm.out.length = h.out.length + k := by
  induction ops with
  | nil =>
    intro h h' k hr hk
    cases hr
    exact ⟨[], [], h, rfl, rfl, rfl, by omega⟩
  | cons op ops ih =>
    intro h h' k hr hk
    cases k with
    | zero => exact ⟨[], op :: ops, h, rfl, rfl, hr, rfl⟩
    | succ k =>
      rw [TxHist.run, bind_eq_ok] at hr
      obtain ⟨h1, hs, hr⟩ := hr
      have hlen : h1.out.length = h.out.length ∨ h1.out.length = h.out.length + 1 := by
        cases op <;> simp only [TxHist.step] at hs <;> rw [bind_eq_ok] at hs <;> obtain ⟨x, _, hs⟩ := hs <;>
          simp only [pure_eq_ok, Except.ok.injEq] at hs <;> subst hs <;> simp
      rcases hlen with hlen | hlen
      · obtain ⟨o1, o2, hm, rfl, e1, e2, e3⟩ := ih (k + 1) hr (by omega)
        exact ⟨op :: o1, o2, hm, rfl, by rw [TxHist.run, hs]; exact e1, e2, by omega⟩
      · obtain ⟨o1, o2, hm, rfl, e1, e2, e3⟩ := ih k hr (by omega)
        exact ⟨op :: o1, o2, hm, rfl, by rw [TxHist.run, hs]; exact e1, e2, by omega⟩

/-- No change in the middle of calls that look differently. -/
theorem crossings_nil (off : Option Bool) (os : List TxOut) : ∀ (seen : Bool) (acc : List Nat),
    crossings off seen acc os = [] → ∀ o ∈ os, looks off seen o = seen := by
  induction os with
  | nil => intro _ _ _ o ho; cases ho
  | cons x os ih =>
    intro seen acc h o ho
    rw [crossings] at h
    split at h
    · rename_i hx
      rcases List.mem_cons.mp ho with rfl | ho
      · exact hx
      · exact ih seen _ h o ho
    · cases h

/-- All half bits of a packet but the first one are measured, if something follows. -/
theorem whole_measured {P : TxConfig → Prop} {inv : Bool} (hP : ∀ c, P c → c.invert = inv) {g : Segment} (h : g.Ok P)
    (hlen : g.halves.length = g.wave.length) {cfg : TxConfig} {p : Packet}
    (hw : g.wave = packetWave cfg p) (T R : List TxOut) (r : TxOut) (hr : ∀ seen, looks none seen r = !inv) (seen : Bool)
    (acc : List Nat) : ∃ A B, crossings none seen acc (T ++ g.outs ++ r :: R) =
      A ++ ((packetWave cfg p).drop 1).map ([·]) ++ B ∧
      ((∃ x ∈ R, ∀ seen, looks none seen x = inv) → B ≠ []) := by
  have hf := halves_from hP g.halves 0 g.wave (by simpa using h.halves_eq)
  have htimes := halves_times h
  have heven : g.wave.length % 2 = 0 := by rw [hw]; exact packetWave_even cfg p
  have hpos : 0 < g.wave.length := by rw [hw]; exact packetWave_pos cfg p
  cases hh : g.halves with
  | nil => rw [hh] at hlen; simp at hlen; omega
  | cons o hs =>
    rw [hh] at hf htimes hlen
    obtain ⟨⟨c, d, hc, rfl⟩, hf⟩ := hf
    rw [hlen, List.take_length] at htimes
    have hd : hs.map (fun o => [o.duration]) = ((packetWave cfg p).drop 1).map ([·]) := by
      rw [← hw, ← htimes]
      simp
    -- what comes behind the half bits
    obtain ⟨y, Y, hY, hy, hx⟩ : ∃ y Y, g.cut ++ r :: R = y :: Y ∧ (∀ seen, looks none seen y = !inv) ∧
        ((∃ x ∈ R, ∀ seen, looks none seen x = inv) → ∃ x ∈ Y, ∀ seen, looks none seen x = inv) := by
      by_cases hcut : g.cut = []
      · exact ⟨r, R, by rw [hcut]; rfl, hr, id⟩
      · obtain ⟨y, Y, h1, h2, _⟩ := cut_looks hP h hcut
        refine ⟨y, Y ++ r :: R, by rw [h1]; rfl, h2 none, ?_⟩
        rintro ⟨x, hx, hx'⟩
        exact ⟨x, by simp [hx], hx'⟩
    have hsplit : T ++ g.outs ++ r :: R = T ++ ([halfOut c 0 d] ++ (hs ++ y :: Y)) := by
      rw [Segment.outs, hh, ← hY]
      simp
    rw [hsplit, crossings_append, crossings_append]
    generalize crossEnd none seen acc T = z
    have hseen : (crossEnd none z.1 z.2 [halfOut c 0 d]).1 = !inv := by
      have hl : looks none z.1 (halfOut c 0 d) = !inv := by rw [looks_half, hc]; simp
      simp only [crossEnd]
      split
      · rename_i hx; rw [← hl, hx]
      · exact hl
    rw [hseen, crossings_append]
    generalize (crossEnd none z.1 z.2 [halfOut c 0 d]).2 = w
    obtain ⟨h1, h2⟩ := cross_halves none inv hs 1 (!inv) w hf (by simp)
    rw [List.length_cons] at hlen
    have h3 : (1 + hs.length) % 2 = 0 := by omega
    rw [h3] at h2
    have h2' : (crossEnd none (!inv) w hs).1 = inv := by simpa using h2
    have hcr : ∀ b : List Nat, crossings none inv b (y :: Y) = b :: crossings none (looks none inv y) [y.duration] Y :=
      fun b => by rw [crossings, if_neg (by rw [hy]; cases inv <;> decide)]
    rw [h2', hcr]
    refine ⟨crossings none seen acc T ++ (crossings none z.1 z.2 [halfOut c 0 d] ++ [w]),
      crossings none (looks none inv y) [y.duration] Y, ?_, ?_⟩
    · have h4 : ∀ (B : List (List Nat)), crossings none (!inv) w hs ++ (crossEnd none (!inv) w hs).2 :: B =
          w :: ((packetWave cfg p).drop 1).map ([·]) ++ B := by
        intro B
        rw [← hd, ← h1]
        simp
      rw [h4]
      simp
    · intro hex hB
      obtain ⟨x, hx1, hx2⟩ := hx hex
      have := crossings_nil _ _ _ _ hB x hx1
      rw [hx2, hy] at this
      cases inv <;> cases this

/-- A receiver that hears a whole packet but its first half bit is as new at some moment. -/
theorem whole_fresh {P : TxConfig → Prop} {inv : Bool} (hP : ∀ c, P c → c.invert = inv) {g : Segment} (h : g.Ok P)
    (hlen : g.halves.length = g.wave.length) {p : Packet} (hcar : Carries g p) (T R : List TxOut) (r : TxOut)
    (hr : ∀ seen, looks none seen r = !inv) (seen : Bool) (acc a : List Nat)
    (hm : Measured (crossings none seen acc (T ++ g.outs ++ r :: R)) a) {l l' : Link} {os : List LinkOut}
    (hi : LinkInv l) (hrun : l.run a = .ok (l', os)) :
    ∃ c d l2 os3, a = c ++ d ∧ l.run c = .ok (l2, os3) ∧ l2.Fresh ∧
      ((∃ x ∈ R, ∀ seen, looks none seen x = inv) → d ≠ []) := by
  obtain ⟨cfg, hcfg, hp, hw⟩ := hcar
  obtain ⟨A, B, h1, h2⟩ := whole_measured hP h hlen hw T R r hr seen acc
  rw [h1] at hm
  obtain ⟨t12, t3, rfl, hm, h3⟩ := Measured.append hm
  obtain ⟨t1, t2, rfl, h4, h5⟩ := Measured.append hm
  obtain ⟨l2, os2, os3, h6, h7, -⟩ := link_run_split _ _ _ _ _ hrun
  obtain ⟨l1, os1, os4, h8, h9, -⟩ := link_run_split _ _ _ _ _ h6
  have hhalf : ∀ d ∈ (packetWave cfg p).drop 1, IsHalf d := fun d hd =>
    wave_halves cfg hcfg _ d (List.mem_of_mem_drop hd)
  rw [measured_run _ _ _ hhalf h5] at h9
  obtain ⟨u, v, l3, os5, h10, h11, h12⟩ := packet_fresh l1 (hi.after_run _ h8) cfg hcfg p hp h9
  rw [h10] at hhalf h5
  rw [List.map_append] at h5
  obtain ⟨v1, v2, rfl, h13, h14⟩ := Measured.append h5
  refine ⟨t1 ++ v1, v2 ++ t3, l3, os1 ++ os5, by simp, ?_, h12, ?_⟩
  · refine Link.run_append_ok _ _ h8 ?_
    rw [measured_run u v1 _ (fun d hd => hhalf d (by simp [hd])) h13]
    exact h11
  · intro hex hd
    have h15 : t3 = [] := (List.append_eq_nil_iff.mp hd).2
    rw [h15] at h3
    cases B with
    | nil => exact h2 hex rfl
    | cons => exact h3.elim

/-- The first two half bits of a packet. -/
theorem two_halves {P : TxConfig → Prop} {inv : Bool} (hP : ∀ c, P c → c.invert = inv) {g : Segment} (h : g.Ok P)
    (hne : g.halves ≠ []) : ∃ r R, g.outs = r :: R ∧ (∀ seen, looks none seen r = !inv) ∧
      (2 ≤ g.halves.length → ∃ x R', R = x :: R' ∧ ∀ seen, looks none seen x = inv) := by
  have hf := halves_from hP g.halves 0 g.wave (by simpa using h.halves_eq)
  rw [Segment.outs]
  cases hh : g.halves with
  | nil => exact absurd hh hne
  | cons o hs =>
    rw [hh] at hf
    obtain ⟨⟨c, d, hc, rfl⟩, hf⟩ := hf
    refine ⟨_, hs ++ g.cut, rfl, fun seen => by rw [looks_half, hc]; simp, fun h2 => ?_⟩
    cases hs with
    | nil => simp at h2
    | cons x hs =>
      obtain ⟨⟨c', d', hc', rfl⟩, -⟩ := hf
      exact ⟨_, hs ++ g.cut, rfl, fun seen => by rw [looks_half, hc']; simp⟩

/-- Only packets begun were taken from the queue. -/
theorem begun_count {n : Nat} {P : TxConfig → Prop} {h1 : TxHist} {done1 later : List Segment} {cur1 x : Segment}
    (i1 : TxInv n P h1 done1 cur1) (gs : List (Segment × Packet)) (hsegs : gs.map (·.1) = done1 ++ x :: later)
    (hxf : x.frame = cur1.frame) (hxl : cur1.outs.length ≤ x.outs.length) (i : Nat)
    (hb : ∀ m, m + 2 = i → ((gs.take m).flatMap fun g => g.1.outs).length < h1.out.length) :
    ((gs.take (i - 1)).filter (·.1.frame.isSome)).length + h1.s.size n ≤ h1.acc.length := by
  have hacc1 : ((done1 ++ [cur1]).filterMap Segment.frame).length + h1.s.size n = h1.acc.length := by
    have := congrArg List.length i1.acc_eq
    rw [List.length_map, List.length_append, Tx.queue_length] at this
    omega
  have hi : i - 1 ≤ done1.length + 1 := by
    rcases i with _ | _ | m
    · omega
    · omega
    · refine Classical.byContradiction fun hx => ?_
      have h6 := hb m rfl
      have h7 := flatMap_take_le (fun g : Segment × Packet => g.1.outs) gs (show done1.length + 1 ≤ m by omega)
      have h8 : (gs.take (done1.length + 1)).flatMap (fun g => g.1.outs) = (done1 ++ [x]).flatMap Segment.outs := by
        have : (gs.take (done1.length + 1)).flatMap (fun g => g.1.outs) =
            ((gs.map (·.1)).take (done1.length + 1)).flatMap Segment.outs := by
          rw [← List.map_take, List.flatMap_map]
        rw [this, hsegs, List.take_append, List.take_of_length_le (by omega)]
        simp
      rw [h8] at h7
      have h9 := congrArg List.length i1.out_eq
      simp only [List.flatMap_append, List.length_append, List.flatMap_cons, List.flatMap_nil,
        List.append_nil] at h7 h9
      omega
  have hcount : ∀ k, ((gs.take k).filter (·.1.frame.isSome)).length =
      (((done1 ++ x :: later).take k).filterMap Segment.frame).length := by
    intro k
    rw [← hsegs, ← List.map_take]
    generalize gs.take k = l
    induction l with
    | nil => rfl
    | cons g l ih =>
      rw [List.filter_cons, List.map_cons, List.filterMap_cons]
      cases hf : g.1.frame <;> simp [ih]
  rw [hcount, ← hacc1]
  have h10 : ((done1 ++ x :: later).take (i - 1)).filterMap Segment.frame <+:
      ((done1 ++ x :: later).take (done1.length + 1)).filterMap Segment.frame :=
    List.IsPrefix.filterMap _ (List.take_prefix_take_left hi)
  have h11 : ((done1 ++ x :: later).take (done1.length + 1)).filterMap Segment.frame =
      (done1 ++ [cur1]).filterMap Segment.frame := by
    rw [List.take_append, List.take_of_length_le (by omega)]
    simp [List.filterMap_cons, hxf]
  rw [h11] at h10
  have := h10.length_le
  omega

/-- A packet of which the transmission begins after the receiver began to listen, and that is over. -/
theorem begun_fresh {P : TxConfig → Prop} {inv : Bool} (hP : ∀ c, P c → c.invert = inv)
    (pre post : List (Segment × Packet)) (g s : Segment × Packet) (hg : g.1.Ok P)
    (hlen : g.1.halves.length = g.1.wave.length) (hcar : Carries g.1 g.2) (hs : s.1.Ok P) (hne : s.1.halves ≠ [])
    (k j : Nat) (hk : k ≤ (pre.flatMap fun g => g.1.outs).length) (hj : 0 < j) (seen : Bool) (acc a : List Nat)
    (hm : Measured (crossings none seen acc (((pre ++ g :: s :: post).flatMap (fun g => g.1.outs)).drop k |>.take
      (((pre ++ [g]).flatMap (fun g => g.1.outs)).length - k + j))) a) {l l' : Link} {os : List LinkOut}
    (hi : LinkInv l) (hrun : l.run a = .ok (l', os)) :
    ∃ c d l2 os3, a = c ++ d ∧ l.run c = .ok (l2, os3) ∧ l2.Fresh ∧ (2 ≤ j → 2 ≤ s.1.halves.length → d ≠ []) := by
  obtain ⟨r, R, h1, h2, h3⟩ := two_halves hP hs hne
  have hsplit : (((pre ++ g :: s :: post).flatMap (fun g => g.1.outs)).drop k).take
      (((pre ++ [g]).flatMap (fun g => g.1.outs)).length - k + j) =
      (pre.flatMap fun g => g.1.outs).drop k ++ g.1.outs ++
        r :: (R ++ post.flatMap fun g => g.1.outs).take (j - 1) := by
    obtain ⟨j, rfl⟩ : ∃ i, j = i + 1 := ⟨j - 1, by omega⟩
    simp only [List.flatMap_append, List.flatMap_cons, List.flatMap_nil, List.append_nil, h1]
    rw [List.drop_append_of_le_length hk, ← List.append_assoc, List.take_append,
      List.take_of_length_le (by simp only [List.length_append, List.length_drop]; omega)]
    congr 1
    rw [show (((pre.flatMap fun g => g.1.outs) ++ g.1.outs).length - k + (j + 1) -
      ((pre.flatMap fun g => g.1.outs).drop k ++ g.1.outs).length) = j + 1 by
        simp only [List.length_append, List.length_drop]; omega]
    rfl
  rw [hsplit] at hm
  obtain ⟨c, d, l2, os3, h4, h5, h6, h7⟩ := whole_fresh hP hg hlen hcar _ _ r h2 seen acc a hm hi hrun
  refine ⟨c, d, l2, os3, h4, h5, h6, fun hj2 hs2 => h7 ?_⟩
  obtain ⟨x, R', rfl, h8⟩ := h3 hs2
  refine ⟨x, ?_, h8⟩
  obtain ⟨j, rfl⟩ : ∃ i, j = i + 2 := ⟨j - 2, by omega⟩
  simp

theorem carries_of {n : Nat} {inv : Bool} {h : TxHist} {done : List Segment} {cur : Segment}
    (i : TxInv n (fun c => ValidConfig c ∧ c.invert = inv) h done cur) (hv : ∀ a ∈ h.acc, ValidPacket a.2)
    (g : Segment × Packet) (hg : (g.1.frame = none ∧ g.2 = [0xFF#8, 0x00#8, 0xFF#8]) ∨
      ∃ c, (c, g.2) ∈ h.acc ∧ g.1.frame = some (packetWave c g.2)) : Carries g.1 g.2 := by
  rcases hg with ⟨h1, h2⟩ | ⟨c, h1, h2⟩
  · refine ⟨{}, by unfold ValidConfig; decide, by rw [h2]; exact ⟨by decide, by decide, by decide⟩, ?_⟩
    rw [Segment.wave, h1, h2]; rfl
  · exact ⟨c, (i.acc_ok _ h1).1.1, hv _ h1, by rw [Segment.wave, h2]; rfl⟩

/-- What a receiver in any state makes of the signal from the calls of `transmit` of `h1` on. -/
theorem inv_recover {n : Nat} {inv : Bool} {h1 h : TxHist} {done1 : List Segment} {cur1 : Segment}
    (i1 : TxInv n (fun c => ValidConfig c ∧ c.invert = inv) h1 done1 cur1) (more : List TxOp)
    (ht : h1.run n more = .ok h) (hops : OpsConfig (fun c => ValidConfig c ∧ c.invert = inv) more)
    (hstart : h.out ≠ [] → 0 < h.s.packetCount) (hv : ∀ a ∈ h.acc, ValidPacket a.2)
    (seen : Bool) (before ts : List Nat)
    (hm : Measured (crossings none seen before (h.out.drop h1.out.length)) ts) (l l' : Link) (os : List LinkOut)
    (hl : LinkInv l) (hrun : l.run ts = .ok (l', os)) :
    ∃ (gs : List (Segment × Packet)) (c : Segment × Packet) (rest odd : List Packet) (i : Nat),
      (∃ x later, (gs ++ [c]).map (·.1) = done1 ++ x :: later ∧ x.frame = cur1.frame ∧
        cur1.outs.length ≤ x.outs.length) ∧
      (∀ m g, (gs ++ [c])[m]? = some g → m < gs.length ∨ c.1.cut ≠ [] →
        (((gs ++ [c]).take m).flatMap fun g => g.1.outs).length + g.1.halves.length ≤ h1.out.length → m < i) ∧
      h.out = (gs ++ [c]).flatMap (fun g => g.1.outs) ∧
      (∀ g ∈ gs ++ [c], g.1.Ok ValidConfig ∧
        ((g.1.frame = none ∧ g.2 = [0xFF#8, 0x00#8, 0xFF#8]) ∨
          ∃ c, (c, g.2) ∈ h.acc ∧ g.1.frame = some (packetWave c g.2))) ∧
      (∀ g ∈ gs, g.1.Complete ValidConfig) ∧
      h.acc.map (·.2) = ((gs ++ [c]).filter (·.1.frame.isSome)).map (·.2) ++ rest ∧
      rest.length = h.s.size n ∧ c.1.cut.length = h.s.bidiCount ∧
      odd.length ≤ 1 ∧
      packetsOf os = odd ++ (gs.map (·.2) ++ if c.1.cut.isEmpty then [] else [c.2]).drop i ∧
      (∀ m, m + 2 = i → (((gs ++ [c]).take m).flatMap fun g => g.1.outs).length < h1.out.length) ∧
      (((gs ++ [c]).take (i - 1)).filter (·.1.frame.isSome)).length + h1.s.size n ≤ h1.acc.length := by
  have hP : ∀ c, (ValidConfig c ∧ c.invert = inv) → c.invert = inv := fun _ hc => hc.2
  rcases first_fresh ts hrun with ⟨a, b, l1, os1, os2, rfl, ha, hfr, hb, rfl, hone, hmin⟩ | ⟨hno, hnever⟩
  · -- in step after some time
    obtain ⟨oA, oB, seen', acc', hsplit, hmA, hmB⟩ := measured_split none _ _ _ _ _ hm
    have hpre := (TxHist.run_out more ht).1
    have hlen := congrArg List.length hsplit
    rw [List.length_drop, List.length_append] at hlen
    have hle := hpre.length_le
    obtain ⟨o1, o2, hmid, rfl, hr1, hr2, hk⟩ := TxHist.run_until more oA.length ht (by omega)
    have hops1 : OpsConfig (fun c => ValidConfig c ∧ c.invert = inv) o1 :=
      fun c hx => hops c (by simp [hx])
    have hops2 : OpsConfig (fun c => ValidConfig c ∧ c.invert = inv) o2 :=
      fun c hx => hops c (by simp [hx])
    obtain ⟨doneM, curM, x1, later1, iM, hextM, hxfM, hxlM⟩ := i1.run_extends o1 hops1 hmid hr1
    obtain ⟨done, cur, x, later, i2, hext, hxf, hxl⟩ := iM.run_extends o2 hops2 h hr2
    have hoB : h.out.drop hmid.out.length = oB := by
      rw [hk, ← List.drop_drop, hsplit, List.drop_left]
    obtain ⟨gs, c, rest, l2, os3, i, hdone, hcur, hi, hlo, h2, h3, h4, h5, h6, h7, h8, h9, h10, -⟩ := inv_late iM i2 hext hxf
      hxl hstart hv seen' acc' b (by rw [hoB]; exact hmB) l1 hfr.synced hfr.count
    rw [hb] at h8
    cases h8
    have hsegs : (gs ++ [c]).map (·.1) = done ++ [cur] := by
      rw [List.map_append, hdone, List.map_cons, List.map_nil, hcur]
    have hbegun : ∀ m, m + 2 = i → (((gs ++ [c]).take m).flatMap fun g => g.1.outs).length < h1.out.length := by
      intro m hmi
      refine Classical.byContradiction fun hx => ?_
      have h11 := h10 (m + 1) (by omega)
      have hdl : doneM.length ≤ done.length := by
        have := congrArg List.length hext
        simp at this
        omega
      have hgl : gs.length = done.length := by rw [← hdone, List.length_map]
      obtain ⟨pre, g, post, rfl, hpl⟩ : ∃ pre g post, gs = pre ++ g :: post ∧ pre.length = m :=
        ⟨gs.take m, gs[m]'(by omega), gs.drop (m + 1), by simp, by simp; omega⟩
      obtain ⟨s, post', hs⟩ : ∃ s post', post ++ [c] = s :: post' := by
        cases post with
        | nil => exact ⟨c, [], rfl⟩
        | cons s p => exact ⟨s, p ++ [c], rfl⟩
      have hgs : pre ++ g :: post ++ [c] = pre ++ g :: s :: post' := by rw [List.append_assoc, List.cons_append, hs]
      have hok : ∀ y ∈ pre ++ g :: post ++ [c], y.1.Ok fun c => ValidConfig c ∧ c.invert = inv := by
        intro y hy
        rcases List.mem_append.mp hy with hy | hy
        · exact (i2.done_ok y.1 (hdone ▸ List.mem_map_of_mem hy)).1
        · rw [List.mem_singleton] at hy
          rw [hy, hcur]
          exact i2.cur_ok
      have hg : g ∈ pre ++ g :: post := by simp
      have hsm : s ∈ pre ++ g :: post ++ [c] := by rw [hgs]; simp
      have htake : (pre ++ g :: post ++ [c]).take m = pre := by
        rw [hgs, List.take_append_of_le_length (by omega), List.take_of_length_le (by omega)]
      have htake1 : (pre ++ g :: post ++ [c]).take (m + 1) = pre ++ [g] := by
        rw [hgs, show pre ++ g :: s :: post' = (pre ++ [g]) ++ s :: post' by simp,
          List.take_append_of_le_length (by simp; omega), List.take_of_length_le (by simp; omega)]
      rw [htake] at hx
      rw [htake1] at h11
      have hs2 : 2 ≤ s.1.halves.length := by
        cases post with
        | nil =>
          obtain ⟨rfl, rfl⟩ := List.cons.inj hs
          have h12 := congrArg List.length h2
          rw [hgs, show pre ++ [g, c] = (pre ++ [g]) ++ [c] by simp, List.flatMap_append, List.length_append] at h12
          have h13 : hmid.out.length ≤ h.out.length := (TxHist.run_out o2 hr2).1.length_le
          have h14 := (hok c hsm).cut_le
          have h15 : c.1.outs.length = c.1.halves.length + c.1.cut.length := by rw [Segment.outs, List.length_append]
          simp only [List.flatMap_cons, List.flatMap_nil, List.append_nil] at h12
          omega
        | cons y p =>
          obtain ⟨rfl, -⟩ := List.cons.inj hs
          have := (h4 y (by simp)).halves
          obtain ⟨cf, hcf, _, hw⟩ := carries_of i2 hv y (h3 y hsm).2
          have := packetWave_pos cf y.2
          have := packetWave_even cf y.2
          rw [← hw] at *
          omega
      have hpg : (pre.flatMap fun g => g.1.outs).length ≤ ((pre ++ [g]).flatMap fun g => g.1.outs).length := by
        rw [List.flatMap_append, List.length_append]; omega
      obtain ⟨u, v, lu, ou, h12, h13, h14, h15⟩ := begun_fresh hP pre post' g s (hok g (by simp)) (h4 g hg).halves
        (carries_of i2 hv g (h3 g (by simp)).2) (hok s hsm) (by rintro hx; rw [hx] at hs2; simp at hs2) h1.out.length
        (hmid.out.length - ((pre ++ [g]).flatMap fun g => g.1.outs).length) (by omega) (by omega) seen before a (by
          rw [← hgs, ← h2, hsplit, List.take_append_of_le_length (by omega), List.take_of_length_le (by omega)]
          exact hmA) hl ha
      exact h15 (by omega) hs2 (hmin u v lu ou h12 h13 h14)
    have hlo' : ∀ m g, (gs ++ [c])[m]? = some g → m < gs.length ∨ c.1.cut ≠ [] →
        (((gs ++ [c]).take m).flatMap fun g => g.1.outs).length + g.1.halves.length ≤ h1.out.length → m < i :=
      fun m g hg hlt hle => hlo m g hg hlt (by omega)
    have hmore : ∃ x later, (gs ++ [c]).map (·.1) = done1 ++ x :: later ∧ x.frame = cur1.frame ∧
        cur1.outs.length ≤ x.outs.length := by
      cases later1 with
      | nil =>
        obtain ⟨rfl, hx⟩ := List.append_inj' hextM rfl
        obtain ⟨rfl, -⟩ := List.cons.inj hx
        exact ⟨x, later, hsegs.trans hext, hxf.trans hxfM, Nat.le_trans hxlM hxl⟩
      | cons y ys =>
        obtain ⟨zs, z, hz⟩ : ∃ zs z, y :: ys = zs ++ [z] := ⟨_, _, (List.dropLast_concat_getLast (by simp)).symm⟩
        rw [hz, show done1 ++ x1 :: (zs ++ [z]) = (done1 ++ x1 :: zs) ++ [z] by simp] at hextM
        obtain ⟨rfl, -⟩ := List.append_inj' hextM rfl
        exact ⟨x1, zs ++ x :: later, by rw [hsegs, hext]; simp, hxfM, hxlM⟩
    refine ⟨gs, c, rest, packetsOf os1, i, hmore, hlo', h2, h3, h4, h5, h6, h7, hone, by rw [← h9]; simp [packetsOf], hbegun, ?_⟩
    cases later1 with
    | nil =>
      obtain ⟨rfl, hx⟩ := List.append_inj' hextM rfl
      obtain ⟨rfl, -⟩ := List.cons.inj hx
      exact begun_count i1 (gs ++ [c]) (hsegs.trans hext) (hxf.trans hxfM) (Nat.le_trans hxlM hxl) i hbegun
    | cons y ys =>
      obtain ⟨zs, z, hz⟩ : ∃ zs z, y :: ys = zs ++ [z] := ⟨_, _, (List.dropLast_concat_getLast (by simp)).symm⟩
      rw [hz, show done1 ++ x1 :: (zs ++ [z]) = (done1 ++ x1 :: zs) ++ [z] by simp] at hextM
      obtain ⟨rfl, -⟩ := List.append_inj' hextM rfl
      exact begun_count i1 (gs ++ [c]) (by rw [hsegs, hext]; simp; rfl) hxfM hxlM i hbegun
  · -- never in step
    obtain ⟨done, cur, x, later, i2, hext, hxf, hxl⟩ := i1.run_extends more hops h ht
    obtain ⟨gs, c, rest, hdone, hcur, h2, h3, h4, h5, h6, h7, h8⟩ := inv_parts i2 hstart hv
    have hsegs : (gs ++ [c]).map (·.1) = done ++ [cur] := by
      rw [List.map_append, hdone, List.map_cons, List.map_nil, hcur]
    have hbegun : ∀ m, m + 2 = gs.length + 1 →
        (((gs ++ [c]).take m).flatMap fun g => g.1.outs).length < h1.out.length := by
      intro m hmi
      refine Classical.byContradiction fun hx => ?_
      obtain ⟨pre, g, rfl⟩ : ∃ pre g, gs = pre ++ [g] := by
        refine ⟨gs.dropLast, gs.getLast (by rintro rfl; simp at hmi), (List.dropLast_concat_getLast _).symm⟩
      have hpl : pre.length = m := by simp at hmi; omega
      have htake : (pre ++ [g] ++ [c]).take m = pre := by
        rw [List.append_assoc, List.take_append_of_le_length (by omega), List.take_of_length_le (by omega)]
      rw [htake] at hx
      have hg : g ∈ pre ++ [g] ++ [c] := by simp
      have hc : c ∈ pre ++ [g] ++ [c] := by simp
      obtain ⟨u, v, lu, ou, h12, h13, h14, -⟩ := begun_fresh hP pre [] g c (h3 g hg).1 (h4 g (by simp)).halves
        (h3 g hg).2.1 (h3 c hc).1 (fun hx => by have := (h8 hx).2.1; simp at this) h1.out.length
        (c.1.outs.length + 1) (by omega) (by omega) seen before ts (by
          rw [show pre ++ [g, c] = pre ++ [g] ++ [c] by simp, ← h2, List.take_of_length_le (by
            have := congrArg List.length h2
            rw [List.flatMap_append, List.length_append] at this
            simp only [List.length_drop, List.flatMap_cons, List.flatMap_nil, List.append_nil] at this ⊢
            omega)]
          exact hm) hl hrun
      exact hnever u v lu ou h12 h13 h14
    have hweak : ∀ g : Segment, g.Ok (fun c => ValidConfig c ∧ c.invert = inv) → g.Ok ValidConfig := fun g hg =>
      ⟨hg.halves_le, fun i o hi => (hg.halves_eq i o hi).imp fun c hx => hx.imp fun d hy => ⟨hy.1.1, hy.2⟩,
        hg.cut_le, hg.cut_after, fun i o hi => (hg.cut_eq i o hi).imp fun c hx => ⟨hx.1.1, hx.2⟩⟩
    refine ⟨gs, c, rest, [], gs.length + 1, ⟨x, later, hsegs.trans hext, hxf, hxl⟩, fun m g hg _ _ => by
      obtain ⟨hx, -⟩ := List.getElem?_eq_some_iff.mp hg
      simpa using hx, h2, fun g hg => ⟨hweak _ (h3 g hg).1, (h3 g hg).2.2⟩,
      fun g hg => ⟨(h4 g hg).halves, (h4 g hg).cut.imp id fun hx => hx.imp fun c hy => ⟨hy.1.1, hy.2⟩⟩, h5, h6, h7,
      by simp, ?_, hbegun, begun_count i1 (gs ++ [c]) (hsegs.trans hext) hxf hxl _ hbegun⟩
    rw [hno, List.drop_eq_nil_of_le]
    · rfl
    · split <;> simp

/-- What a receiver in any state makes of the signal from some call of `transmit` on: at most one packet that comes from
before, and all packets sent but those that had begun and one more. -/
theorem station_recover (n : Nat) (cfg : TxConfig) (txOps more : List TxOp) (h1 h : TxHist)
    (ht1 : ({ s := {} } : TxHist).run n (.init cfg :: txOps) = .ok h1) (ht : h1.run n more = .ok h)
    (hinv : ∀ c, .init c ∈ txOps ++ more → c.invert = cfg.invert) (hv : ∀ a ∈ h.acc, ValidPacket a.2)
    (seen : Bool) (before ts : List Nat)
    (hm : Measured (crossings none seen before (h.out.drop h1.out.length)) ts) (l l' : Link) (os : List LinkOut)
    (hl : LinkInv l) (hrun : l.run ts = .ok (l', os)) :
    ∃ (gs : List (Segment × Packet)) (c : Segment × Packet) (rest odd : List Packet) (i : Nat),
      h.out = (gs ++ [c]).flatMap (fun g => g.1.outs) ∧
      (∀ g ∈ gs ++ [c], g.1.Ok ValidConfig ∧
        ((g.1.frame = none ∧ g.2 = [0xFF#8, 0x00#8, 0xFF#8]) ∨
          ∃ c, (c, g.2) ∈ h.acc ∧ g.1.frame = some (packetWave c g.2))) ∧
      (∀ g ∈ gs, g.1.Complete ValidConfig) ∧
      h.acc.map (·.2) = ((gs ++ [c]).filter (·.1.frame.isSome)).map (·.2) ++ rest ∧
      rest.length = h.s.size n ∧ c.1.cut.length = h.s.bidiCount ∧
      odd.length ≤ 1 ∧
      packetsOf os = odd ++ (gs.map (·.2) ++ if c.1.cut.isEmpty then [] else [c.2]).drop i ∧
      (∀ m, m + 2 = i → (((gs ++ [c]).take m).flatMap fun g => g.1.outs).length < h1.out.length) ∧
      (((gs ++ [c]).take (i - 1)).filter (·.1.frame.isSome)).length + h1.s.size n ≤ h1.acc.length := by
  obtain ⟨⟨done1, cur1, i1⟩, -⟩ := station_inv n cfg txOps h1 ht1 fun c hx => hinv c (List.mem_append_left _ hx)
  have hall := TxHist.run_append (.init cfg :: txOps) more ht1
  rw [ht, List.cons_append] at hall
  have hvc := run_init_valid _ hall
  obtain ⟨-, hstart⟩ := station_inv n cfg _ h hall hinv
  obtain ⟨gs, c, rest, odd, i, -, -, hp⟩ := inv_recover i1 more ht
    (fun c hx => ⟨hvc c (by simp [hx]), hinv c (by simp [hx])⟩) hstart hv seen before ts hm l l' os hl hrun
  exact ⟨gs, c, rest, odd, i, hp⟩

end Dcc
