import Verif.Lemmas.RxAttend
import Verif.Lemmas.RxGuest
import Verif.Spec.Visit
/-! Decoders that log on, with a program that attends to the track. -/
namespace Dcc
open Spec

/-- The half bit that completes a packet. -/
theorem step_completes {l l' : Link} {t : Nat} {p : Packet} (h : l.step t = .ok (l', some (.packet p))) :
    l.state = .endbit ∧ l.isHalfbit = true ∧ (52 ≤ t ∧ t ≤ 64) ∧ l.packet = p := by
  have key : ∀ (m : Link) v, m.bit v = .ok (l', some (.packet p)) → m.state = .endbit ∧ v = true ∧ m.packet = p := by
    intro m v h
    unfold Link.bit at h
    split at h
    · repeat' split at h
      all_goals cases h
    · cases h
    · dsimp only at h
      repeat' split at h
      all_goals cases h
    · rename_i hst
      split at h
      · cases h
      · rename_i hv
        split at h
        · cases h; exact ⟨hst, by simpa using hv, rfl⟩
        · cases h
  unfold Link.step at h
  dsimp only at h
  split at h
  · cases h
  · rename_i b hb
    split at h
    · cases h
    · rename_i hh
      obtain ⟨h1, h2, h3⟩ := key _ _ h
      have h4 : time2bit t = .b1 := of_decide_eq_true h2
      have h5 : 52 ≤ t ∧ t ≤ 64 := by
        unfold time2bit at h4
        split at h4
        · assumption
        · split at h4 <;> cases h4
      by_cases hs : l.state.halves = true
      · rw [if_pos hs] at h1 h3
        rw [hs] at hh
        exact ⟨h1, by simpa using hh, h5, h3⟩
      · rw [if_neg hs] at h1
        have h1 : l.state = .endbit := h1
        rw [h1] at hs
        exact absurd rfl hs

/-- Where the decoder is with the packet it got last: the channels still to be called, the packet to be executed,
the answer and what of it has been sent in channel 1. -/
structure Visit (e : Env) (s0 : Rx) (g : Guest) (s : Rx) (due : Nat) (pend : Option (Packet × Item))
    (reply : Option Reply) (half : List Byte) : Prop where
  guest : GuestIs s0 g s
  mode : s.serviceMode = false
  deque : s.deque = (pend.map (·.1)).toList
  legal : ∀ p i, pend = some (p, i) → i.Legal ∧ i.packet = .ok p
  bound : due ≤ 2
  ends : due ≠ 0 → s.packetEnd = true
  none : due = 0 → s.q.logon = []
  both : due = 2 → AnswerIs e s0 s.q.logon reply
  second : due = 1 → reply = .none ∧ s.q.logon = [] ∧ half = [] ∨
    ∃ r m, reply = some r ∧ s.q.logon = [m] ∧ Spec.Carries m (r.word e s0) ∧ half = m.take 2
  kind : due ≠ 0 → s.addrs.received.type = .automaticLogon ∨
    reply = .none ∧ cutout s ≠ .logon ∧ 3 ≤ s.link.packet.length

/-- A packet that is none of automatic logon has another cutout. -/
theorem not_logon_cutout {p : Packet} (h3 : 3 ≤ p.length) (hlog : isLogon p = false) {x : Rx}
    (hx : x.addrs.received = addrOf p) : cutout x ≠ .logon := by
  have hty : (addrOf p).type ≠ .automaticLogon := by
    obtain ⟨a, ha, hb⟩ := decodeAddress_three p h3
    rw [addrOf_ok ha]
    intro hc
    have := hb.mp hc
    rw [hlog] at this
    cases this
  unfold cutout
  rw [hx]
  cases ht : (addrOf p).type <;> dsimp only <;> first
    | exact absurd ht hty
    | (intro h; cases h)
    | (repeat' split) <;> (intro h; cases h)

section Steps
variable {e : Env} {s0 : Rx} {g : Guest} {s : Rx} {due : Nat} {pend : Option (Packet × Item)} {reply : Option Reply}
  {half : List Byte}

private theorem same_trace {x y : Rx} (h : y.trace = x.trace) : drivingCalls x y = [] := by
  unfold drivingCalls newCalls
  rw [h]; simp

/-- A half bit that completes no packet. -/
theorem visit_receive (hroom : 2 ≤ e.rxDeque) (hr : Reachable e s) (hv : Visit e s0 g s due pend reply half)
    (h0 : due = 0) {t r : Nat} {l : Link} {o : Option LinkOut} (hl : s.link.step t = .ok (l, o))
    (hno : ∀ p, o ≠ some (.packet p)) :
    ∃ s', s.step e (.receive t r) = .ok s' ∧ Visit e s0 g s' 0 pend none half ∧ s'.link = l ∧ s'.packetEnd = false ∧
      s.trace <+: s'.trace ∧ drivingCalls s s' = [] := by
  have hlen : s.deque.length < e.rxDeque := by
    rw [hv.deque]
    cases pend <;> simp <;> omega
  obtain ⟨s', h⟩ := receive_total e s t r l o hl (fun p hp => absurd hp (hno p)) hlen
  obtain ⟨o', g1, g2⟩ := receive_spec e s s' t r h hlen
  rw [hl] at g1
  cases g1
  obtain ⟨-, -, g4⟩ := hr.recvInv.link.step hl
  have hpe : s'.packetEnd = false := by
    refine Bool.eq_false_iff.mpr fun hp => ?_
    obtain ⟨p, hp⟩ := g4 hp
    exact hno p hp
  subst h0
  have key : s'.trace = s.trace ∧ s'.deque = s.deque ∧ s'.cfg = s.cfg ∧ s'.addrs.primary = s.addrs.primary ∧
      s'.addrs.consist = s.addrs.consist ∧ s'.addrs.logon = s.addrs.logon ∧ s'.logon = s.logon ∧ s'.q = s.q ∧
      s'.mode = s.mode := by
    rcases o with _ | (_ | p | _)
    · have g2 : s' = { s with link := s'.link } := g2
      rw [g2]; simp
    · have g2 : s' = { s with link := s'.link, preambleCount := s.preambleCount + 1 } := g2
      rw [g2]; simp
    · exact absurd rfl (hno p)
    · have g2 : s' = { s with link := s'.link, addrs := { s.addrs with received := s.addrs.received.assignValue 0#16 } } := g2
      rw [g2]; simp
  obtain ⟨k1, k2, k3, k4, k5, k6, k7, k8, k9⟩ := key
  refine ⟨s', h, ⟨hv.guest.congr k3 k4 k5 k6 k7 (fun _ => by rw [k1]), ?_, k2.trans hv.deque, hv.legal,
    by omega, fun h => absurd rfl h, fun _ => by rw [k8]; exact hv.none rfl, nofun, nofun, fun h => absurd rfl h⟩, rfl, hpe,
    by rw [k1]; exact List.prefix_rfl, same_trace k1⟩
  unfold Rx.serviceMode
  rw [k9]; exact hv.mode

/-- A packet that is none of automatic logon is complete. -/
theorem visit_packet (hroom : 2 ≤ e.rxDeque) (hr : Reachable e s) (hv : Visit e s0 g s due pend reply half)
    (h0 : due = 0) (hq : s.packetEnd = true ∨ s.deque = []) {t r : Nat} {l : Link} {p : Packet}
    (hl : s.link.step t = .ok (l, some (.packet p))) (i : Item) (hi : i.Legal) (hip : i.packet = .ok p)
    (hlog : isLogon p = false) :
    pend = none ∧ ∃ s', s.step e (.receive t r) = .ok s' ∧ Visit e s0 g s' 2 (some (p, i)) none half ∧ s'.link = l ∧
      s'.packetEnd = true ∧ s.trace <+: s'.trace ∧ drivingCalls s s' = [] := by
  have hd : s.deque = [] := by
    rcases hq with h | h
    · have := preamble_no_packet s.link _ _ _ (hr.recvInv.link.pend h).1 hl
      cases this
    · exact h
  have hpn : pend = none := by
    cases pend with
    | none => rfl
    | some x => rw [hv.deque] at hd; cases hd
  have hlen : s.deque.length < e.rxDeque := by rw [hd]; show 0 < _; omega
  obtain ⟨s', h⟩ := receive_total e s t r l _ hl (fun q hp => by cases hp; exact hlog) hlen
  obtain ⟨o', g1, g2⟩ := receive_spec e s s' t r h hlen
  rw [hl] at g1
  cases g1
  obtain ⟨-, g3, -⟩ := hr.recvInv.link.step hl
  obtain ⟨hvp, b, hb⟩ := g3 p rfl
  obtain ⟨a, q2, q3⟩ := g2
  rw [if_neg (by simp [hlog])] at q3
  subst h0
  have hpe : s'.packetEnd = true := by show s'.link.packetEnd = true; rw [hb]; rfl
  have hlp : s'.link.packet = p := by rw [hb]; rfl
  refine ⟨hpn, s', h, ⟨hv.guest.congr (by rw [q3]) (by rw [q3]) (by rw [q3]) (by rw [q3]) (by rw [q3])
    (fun _ => by rw [q3]), ?_, by rw [q3, hd]; rfl, ?_, by omega, fun _ => hpe, nofun, fun _ => ?_, nofun,
    fun _ => .inr ⟨rfl, not_logon_cutout hvp.min hlog (by rw [q3, addrOf_ok q2]), by rw [hlp]; exact hvp.min⟩⟩, rfl, hpe,
    by rw [q3]; exact List.prefix_rfl, same_trace (by rw [q3])⟩
  · rw [q3]; exact hv.mode
  · rintro p' i' h
    cases h
    exact ⟨hi, hip⟩
  · show s'.q.logon = []
    rw [q3]; exact hv.none rfl

/-- A logon packet is complete. -/
theorem visit_logon {g' : Guest} {reply' : Option Reply} (hroom : 2 ≤ e.rxDeque) (hr : Reachable e s)
    (hv : Visit e s0 g s due pend reply half)
    (h0 : due = 0) (hq : s.packetEnd = true ∨ s.deque = []) {t r : Nat} {l : Link} {b : Byte} {bs : List Byte}
    (hl : s.link.step t = .ok (l, some (.packet (254#8 :: b :: bs)))) (ha : logonAccepted (254#8 :: b :: bs))
    (hx : ∀ x : Rx, GuestIs s0 g x → x.q.logon = [] → ∃ y,
      x.executeAutomaticLogon e logonAddr (b :: bs) r = .ok y ∧ GuestIs s0 g' y ∧
        AnswerIs e s0 y.q.logon reply' ∧ LogonKeeps x y) :
    pend = none ∧ ∃ s', s.step e (.receive t r) = .ok s' ∧ Visit e s0 g' s' 2 none reply' half ∧ s'.link = l ∧
      s'.packetEnd = true ∧ s.trace <+: s'.trace ∧ drivingCalls s s' = [] := by
  have hd : s.deque = [] := by
    rcases hq with h | h
    · have := preamble_no_packet s.link _ _ _ (hr.recvInv.link.pend h).1 hl
      cases this
    · exact h
  have hpn : pend = none := by
    cases pend with
    | none => rfl
    | some x => rw [hv.deque] at hd; cases hd
  have hlen : s.deque.length < e.rxDeque := by rw [hd]; show 0 < _; omega
  obtain ⟨c1, c2, c3, c4⟩ := step_completes hl
  obtain ⟨l1, -, h1⟩ := receive_completes e s t r ⟨c1, c2, c3, hlen⟩ hr b bs c4 (by rw [c4]; exact ha)
  subst h0
  obtain ⟨y, h2, h3, h4, h5⟩ := hx (s.atLogon l1 logonAddr) (hv.guest.congr rfl rfl rfl rfl rfl fun _ => rfl) (hv.none rfl)
  have h1 : s.receive e t r = ((s.atLogon l1 logonAddr).executeAutomaticLogon e logonAddr (b :: bs) r).map Rx.reset := h1
  rw [h2] at h1
  have h : s.receive e t r = .ok y.reset := h1
  obtain ⟨o', g1, -⟩ := receive_spec e s _ t r h hlen
  rw [hl] at g1
  cases g1
  obtain ⟨-, g3, -⟩ := hr.recvInv.link.step hl
  obtain ⟨hvp, b', hb⟩ := g3 _ rfl
  have hpe : y.reset.packetEnd = true := by show y.reset.link.packetEnd = true; rw [hb]; rfl
  obtain ⟨evs, htr, hev⟩ := h5.trace
  have htr : y.reset.trace = s.trace ++ evs := htr
  refine ⟨hpn, y.reset, h, ⟨h3.congr rfl rfl rfl rfl rfl fun _ => rfl, ?_, h5.deque.trans hd, nofun, by omega, fun _ => hpe,
    nofun, fun _ => h4, nofun, fun _ => .inl (congrArg Address.type h5.received)⟩, rfl, hpe,
    by rw [htr]; exact List.prefix_append _ _,
    driving_nil ⟨evs, htr, hev⟩ (fun ev h => driving_cv ev (Event.isCv_of_quiet h))⟩
  have : y.reset.mode = s.mode := h5.mode
  unfold Rx.serviceMode
  rw [this]; exact hv.mode

private theorem only_bidi {x y : Rx} {evs : List Event} (h : y.trace = x.trace ++ evs)
    (hev : ∀ ev ∈ evs, ∃ bs, ev = .transmitBiDi bs) :
    x.trace <+: y.trace ∧ drivingCalls x y = [] ∧ ∀ m, mem m y.trace = mem m x.trace :=
  ⟨by rw [h]; exact List.prefix_append _ _,
    driving_nil (P := fun ev => ∃ bs, ev = .transmitBiDi bs) ⟨evs, h, hev⟩ (by rintro _ ⟨_, rfl⟩; rfl),
    fun m => by rw [h]; exact mem_append_quiet _ _ _ fun ev hx => by obtain ⟨_, rfl⟩ := hev ev hx; rfl⟩

/-- Channel 1. -/
theorem visit_channel1 (hv : Visit e s0 g s due pend reply half) (h2 : due = 2) :
    ∃ s', s.step e .biDiChannel1 = .ok s' ∧ Visit e s0 g s' 1 pend reply (heardIn s s') ∧ s'.link = s.link ∧
      s.trace <+: s'.trace ∧ drivingCalls s s' = [] := by
  subst h2
  obtain ⟨q1, evs, k1, k2⟩ := channel1_adds s
  refine ⟨s.biDiChannel1, rfl, ?_⟩
  have fin : ∀ s' : Rx, s' = { s with q := { s.q with adr := q1 }, trace := s.trace ++ evs } →
      (reply = none ∧ s'.q.logon = [] ∧ heardIn s s' = [] ∨
        ∃ r m, reply = some r ∧ s'.q.logon = [m] ∧ Spec.Carries m (r.word e s0) ∧ heardIn s s' = m.take 2) →
      Visit e s0 g s' 1 pend reply (heardIn s s') ∧ s'.link = s.link ∧ s.trace <+: s'.trace ∧ drivingCalls s s' = [] := by
    rintro s' h hs
    obtain ⟨t1, t2, t3⟩ := only_bidi (x := s) (y := s') (by rw [h]) k2
    refine ⟨⟨hv.guest.congr (by rw [h]) (by rw [h]) (by rw [h]) (by rw [h]) (by rw [h]) t3, by rw [h]; exact hv.mode,
      by rw [h]; exact hv.deque, hv.legal, by omega, fun _ => ?_, nofun, nofun, fun _ => hs, fun _ => ?_⟩, by rw [h], t1, t2⟩
    · rw [h]; exact hv.ends (by omega)
    · have : cutout s' = cutout s := by rw [h]; rfl
      rw [this, h]; exact hv.kind (by omega)
  refine fin _ k1 ?_
  have hboth := hv.both rfl
  rcases hv.kind (by omega) with ht | ⟨rfl, hc, -⟩
  · have hcut : cutout s = .logon := by unfold cutout; rw [ht]
    cases reply with
    | none =>
      have hq : s.q.logon = [] := hboth
      have c1 : s.biDiChannel1 = s := by
        rw [Rx.biDiChannel1, ht]
        dsimp only
        rw [Rx.appLogon1, hq]
      rw [c1]
      refine .inl ⟨rfl, hq, ?_⟩
      unfold heardIn newCalls
      simp [transmitted]
    | some r =>
      obtain ⟨m, hq, hm⟩ := hboth
      have c1 : s.biDiChannel1 = s.emit (.transmitBiDi (m.take 2)) := by
        rw [Rx.biDiChannel1, ht]
        dsimp only
        rw [Rx.appLogon1, hq]
      rw [c1]
      refine .inr ⟨r, m, rfl, hq, hm, ?_⟩
      unfold heardIn
      rw [if_pos hcut, newCalls_append (s := s) (evs := [.transmitBiDi (m.take 2)]) rfl]
      simp [transmitted]
  · refine .inl ⟨rfl, by rw [k1]; exact hboth, ?_⟩
    unfold heardIn
    rw [if_neg hc]

/-- Channel 2. -/
theorem visit_channel2 (hv : Visit e s0 g s due pend reply half) (h1 : due = 1) :
    ∃ s', s.step e .biDiChannel2 = .ok s' ∧ Visit e s0 g s' 0 pend none [] ∧ s'.link = s.link ∧
      s.trace <+: s'.trace ∧ drivingCalls s s' = [] ∧
      inCutout (half ++ heardIn s s') = some (reply.map (Reply.word e s0)) := by
  subst h1
  have fin : ∀ s' : Rx, s.biDiChannel2 = .ok s' → s'.q.logon = [] →
      inCutout (half ++ heardIn s s') = some (reply.map (Reply.word e s0)) →
      ∃ s', s.step e .biDiChannel2 = .ok s' ∧ Visit e s0 g s' 0 pend none [] ∧ s'.link = s.link ∧
      s.trace <+: s'.trace ∧ drivingCalls s s' = [] ∧
      inCutout (half ++ heardIn s s') = some (reply.map (Reply.word e s0)) := by
    intro s' hs hq hi
    obtain ⟨q, evs, h, k2⟩ := (channel2_adds s).out _ hs
    obtain ⟨t1, t2, t3⟩ := only_bidi (x := s) (y := s') (by rw [h]) k2
    exact ⟨s', hs, ⟨hv.guest.congr (by rw [h]) (by rw [h]) (by rw [h]) (by rw [h]) (by rw [h]) t3, by rw [h]; exact hv.mode,
      by rw [h]; exact hv.deque, hv.legal, by omega, fun h => absurd rfl h, fun _ => hq, nofun, nofun,
      fun h => absurd rfl h⟩, by rw [h], t1, t2, hi⟩
  rcases hv.kind (by omega) with ht | ⟨rfl, hc, h3⟩
  · have hcut : cutout s = .logon := by unfold cutout; rw [ht]
    rcases hv.second rfl with ⟨rfl, hq, rfl⟩ | ⟨r, m, rfl, hq, hm, rfl⟩
    · have c2 : s.biDiChannel2 = .ok s := by
        rw [Rx.biDiChannel2, ht]
        dsimp only
        rw [Rx.appLogon2, hq]
      refine fin s c2 hq ?_
      unfold heardIn newCalls
      simp [transmitted, inCutout]
    · have c2 : s.biDiChannel2 = .ok (Rx.emit { s with q := { s.q with logon := [] } } (.transmitBiDi (m.drop 2))) := by
        rw [Rx.biDiChannel2, ht]
        dsimp only
        rw [Rx.appLogon2, hq]
      refine fin _ c2 rfl ?_
      unfold heardIn
      rw [if_pos hcut, newCalls_append (s := s) (evs := [.transmitBiDi (m.drop 2)]) rfl]
      have : (transmitted [Event.transmitBiDi (m.drop 2)]).flatten = m.drop 2 := by simp [transmitted]
      rw [this, List.take_append_drop]
      exact inCutout_carries hm
  · obtain ⟨s', hs⟩ := channel2_total s h3
    obtain ⟨hq, rfl⟩ : s.q.logon = [] ∧ half = [] := by
      rcases hv.second rfl with ⟨-, h, h'⟩ | ⟨r, m, h, -⟩
      · exact ⟨h, h'⟩
      · cases h
    refine fin s' hs ?_ ?_
    · obtain ⟨-, -, -, h | ⟨-, h, -⟩⟩ := other_logon e s s' .biDiChannel2 hs rfl
      · exact h.trans hq
      · exact absurd h hc
    · unfold heardIn
      rw [if_neg hc]
      simp [inCutout]

/-- What is still to be done for the packet to be executed. -/
def pendCalls (s0 : Rx) (g : Guest) : Option (Packet × Item) → List Event
  | some (_, some c) => g.calls s0 (.drive c)
  | _ => []

/-- `execute`. -/
theorem visit_execute (hv : Visit e s0 g s due pend reply half) (now : Int) (rand : Nat) :
    ∃ s' pend', s.step e (.execute now rand) = .ok s' ∧ Visit e s0 g s' due pend' reply half ∧ s'.link = s.link ∧
      s.trace <+: s'.trace ∧ drivingCalls s s' ++ pendCalls s0 g pend' = pendCalls s0 g pend := by
  by_cases hno : s.packetEnd = true ∨ s.deque = []
  · refine ⟨s, pend, ?_, hv, rfl, List.prefix_rfl, by rw [same_trace rfl]; rfl⟩
    show (Rx.execute e s now rand >>= _) = _
    rw [execute_front_none e s now rand hno, ok_bind]
    rfl
  · have hpe : s.packetEnd = false := by
      cases h : s.packetEnd with
      | true => exact absurd (.inl h) hno
      | false => rfl
    have h0 : due = 0 := by
      refine Decidable.byContradiction fun h => ?_
      rw [hv.ends h] at hpe
      cases hpe
    subst h0
    obtain _ | ⟨p, i⟩ := pend
    · exact absurd (.inr hv.deque) hno
    have hd : s.deque = [p] := hv.deque
    obtain ⟨hi, hip⟩ := hv.legal p i rfl
    have fr : front s = some p := by unfold front; rw [hpe, hd]; rfl
    obtain ⟨ret, h5⟩ := item_executes e s now rand i hi p hip fr hv.mode
    have f := (prepare_total e s now).2
    obtain ⟨evs, t5, hst⟩ := prepared_trace e s now
    have hg := hv.guest
    generalize hs5 : ({ s.prepared e now with trace := (s.prepared e now).trace ++ i.calls s } : Rx).popFront = s5 at h5
    have hic : (i.calls s).filter Event.isDriving = i.calls s := by
      cases i with
      | none => rfl
      | some c => exact calls_driving s c
    have hz : ∀ ev ∈ i.calls s, ev.stores = false := by
      intro ev hev
      rw [← hic] at hev
      have := (List.mem_filter.mp hev).2
      cases ev <;> first | rfl | cases this
    have t6 : s5.trace = s.trace ++ (evs ++ i.calls s) := by
      rw [← hs5]
      show (s.prepared e now).trace ++ i.calls s = _
      rw [t5, List.append_assoc]
    refine ⟨s5, none, ?_, ⟨?_, ?_, ?_, nofun, by omega, fun h => absurd rfl h, fun _ => ?_, nofun, nofun,
      fun h => absurd rfl h⟩, ?_, by rw [t6]; exact List.prefix_append _ _, ?_⟩
    · show (Rx.execute e s now rand >>= _) = _
      rw [h5, ok_bind]
      rfl
    · rw [← hs5]
      have fa := f.addrs
      refine ⟨f.cfg.trans hg.cfg, ?_, ?_, ?_, ?_, f.selected.trans hg.selected, f.assigned.trans hg.assigned,
        ?_, hg.order, ?_, ?_, ?_, ?_⟩
      · show (s.prepared e now).cfg.did = _
        rw [f.cfg]; exact hg.uid
      · show (s.prepared e now).cfg.logonEnabled = _
        rw [f.cfg]; exact hg.enabled
      · show (s.prepared e now).addrs.primary = _
        rw [fa]; exact hg.primary
      · show (s.prepared e now).addrs.consist.reversed = _
        rw [fa]; exact hg.reversed
      · show PauseIs g.pause (s.prepared e now).logon.backoff
        rw [f.backoff]; exact hg.pause
      · intro hn
        show (s.prepared e now).addrs.logon = _ ∧ (s.prepared e now).addrs.consist = _ ∧
          (s.prepared e now).logon.store = _ ∧ (s.prepared e now).logon.cidFront = _ ∧
          (s.prepared e now).logon.sessionFront = _ ∧ _
        have hb := hg.before hn
        rw [fa, (f.noStore hb.2.2.1).2]; exact hb
      · intro n hn
        show (s.prepared e now).addrs.logon.value = _ ∧ (s.prepared e now).addrs.logon.type.isLoco = true ∧ _
        rw [fa]; exact hg.later n hn
      · intro c k hck
        show (s.prepared e now).logon.cidBack = c ∧ (s.prepared e now).logon.sessionBack = k
        rw [f.cidBack, f.sessionBack]; exact hg.station c k hck
      · intro n c k hn hck
        refine .inr fun m => ?_
        show StoredLogon (mem m ((s.prepared e now).trace ++ i.calls s)) _ _ _
        rw [mem_append_quiet _ _ _ hz]
        cases hst : s.logon.store with
        | false =>
          rw [(f.noStore hst).1]
          rcases hg.kept n c k hn hck with h | h
          · rw [hst] at h; cases h
          · exact h m
        | true =>
          have := prepared_mem e s now m hst
          obtain ⟨h1, -, h2, h3⟩ := hg.later n hn
          obtain ⟨h4, h5⟩ := hg.station c k hck
          rw [h1, h4, h5, BitVec.toNat_ofNat, Nat.mod_eq_of_lt (by omega)] at this
          exact this
    · rw [← hs5]
      show (s.prepared e now).serviceMode = false
      have := hv.mode
      unfold Rx.serviceMode at this ⊢
      rw [f.mode]; exact this
    · rw [← hs5]
      show (s.prepared e now).deque.drop 1 = []
      rw [f.deque, hd]; rfl
    · rw [← hs5]
      show (s.prepared e now).q.logon = []
      rw [f.qlogon]; exact hv.none rfl
    · rw [← hs5]
      exact f.link
    · have hw : evs.filter Event.isDriving = [] := by
        rw [List.filter_eq_nil_iff]
        intro ev hev
        rw [driving_write ev (hst.writes ev hev)]; exact Bool.false_ne_true
      unfold drivingCalls
      rw [newCalls_append t6, List.filter_append, hw, hic]
      show i.calls s ++ [] = _
      rw [List.append_nil]
      cases i with
      | none => rfl
      | some c => exact guest_calls s0 g s hg c

/-- A packet is complete. -/
theorem visit_item (hroom : 2 ≤ e.rxDeque) (hr : Reachable e s) (hv : Visit e s0 g s due pend reply half)
    (h0 : due = 0) (hq : s.packetEnd = true ∨ s.deque = []) {t r : Nat} {l : Link} {p : Packet}
    (hl : s.link.step t = .ok (l, some (.packet p))) (i : GuestItem)
    (hi : i.Legal s0.logon.cidFront s0.logon.sessionFront) (hip : i.packet = .ok p)
    (hsel : ∀ m u n, i = .assign m u n → u = g.uid → g.selected = true) :
    pend = none ∧ ∃ s' pend', s.step e (.receive t r) = .ok s' ∧
      Visit e s0 (g.hear r i).1 s' 2 pend' (g.hear r i).2 half ∧ pendCalls s0 (g.hear r i).1 pend' = g.calls s0 i ∧
      s'.link = l ∧ s'.packetEnd = true ∧ s.trace <+: s'.trace ∧ drivingCalls s s' = [] := by
  have logon : ∀ {g' reply'}, (pend = none ∧ ∃ s', s.step e (.receive t r) = .ok s' ∧
      Visit e s0 g' s' 2 none reply' half ∧ s'.link = l ∧
      s'.packetEnd = true ∧ s.trace <+: s'.trace ∧ drivingCalls s s' = []) →
      pend = none ∧ ∃ s' pend', s.step e (.receive t r) = .ok s' ∧ Visit e s0 g' s' 2 pend' reply' half ∧
      pendCalls s0 g' pend' = [] ∧ s'.link = l ∧ s'.packetEnd = true ∧ s.trace <+: s'.trace ∧ drivingCalls s s' = [] := by
    rintro g' reply' ⟨h1, s', h2, h3, h4⟩
    exact ⟨h1, s', none, h2, h3, rfl, h4⟩
  cases i with
  | enable group cid session =>
    obtain ⟨b, y, h1, rfl, h2, h3⟩ := enable_packet group cid session
    have hip : makeLogonEnablePacket group cid session = _ := hip
    rw [h1] at hip
    cases hip
    refine logon (visit_logon hroom hr hv h0 hq hl h3 fun x hx hqx => ?_)
    rw [execute_enable]
    exact guest_enable e s0 g x hx hqx group cid session hi r
  | select m u sub =>
    obtain ⟨b, c, y, z, h1, rfl, h2, h3⟩ := select_packet m u sub
    have hip : makeLogonSelectPacket m u sub = _ := hip
    rw [h1] at hip
    cases hip
    refine logon (visit_logon hroom hr hv h0 hq hl h3 fun x hx hqx => ?_)
    rw [execute_select e x m hi]
    exact guest_select e s0 g x hx hqx m u sub r
  | assign m u n =>
    obtain ⟨b, c, y, z, h1, rfl, h2, h3⟩ := assign_packet m u (BitVec.ofNat 16 (0xC000 + n))
    have hip : makeLogonAssignPacket m u (BitVec.ofNat 16 (0xC000 + n)) = _ := hip
    rw [h1] at hip
    cases hip
    refine logon (visit_logon hroom hr hv h0 hq hl h3 fun x hx hqx => ?_)
    rw [execute_assign e x m hi.1 u c y z n hi.2.2]
    exact guest_assign e s0 g x hx hqx m u n hi.2 (hsel m u n rfl) r
  | idle =>
    have hip : Except.ok idleBytes = Except.ok p := hip
    cases hip
    obtain ⟨h1, s', h2, h3, h4⟩ := visit_packet hroom hr hv h0 hq (r := r) hl none (fun c hc => by cases hc) rfl
      (by decide)
    exact ⟨h1, s', _, h2, h3, rfl, h4⟩
  | drive c =>
    have hip : c.packet = .ok p := hip
    obtain ⟨-, -, -, h2⟩ := built_packet c.addr (show c.Legal from hi).1 c.call p hip
    obtain ⟨h1, s', h2, h3, h4⟩ := visit_packet hroom hr hv h0 hq (r := r) hl (some c)
      (fun c' hc => by cases hc; exact hi) hip h2
    exact ⟨h1, s', _, h2, h3, rfl, h4⟩

end Steps

/-- The answer that is still to be heard. -/
def owed (e : Env) (s0 : Rx) (due : Nat) (reply : Option Reply) : List (Option (Option Nat)) :=
  if due = 0 then [] else [some (reply.map (Reply.word e s0))]

/-- A decoder has been selected before it gets an address. -/
theorem selected_next {s0 : Rx} {g : Guest} {s : Rx} (hg : GuestIs s0 g s) (r : Nat) {i : GuestItem}
    {items : List GuestItem} {seen : List (BitVec 32)} (hfirst : SelectedFirst seen (i :: items))
    (hseen : g.uid ∈ seen → g.selected = true) :
    (∀ m u n, i = .assign m u n → u = g.uid → g.selected = true) ∧
    ∃ seen', SelectedFirst seen' items ∧ ((g.hear r i).1.uid ∈ seen' → (g.hear r i).1.selected = true) := by
  have keep : (g.uid ∈ seen → (g.hear r i).1.selected = true) := fun h => hear_selected g _ i (hseen h)
  refine ⟨?_, ?_⟩
  · rintro m u n rfl rfl
    exact hseen hfirst.1
  rw [hear_uid]
  cases i with
  | select m u sub =>
    refine ⟨u :: seen, hfirst, fun h => ?_⟩
    rcases List.mem_cons.mp h with h | h
    · simp only [Guest.hear]
      by_cases hn : g.number = none
      · rw [if_pos ⟨h.symm, hn⟩]
      · rw [if_neg (fun hx => hn hx.2)]; exact hg.order hn
    · exact keep h
  | assign m u n => exact ⟨seen, hfirst.2, keep⟩
  | enable => exact ⟨seen, hfirst, keep⟩
  | idle => exact ⟨seen, hfirst, keep⟩
  | drive => exact ⟨seen, hfirst, keep⟩

/-- A history. -/
theorem visit_run {e : Env} (s0 : Rx) (hroom : 2 ≤ e.rxDeque) (ops : List RxOp) : ∀ (s : Rx) (g : Guest) (due : Nat)
    (pend : Option (Packet × Item)) (reply : Option Reply) (half : List Byte) (items : List GuestItem)
    (seen : List (BitVec 32)) (l : Link) (os : List LinkOut), Reachable e s → Visit e s0 g s due pend reply half →
    visits e due s ops = true → s.link.run (recvTimes ops) = .ok (l, os) →
    items.map GuestItem.packet = (packetsOf os).map .ok →
    (∀ i ∈ items, i.Legal s0.logon.cidFront s0.logon.sessionFront) → SelectedFirst seen items →
    (g.uid ∈ seen → g.selected = true) →
    ∃ s' due' pend' reply' half', s.run e ops = .ok s' ∧
      Visit e s0 (g.after ((drawnAt e s ops).zip items)) s' due' pend' reply' half' ∧ s.trace <+: s'.trace ∧
      (drawnAt e s ops).length = items.length ∧
      drivingCalls s s' ++ pendCalls s0 (g.after ((drawnAt e s ops).zip items)) pend' =
        pendCalls s0 g pend ++ g.allCalls s0 ((drawnAt e s ops).zip items) ∧
      (cuts e half s ops).map inCutout ++ owed e s0 due' reply' = owed e s0 due reply ++
        (g.replies ((drawnAt e s ops).zip items)).map (fun r => some (r.map (Reply.word e s0))) := by
  induction ops with
  | nil =>
    intro s g due pend reply half items seen l os _ hv _ hl hp _ _ _
    have hl : Except.ok (s.link, []) = Except.ok (l, os) := hl
    cases hl
    have hi : items = [] := by
      cases items with
      | nil => rfl
      | cons => cases hp
    subst hi
    exact ⟨s, due, pend, reply, half, rfl, hv, List.prefix_rfl, rfl, by simp [drivingCalls, newCalls, Guest.allCalls, drawnAt]; rfl,
      by simp [cuts, drawnAt, Guest.replies]⟩
  | cons op ops ih =>
    intro s g due pend reply half items seen l os hr hv hvis hl hp hleg hfirst hseen
    rw [visits, Bool.and_eq_true] at hvis
    obtain ⟨hop, hvis⟩ := hvis
    cases op with
    | receive t r =>
      simp only [mayCall, Bool.and_eq_true, beq_iff_eq, Bool.or_eq_true, List.isEmpty_iff] at hop
      obtain ⟨h0, hq⟩ := hop
      have hl : s.link.run (t :: recvTimes ops) = .ok (l, os) := hl
      simp only [Link.run, bind_eq_ok, pure_eq_ok, Except.ok.injEq, Prod.mk.injEq] at hl
      obtain ⟨⟨l1, o⟩, k1, ⟨l2, os2⟩, k2, rfl, rfl⟩ := hl
      have hpk : packetsOf (o.toList ++ os2) = packetsOf o.toList ++ packetsOf os2 := by
        unfold packetsOf; rw [List.filterMap_append]
      dsimp only at hp
      rw [hpk] at hp
      by_cases hpo : ∃ p, o = some (.packet p)
      · obtain ⟨p, rfl⟩ := hpo
        have hp : items.map GuestItem.packet = .ok p :: (packetsOf os2).map .ok := hp
        obtain _ | ⟨i, items⟩ := items
        · cases hp
        simp only [List.map_cons, List.cons.injEq] at hp
        obtain ⟨hp1, hp2⟩ := hp
        obtain ⟨n1, seen', n2, n3⟩ := selected_next hv.guest r hfirst hseen
        obtain ⟨rfl, s1, pend1, w1, w2, w3, w4, w5, w6, w7⟩ := visit_item hroom hr hv h0 hq k1 i (hleg i (.head _)) hp1 n1
        rw [w1] at hvis
        simp only [dueAfter, w5, if_true] at hvis
        rw [← w4] at k2
        obtain ⟨s', due', pend', reply', half', v1, v2, v3, v4, v5, v6⟩ := ih s1 _ 2 pend1 _ half items seen' _ _
          (hr.step _ w1) w2 hvis k2 hp2 (fun i hi => hleg i (.tail _ hi)) n2 n3
        have hdr : drawnAt e s (.receive t r :: ops) = r :: drawnAt e s1 ops := by
          simp only [drawnAt, w1, w5, if_true]; rfl
        rw [hdr]
        simp only [List.zip_cons_cons, Guest.after, Guest.allCalls, Guest.replies]
        refine ⟨s', due', pend', reply', half', by rw [Rx.run, w1]; exact v1, v2, w6.trans v3, by simp [v4], ?_, ?_⟩
        · rw [drivingCalls_trans w6 v3, w7, List.nil_append, v5, w3]
          rfl
        · have : cuts e half s (.receive t r :: ops) = cuts e half s1 ops := by simp only [cuts, w1]
          rw [this, v6, h0]
          rfl
      · have hno : ∀ p, o ≠ some (.packet p) := fun p hp' => hpo ⟨p, hp'⟩
        have hk : packetsOf o.toList = [] := by
          rcases o with _ | (_ | p | _)
          · rfl
          · rfl
          · exact (hno p rfl).elim
          · rfl
        rw [hk, List.nil_append] at hp
        obtain ⟨s1, w1, w2, w4, w5, w6, w7⟩ := visit_receive hroom hr hv h0 (r := r) k1 hno
        rw [w1] at hvis
        simp only [dueAfter, w5, Bool.false_eq_true, if_false] at hvis
        rw [← w4] at k2
        obtain ⟨s', due', pend', reply', half', v1, v2, v3, v4, v5, v6⟩ := ih s1 _ 0 pend _ half items seen _ _
          (hr.step _ w1) w2 hvis k2 hp hleg hfirst hseen
        have hdr : drawnAt e s (.receive t r :: ops) = drawnAt e s1 ops := by
          simp only [drawnAt, w1, w5, Bool.false_eq_true, if_false]; rfl
        rw [hdr]
        refine ⟨s', due', pend', reply', half', by rw [Rx.run, w1]; exact v1, v2, w6.trans v3, v4, ?_, ?_⟩
        · rw [drivingCalls_trans w6 v3, w7, List.nil_append, v5]
        · have : cuts e half s (.receive t r :: ops) = cuts e half s1 ops := by simp only [cuts, w1]
          rw [this, v6, h0]
          rfl
    | biDiChannel1 =>
      simp only [mayCall, beq_iff_eq] at hop
      obtain ⟨s1, w1, w2, w4, w6, w7⟩ := visit_channel1 hv hop
      rw [w1] at hvis
      simp only [dueAfter] at hvis
      have hl : s.link.run (recvTimes ops) = .ok (l, os) := hl
      rw [← w4] at hl
      obtain ⟨s', due', pend', reply', half', v1, v2, v3, v4, v5, v6⟩ := ih s1 _ 1 pend _ _ items seen _ _
        (hr.step _ w1) w2 hvis hl hp hleg hfirst hseen
      have hdr : drawnAt e s (.biDiChannel1 :: ops) = drawnAt e s1 ops := by simp only [drawnAt, w1]; rfl
      rw [hdr]
      refine ⟨s', due', pend', reply', half', by rw [Rx.run, w1]; exact v1, v2, w6.trans v3, v4, ?_, ?_⟩
      · rw [drivingCalls_trans w6 v3, w7, List.nil_append, v5]
      · have : cuts e half s (.biDiChannel1 :: ops) = cuts e (heardIn s s1) s1 ops := by simp only [cuts, w1]
        rw [this, v6, hop]
        rfl
    | biDiChannel2 =>
      simp only [mayCall, beq_iff_eq] at hop
      obtain ⟨s1, w1, w2, w4, w6, w7, w8⟩ := visit_channel2 hv hop
      rw [w1] at hvis
      simp only [dueAfter] at hvis
      have hl : s.link.run (recvTimes ops) = .ok (l, os) := hl
      rw [← w4] at hl
      obtain ⟨s', due', pend', reply', half', v1, v2, v3, v4, v5, v6⟩ := ih s1 _ 0 pend _ _ items seen _ _
        (hr.step _ w1) w2 hvis hl hp hleg hfirst hseen
      have hdr : drawnAt e s (.biDiChannel2 :: ops) = drawnAt e s1 ops := by simp only [drawnAt, w1]; rfl
      rw [hdr]
      refine ⟨s', due', pend', reply', half', by rw [Rx.run, w1]; exact v1, v2, w6.trans v3, v4, ?_, ?_⟩
      · rw [drivingCalls_trans w6 v3, w7, List.nil_append, v5]
      · have : cuts e half s (.biDiChannel2 :: ops) = (half ++ heardIn s s1) :: cuts e [] s1 ops := by simp only [cuts, w1]
        rw [this, List.map_cons, List.cons_append, v6, w8, hop]
        rfl
    | execute now rand =>
      obtain ⟨s1, pend1, w1, w2, w4, w6, w7⟩ := visit_execute hv now rand
      rw [w1] at hvis
      simp only [dueAfter] at hvis
      have hl : s.link.run (recvTimes ops) = .ok (l, os) := hl
      rw [← w4] at hl
      obtain ⟨s', due', pend', reply', half', v1, v2, v3, v4, v5, v6⟩ := ih s1 _ due pend1 _ _ items seen _ _
        (hr.step _ w1) w2 hvis hl hp hleg hfirst hseen
      have hdr : drawnAt e s (.execute now rand :: ops) = drawnAt e s1 ops := by simp only [drawnAt, w1]; rfl
      rw [hdr]
      refine ⟨s', due', pend', reply', half', by rw [Rx.run, w1]; exact v1, v2, w6.trans v3, v4, ?_, ?_⟩
      · rw [drivingCalls_trans w6 v3, List.append_assoc, v5, ← List.append_assoc, w7]
      · have : cuts e half s (.execute now rand :: ops) = cuts e half s1 ops := by simp only [cuts, w1]
        rw [this, v6]
    | _ => cases hop

/-- The program that attends to the track attends to both channels. -/
theorem attending_visits (e : Env) (xs : List (Nat × Nat × Int × Nat)) : ∀ z : Rx,
    Attends e false z (attending e z xs) → visits e 0 z (attending e z xs) = true := by
  induction xs with
  | nil => intro z _; rfl
  | cons x xs ih =>
    intro z h
    have may : ∀ {t r}, (false = false ∧ (z.packetEnd = true ∨ z.deque = [])) → mayCall 0 z (.receive t r) = true := by
      intro t r h
      simp only [mayCall, Bool.and_eq_true, beq_iff_eq, Bool.or_eq_true, List.isEmpty_iff]
      exact ⟨trivial, h.2⟩
    rw [attending] at h ⊢
    split at h
    · rename_i f hz
      have h : (_ ∧ _) ∧ _ := h
      show (mayCall 0 z (.receive x.1 x.2.1) && _) = true
      rw [may h.1, hz]
      rfl
    · rename_i z1 hz1
      dsimp only at h ⊢
      rw [List.cons_append] at h ⊢
      obtain ⟨h1, h2⟩ := h
      rw [hz1] at h2
      rw [visits, may h1, hz1, Bool.true_and]
      dsimp only [dueAfter] at h2 ⊢
      cases hpe : z1.packetEnd with
      | false =>
        simp only [hpe, Bool.false_eq_true, if_false, List.nil_append, List.cons_append, Rx.run] at h2 ⊢
        obtain ⟨-, h3⟩ := h2
        rw [visits]
        simp only [mayCall, Bool.true_and, dueAfter]
        cases h4 : z1.step e (.execute x.2.2.1 x.2.2.2) with
        | error f => rfl
        | ok z2 =>
          rw [h4] at h3
          simp only [ok_bind] at h3 ⊢
          exact ih z2 h3
      | true =>
        simp only [hpe, if_true, List.nil_append, List.cons_append, Rx.run] at h2 ⊢
        obtain ⟨-, h3⟩ := h2
        rw [visits]
        simp only [mayCall, beq_self_eq_true, Bool.true_and, dueAfter]
        cases h4 : z1.step e .biDiChannel1 with
        | error f => rfl
        | ok y1 =>
          rw [h4] at h3
          simp only [ok_bind] at h3 ⊢
          obtain ⟨-, h3⟩ := h3
          rw [visits]
          simp only [mayCall, beq_self_eq_true, Bool.true_and, dueAfter]
          cases h5 : y1.step e .biDiChannel2 with
          | error f => rfl
          | ok y2 =>
            rw [h5] at h3
            simp only [ok_bind] at h3 ⊢
            obtain ⟨-, h3⟩ := h3
            rw [visits]
            simp only [mayCall, Bool.true_and, dueAfter]
            cases h6 : y2.step e (.execute x.2.2.1 x.2.2.2) with
            | error f => rfl
            | ok z2 =>
              rw [h6] at h3
              simp only [ok_bind] at h3 ⊢
              exact ih z2 h3

end Dcc
