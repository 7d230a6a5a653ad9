import Verif.Lemmas.RxDecoderTotal
import Verif.Lemmas.RxSeveral
import Verif.Props.RxFaults
/-! A receiver whose program attends to the track. -/
namespace Dcc
open Spec

theorem link_run_split (xs ys : List Nat) : ∀ (l l' : Link) (os : List LinkOut), l.run (xs ++ ys) = .ok (l', os) →
    ∃ l1 os1 os2, l.run xs = .ok (l1, os1) ∧ l1.run ys = .ok (l', os2) ∧ os = os1 ++ os2 := by
  induction xs with
  | nil => intro l l' os h; exact ⟨l, [], os, rfl, h, rfl⟩
  | cons t xs ih =>
    intro l l' os h
    have h : l.run (t :: (xs ++ ys)) = .ok (l', os) := h
    simp only [Link.run, bind_eq_ok, pure_eq_ok, Except.ok.injEq, Prod.mk.injEq] at h
    obtain ⟨⟨l1, o⟩, h1, ⟨l2, os2⟩, h2, rfl, rfl⟩ := h
    obtain ⟨l3, os3, os4, g1, g2, g3⟩ := ih _ _ _ h2
    refine ⟨l3, o.toList ++ os3, os4, ?_, g2, by rw [List.append_assoc, ← g3]⟩
    simp only [Link.run, h1, ok_bind]
    rw [show l1.run xs = _ from g1]
    rfl

/-- Where a receiver is with the packet it got last: there is none to be executed, channel 2 is due, or it has
been called. -/
inductive At (m : BitVec 32 → Byte) (d : Decoder) (s : Rx) : Bool → Option Packet → Prop
  | idle (h1 : s.deque = []) (h2 : s.packetEnd = false) (h : Is m d s) : At m d s false none
  | due (p : Packet) (h1 : s.deque = [p]) (h2 : s.packetEnd = true) (h3 : s.link.packet = p)
      (h4 : s.addrs.received = addrOf p) (h5 : 3 ≤ p.length) (h : Is m d s) : At m d s true (some p)
  | answered (p : Packet) (h1 : s.deque = [p]) (h : Is m (d.answered p).1 s) : At m d s false (some p)

/-- What has been answered to the packet that is to be executed. -/
def said (d : Decoder) : Bool → Option Packet → List Message
  | false, some p => (d.answered p).2
  | _, _ => []

theorem hearAll_append (ew : Bool) (qs ps : List Packet) : ∀ d : Decoder, d.hearAll ew (ps ++ qs) =
    (d.hearAll ew ps).bind fun x => (x.1.hearAll ew qs).map fun y => (y.1, x.2.1 ++ y.2.1, x.2.2 ++ y.2.2) := by
  induction ps with
  | nil =>
    intro d
    show d.hearAll ew qs = (d.hearAll ew qs).map _
    cases d.hearAll ew qs <;> rfl
  | cons p ps ih =>
    intro d
    show (d.hear ew p).bind _ = ((d.hear ew p).bind _).bind _
    cases d.hear ew p with
    | none => rfl
    | some x =>
      show ((x.1.hearAll ew (ps ++ qs)).map _) = Option.bind ((x.1.hearAll ew ps).map _) _
      rw [ih]
      cases x.1.hearAll ew ps with
      | none => rfl
      | some y =>
        show ((y.1.hearAll ew qs).map _).map _ = (y.1.hearAll ew qs).map _
        cases y.1.hearAll ew qs with
        | none => rfl
        | some w => simp

/-- What happened between two states: packets executed and messages. -/
structure Went (e : Env) (s s' : Rx) (d d' : Decoder) (due due' : Bool) (pend pend' : Option Packet)
    (new done : List Packet) (calls : List Event) (ms msgs : List Message) : Prop where
  packets : pend.toList ++ new = done ++ pend'.toList
  hears : d.hearAll e.eastWest done = some (d', calls, ms)
  trace : s.trace <+: s'.trace
  calls : sessionCalls s s' = calls
  said : said d due pend ++ msgs = ms ++ said d' due' pend'

theorem Went.trans {e : Env} {a b c : Rx} {d d' d'' : Decoder} {due due' due'' : Bool} {pend pend' pend'' : Option Packet}
    {new new' done done' : List Packet} {calls calls' : List Event} {ms ms' msgs msgs' : List Message}
    (h : Went e a b d d' due due' pend pend' new done calls ms msgs)
    (g : Went e b c d' d'' due' due'' pend' pend'' new' done' calls' ms' msgs') :
    Went e a c d d'' due due'' pend pend'' (new ++ new') (done ++ done') (calls ++ calls') (ms ++ ms')
      (msgs ++ msgs') where
  packets := by rw [← List.append_assoc, h.packets, List.append_assoc, g.packets, List.append_assoc]
  hears := by
    rw [hearAll_append, h.hears]
    show (d'.hearAll e.eastWest done').map _ = _
    rw [g.hears]; rfl
  trace := h.trace.trans g.trace
  calls := by rw [sessionCalls_trans h.trace g.trace, h.calls, g.calls]
  said := by rw [← List.append_assoc, h.said, List.append_assoc, g.said, List.append_assoc]

/-- One call. -/
theorem one_step {e : Env} {m : BitVec 32 → Byte} (hm : Memory e m) {s s' : Rx} {d : Decoder} (hr : Reachable e s)
    (hs : Settled m s) (hd : Is m d s) {op : RxOp} (h : s.step e op = .ok s') (ha : s'.logon.assigned = false) :
    ∃ x, d.run e.eastWest (mainStep s op) = some x ∧ Became m s s' (x.1, x.2.1) ∧ Settled m s' ∧
      (sent (inChannel2 .cv) e s [op]).map understood = x.2.2.map some := by
  have := decoder_run hm [op] s s' d hr hs hd ⟨hs.assigned, by rw [h]; exact ha⟩ (by simp only [Rx.run, h]; rfl)
  have hx : mainSteps e s [op] = mainStep s op := by
    unfold mainSteps
    rw [h]
    simp [mainSteps]
  rwa [hx] at this

/-- A half bit. -/
theorem attended_receive {e : Env} {m : BitVec 32 → Byte} (hm : Memory e m) (hroom : 2 ≤ e.rxDeque) {s s' : Rx}
    {d : Decoder} {due : Bool} {pend : Option Packet} (hr : Reachable e s) (hs : Settled m s)
    (hat : At m d s due pend) {t r : Nat} (hdue : due = false) (hq : s.packetEnd = true ∨ s.deque = [])
    (h : s.step e (.receive t r) = .ok s') {l : Link} {o : Option LinkOut} (hl : s.link.step t = .ok (l, o))
    (hn : ∀ p, o = some (.packet p) → isLogon p = false) :
    ∃ pend', Went e s s' d d due s'.packetEnd pend pend' (packetsOf o.toList) [] [] [] [] ∧
      At m d s' s'.packetEnd pend' ∧ Settled m s' ∧ s'.link = l ∧
      (sent (inChannel2 .cv) e s [.receive t r]).map understood = [] := by
  subst hdue
  have hlen : s.deque.length < e.rxDeque := by
    cases hat with
    | idle h1 => rw [h1]; show 0 < _; omega
    | answered p h1 => rw [h1]; show 1 < _; omega
  have ha : s'.logon.assigned = false := by
    rw [unassigned_step hr (by simp) (fun _ => hlen) (by
      intro t' r' l' p h1 h2
      cases h1
      rw [hl] at h2
      cases h2
      exact hn p rfl) h]
    exact hs.assigned
  obtain ⟨o', g1, g2⟩ := receive_spec e s s' t r h hlen
  rw [hl] at g1
  cases g1
  obtain ⟨-, g3, g4⟩ := hr.recvInv.link.step hl
  have hpe : (∀ p, o ≠ some (.packet p)) → s'.packetEnd = false := by
    intro hno
    refine Bool.eq_false_iff.mpr fun hp => ?_
    obtain ⟨p, hp⟩ := g4 hp
    exact hno p hp
  have one : ∀ d0, Is m d0 s → Is m d0 s' ∧ s.trace <+: s'.trace ∧ sessionCalls s s' = [] ∧ Settled m s' ∧
      (sent (inChannel2 .cv) e s [.receive t r]).map understood = [] := by
    intro d0 hd0
    obtain ⟨x, k1, k2, k3, k4⟩ := one_step hm hr hs hd0 h ha
    have k1 : some (d0, [], []) = some x := k1
    cases k1
    exact ⟨k2.is, k2.trace, k2.calls, k3, k4⟩
  cases hat with
  | idle h1 h2 hd =>
    obtain ⟨k1, k2, k3, k4, k5⟩ := one d hd
    by_cases hp : ∃ p, o = some (.packet p)
    · obtain ⟨p, rfl⟩ := hp
      obtain ⟨hv, b, hb⟩ := g3 p rfl
      have hnl := hn p rfl
      have q1 : s'.packetEnd = true := by show s'.link.packetEnd = true; rw [hb]; rfl
      obtain ⟨a, q2, q3⟩ := g2
      rw [if_neg (by simp [hnl])] at q3
      rw [q1]
      refine ⟨some p, ⟨rfl, rfl, k2, k3, rfl⟩, ?_, k4, rfl, k5⟩
      refine .due p (by rw [q3, h1]; rfl) q1 (by rw [hb]; rfl) (by rw [q3, addrOf_ok q2]) hv.min k1
    · have hno : ∀ p, o ≠ some (.packet p) := fun p hp' => hp ⟨p, hp'⟩
      have hk : packetsOf o.toList = [] := by
        rcases o with _ | (_ | p | _)
        · rfl
        · rfl
        · exact (hno p rfl).elim
        · rfl
      rw [hpe hno, hk]
      refine ⟨none, ⟨rfl, rfl, k2, k3, rfl⟩, .idle ?_ (hpe hno) k1, k4, rfl, k5⟩
      rw [g2.deque.2, h1]
      rcases o with _ | (_ | p | _)
      · rfl
      · rfl
      · exact (hno p rfl).elim
      · rfl
  | answered p h1 hd =>
    obtain ⟨k1, k2, k3, k4, k5⟩ := one _ hd
    have hpe0 : s.packetEnd = true := by
      rcases hq with h | h
      · exact h
      · rw [h1] at h; cases h
    have := preamble_no_packet s.link _ _ _ (hr.recvInv.link.pend hpe0).1 hl
    subst this
    rw [hpe nofun]
    refine ⟨some p, ⟨rfl, rfl, k2, k3, by simp⟩, .answered p ?_ k1, k4, rfl, k5⟩
    rw [g2.deque.2, h1]
    rfl

/-- Any other call. -/
theorem attended_other {e : Env} {m : BitVec 32 → Byte} (hm : Memory e m) {s s' : Rx}
    {d : Decoder} {due : Bool} {pend : Option Packet} (hr : Reachable e s) (hs : Settled m s)
    (hat : At m d s due pend) {op : RxOp} (h1 : op.isReceive = false) (h2 : op ≠ .disable)
    (h3 : op = .biDiChannel2 → due = true) (h : s.step e op = .ok s') :
    ∃ d' pend' done calls ms msgs,
      Went e s s' d d' due (if op = .biDiChannel2 then false else due) pend pend' [] done calls ms msgs ∧
      At m d' s' (if op = .biDiChannel2 then false else due) pend' ∧ Settled m s' ∧ s'.link = s.link ∧
      (sent (inChannel2 .cv) e s [op]).map understood = msgs.map some := by
  have hno : ∀ t r, op ≠ .receive t r := by rintro t r rfl; cases h1
  have ha : s'.logon.assigned = false := by
    rw [unassigned_step hr h2 (by rw [h1]; simp) (fun t r _ _ h' => (hno t r h').elim) h]
    exact hs.assigned
  obtain ⟨hl, hdq⟩ := step_other e s s' op h hno h2
  have hrec := kept_received e s s' op h1 h
  have hpe : s'.packetEnd = s.packetEnd := by unfold Rx.packetEnd; rw [hl]
  by_cases hc2 : op = .biDiChannel2
  · subst hc2
    have := h3 rfl
    subst this
    rw [if_pos rfl]
    rw [show (RxOp.isExecute .biDiChannel2 && !s.packetEnd) = false from rfl, if_neg Bool.false_ne_true] at hdq
    cases hat with
    | due p g1 g2 g3 g4 g5 hd =>
      have hc := cutout_asks hs g5 g3 g4
      rw [hd.cvs] at hc
      obtain ⟨x, k1, k2, k3, k4⟩ := one_step hm hr hs hd h ha
      have hx : x = ((d.answered p).1, [], (d.answered p).2) := by
        unfold Decoder.answered
        by_cases ha : asks d.cvs p = true
        · rw [if_pos ha]
          simp only [mainStep, hc.mpr ha, if_true] at k1
          rw [g3] at k1
          have k1 : some ((d.answer p).1, [], (d.answer p).2 ++ []) = some x := k1
          rw [List.append_nil] at k1
          exact (Option.some.inj k1).symm
        · rw [if_neg ha]
          have hc' : cutout s ≠ .cv := fun h => ha (hc.mp h)
          simp only [mainStep, if_neg hc'] at k1
          exact (Option.some.inj k1).symm
      subst hx
      exact ⟨d, some p, [], [], [], (d.answered p).2, ⟨rfl, rfl, k2.trace, k2.calls, rfl⟩,
        .answered p (hdq.trans g1) k2.is, k3, hl, k4⟩
  · rw [if_neg hc2]
    have keep : ∀ d0, Is m d0 s → mainStep s op = [] → Is m d0 s' ∧ s.trace <+: s'.trace ∧ sessionCalls s s' = [] ∧
        Settled m s' ∧ (sent (inChannel2 .cv) e s [op]).map understood = [] := by
      intro d0 hd0 hms
      obtain ⟨x, k1, k2, k3, k4⟩ := one_step hm hr hs hd0 h ha
      rw [hms] at k1
      have k1 : some (d0, [], []) = some x := k1
      cases k1
      exact ⟨k2.is, k2.trace, k2.calls, k3, k4⟩
    by_cases hex : op.isExecute = true ∧ s.packetEnd = false
    · obtain ⟨hex, hpe0⟩ := hex
      cases op <;> try simp [RxOp.isExecute] at hex
      rename_i now rand
      rw [show (RxOp.isExecute (.execute now rand) && !s.packetEnd) = true by rw [hpe0]; rfl, if_pos rfl] at hdq
      cases hat with
      | idle g1 g2 hd =>
        obtain ⟨k1, k2, k3, k4, k5⟩ := keep d hd (by simp only [mainStep, front, hpe0, g1]; rfl)
        refine ⟨d, none, [], [], [], [], ⟨rfl, rfl, k2, k3, rfl⟩, .idle ?_ (hpe.trans g2) k1, k4, hl, k5⟩
        rw [hdq, g1]; rfl
      | due p g1 g2 => rw [hpe0] at g2; cases g2
      | answered p g1 hd =>
        obtain ⟨x, k1, k2, k3, k4⟩ := one_step hm hr hs hd h ha
        have hfr : front s = some p := by unfold front; rw [hpe0, g1]; rfl
        have k1 : (d.answered p).1.run e.eastWest ((front s).toList.map .execute) = some x := k1
        rw [hfr] at k1
        have k1 : (((d.answered p).1.execute e.eastWest p).bind fun x => some (x.1, x.2 ++ [], [])) = some x := k1
        cases hy : (d.answered p).1.execute e.eastWest p with
        | none => rw [hy] at k1; cases k1
        | some y =>
          rw [hy] at k1
          have k1 : some (y.1, y.2 ++ [], []) = some x := k1
          rw [List.append_nil] at k1
          cases k1
          refine ⟨y.1, none, [p], y.2, (d.answered p).2, [], ⟨rfl, ?_, k2.trace, k2.calls, by simp [said]⟩,
            .idle ?_ (hpe.trans hpe0) k2.is, k3, hl, k4⟩
          · show (((d.answered p).1.execute e.eastWest p).map _).bind _ = _
            rw [hy]
            simp [Decoder.hearAll]
          · rw [hdq, g1]; rfl
    · have hdq : s'.deque = s.deque := by
        rw [hdq, if_neg]
        intro hc
        rw [Bool.and_eq_true] at hc
        exact hex ⟨hc.1, by simpa using hc.2⟩
      have hms : mainStep s op = [] := by
        cases op <;> first | rfl | (exact (hc2 rfl).elim) | skip
        rename_i now rand
        have : s.packetEnd = true := by
          cases hp : s.packetEnd with
          | true => rfl
          | false => exact (hex ⟨rfl, hp⟩).elim
        simp only [mainStep, front, this, if_true]
        rfl
      cases hat with
      | idle g1 g2 hd =>
        obtain ⟨k1, k2, k3, k4, k5⟩ := keep d hd hms
        exact ⟨d, none, [], [], [], [], ⟨rfl, rfl, k2, k3, rfl⟩, .idle (hdq.trans g1) (hpe.trans g2) k1, k4, hl, k5⟩
      | due p g1 g2 g3 g4 g5 hd =>
        obtain ⟨k1, k2, k3, k4, k5⟩ := keep d hd hms
        exact ⟨d, some p, [], [], [], [], ⟨rfl, rfl, k2, k3, rfl⟩, .due p (hdq.trans g1) (hpe.trans g2)
          (by rw [hl]; exact g3) (hrec.trans g4) g5 k1, k4, hl, k5⟩
      | answered p g1 hd =>
        obtain ⟨k1, k2, k3, k4, k5⟩ := keep _ hd hms
        exact ⟨d, some p, [], [], [], [], ⟨rfl, rfl, k2, k3, by simp⟩, .answered p (hdq.trans g1) k1, k4, hl, k5⟩

/-- A history. -/
theorem attended_run {e : Env} {m : BitVec 32 → Byte} (hm : Memory e m) (hroom : 2 ≤ e.rxDeque) (ops : List RxOp) :
    ∀ (s s' : Rx) (d : Decoder) (due : Bool) (pend : Option Packet) (l : Link) (os : List LinkOut),
    Reachable e s → Settled m s → At m d s due pend → Attends e due s ops → s.run e ops = .ok s' →
    s.link.run (recvTimes ops) = .ok (l, os) → (∀ p ∈ packetsOf os, isLogon p = false) →
    ∃ d' due' pend' done calls ms msgs,
      Went e s s' d d' due due' pend pend' (packetsOf os) done calls ms msgs ∧ At m d' s' due' pend' ∧ Settled m s' ∧
      s'.link = l ∧ (sent (inChannel2 .cv) e s ops).map understood = msgs.map some ∧
      ∀ after, Attends e due s (ops ++ after) → Attends e due' s' after := by
  induction ops with
  | nil =>
    intro s s' d due pend l os hr hs hat _ h hl _
    cases h
    have hl : Except.ok (s.link, []) = Except.ok (l, os) := hl
    cases hl
    exact ⟨d, due, pend, [], [], [], [], ⟨by simp [packetsOf], rfl, List.prefix_rfl,
      by simp [sessionCalls, newCalls], by simp⟩, hat, hs, rfl, rfl, fun _ h => h⟩
  | cons op ops ih =>
    intro s s' d due pend l os hr hs hat hatt h hl hn
    rw [Rx.run, bind_eq_ok] at h
    obtain ⟨s1, h1, h2⟩ := h
    obtain ⟨ha1, ha2⟩ := hatt
    rw [h1] at ha2
    have hsent : sent (inChannel2 .cv) e s (op :: ops) = sent (inChannel2 .cv) e s [op] ++ sent (inChannel2 .cv) e s1 ops :=
      sent_append _ e ops [op] s s1 (by simp only [Rx.run, h1]; rfl)
    rw [hsent, List.map_append]
    by_cases hrc : op.isReceive = true
    · cases op <;> try simp [RxOp.isReceive] at hrc
      rename_i t r
      have hl : s.link.run (t :: recvTimes ops) = .ok (l, os) := hl
      simp only [Link.run, bind_eq_ok, pure_eq_ok, Except.ok.injEq, Prod.mk.injEq] at hl
      obtain ⟨⟨l1, o⟩, k1, ⟨l2, os2⟩, k2, rfl, rfl⟩ := hl
      have hpk : packetsOf (o.toList ++ os2) = packetsOf o.toList ++ packetsOf os2 := by
        unfold packetsOf; rw [List.filterMap_append]
      dsimp only at hn ⊢
      rw [hpk] at hn ⊢
      obtain ⟨pend1, w1, w2, w3, w4, w5⟩ := attended_receive hm hroom hr hs hat ha1.1 ha1.2 h1 k1 (by
        rintro p rfl
        exact hn p (by simp [packetsOf]))
      rw [← w4] at k2
      obtain ⟨d', due', pend', done, calls, ms, msgs, v1, v2, v3, v4, v5, v6⟩ := ih s1 s' d s1.packetEnd pend1 _ _
        (hr.step _ h1) w3 w2 ha2 h2 k2 (fun p hp => hn p (by simp [hp]))
      exact ⟨d', due', pend', _, _, _, _, w1.trans v1, v2, v3, v4, by rw [w5, v5]; rfl, fun after ha => v6 after (by
        have := ha.2
        rwa [h1] at this)⟩
    · simp only [Bool.not_eq_true] at hrc
      have hdis : op ≠ .disable := by rintro rfl; exact ha1
      have hch : op = .biDiChannel2 → due = true := by rintro rfl; exact ha1
      have hdue : Attends e (if op = .biDiChannel2 then false else due) s1 ops := by
        clear ih hl hsent hch hdis
        cases op <;> first | exact ha2 | cases hrc
      have htm : recvTimes (op :: ops) = recvTimes ops := by
        cases op <;> first | rfl | cases hrc
      rw [htm] at hl
      obtain ⟨d1, pend1, done1, calls1, ms1, msgs1, w1, w2, w3, w4, w5⟩ := attended_other hm hr hs hat hrc hdis hch h1
      rw [← w4] at hl
      obtain ⟨d', due', pend', done, calls, ms, msgs, v1, v2, v3, v4, v5, v6⟩ := ih s1 s' d1 _ pend1 _ _
        (hr.step _ h1) w3 w2 hdue h2 hl hn
      have := w1.trans v1
      rw [List.nil_append] at this
      exact ⟨d', due', pend', _, _, _, _, this, v2, v3, v4, by rw [w5, v5, ← List.map_append], fun after ha => v6 after (by
        have := ha.2
        rw [h1] at this
        clear ih hl hsent hch hdis v6
        cases op <;> first | exact this | cases hrc)⟩

theorem attended_prefix {e : Env} (b : List RxOp) : ∀ (a : List RxOp) (due : Bool) (s : Rx), Attends e due s (a ++ b) →
    Attends e due s a := by
  intro a
  induction a with
  | nil => intro _ _ _; trivial
  | cons op a ih =>
    intro due s h
    refine ⟨h.1, ?_⟩
    have := h.2
    revert this
    cases s.step e op with
    | error => exact fun _ => trivial
    | ok s1 => exact ih _ s1

/-- A history faults only if the decoder does. -/
theorem attended_fault {e : Env} {m : BitVec 32 → Byte} (hm : Memory e m) (hroom : 2 ≤ e.rxDeque) {ops : List RxOp}
    {s : Rx} {d : Decoder} {due : Bool} {pend : Option Packet} {l : Link} {os : List LinkOut} {f : Fault}
    (hr : Reachable e s) (hs : Settled m s) (hat : At m d s due pend) (hatt : Attends e due s ops)
    (ho : s.run e ops = .error f) (hl : s.link.run (recvTimes ops) = .ok (l, os))
    (hn : ∀ p ∈ packetsOf os, isLogon p = false) (ht : s.tosTp ≤ s.lastPacketTp)
    (hc : ClockForward s.lastPacketTp ops) :
    f = .oob ∧ ∃ done waiting, pend.toList ++ packetsOf os = done ++ waiting ∧ d.hearAll e.eastWest done = none := by
  obtain ⟨a, op, b, z, rfl, h1, h2⟩ := run_error ops s ho
  have hra : Reachable e z := hr.run a h1
  obtain ⟨osa, osb, l1, k0, k2, k3⟩ : ∃ osa osb l1, s.link.run (recvTimes a) = .ok (l1, osa) ∧
      l1.run (recvTimes (op :: b)) = .ok (l, osb) ∧ os = osa ++ osb := by
    have htimes : recvTimes (a ++ op :: b) = recvTimes a ++ recvTimes (op :: b) := by
      unfold recvTimes; rw [List.filterMap_append]
    rw [htimes] at hl
    obtain ⟨l1, osa, osb, g1, g2, g3⟩ := link_run_split _ _ _ _ _ hl
    exact ⟨osa, osb, l1, g1, g2, g3⟩
  have hna : ∀ p ∈ packetsOf osa, isLogon p = false := by
    intro p hp
    refine hn p ?_
    rw [k3]
    simp only [packetsOf, List.filterMap_append, List.mem_append]
    exact .inl hp
  obtain ⟨d', due', pend', done, calls, ms, msgs, w1, w2, w3, w4, -, w5⟩ := attended_run hm hroom a s z d due pend l1 osa
    hr hs hat (attended_prefix _ _ _ _ hatt) h1 k0 hna
  have hatt' := w5 _ hatt
  have hnow := hatt'.1
  subst w4
  have cause := C29_causes_partial e z hra op f h2
  cases op with
  | init =>
    obtain ⟨z', h3⟩ := init_total hm.toMemoryLike z w3.reflects.address
    have h2 : z.init e = .error f := h2
    rw [h3] at h2
    cases h2
  | receive t r =>
    have k2 : z.link.run (t :: recvTimes b) = .ok (l, osb) := k2
    simp only [Link.run, bind_eq_ok, pure_eq_ok, Except.ok.injEq, Prod.mk.injEq] at k2
    obtain ⟨⟨l3, o⟩, q1, ⟨l4, os4⟩, q2, rfl, rfl⟩ := k2
    obtain ⟨z', q3⟩ := receive_total e z t r l3 o q1 (by
      rintro p rfl
      refine hn p ?_
      rw [k3]
      simp [packetsOf]) (by
      cases w2 with
      | idle h1 => rw [h1]; show 0 < _; omega
      | due p h1 => rw [h1]; show 1 < _; omega
      | answered p h1 => rw [h1]; show 1 < _; omega)
    have h2 : z.receive e t r = .error f := h2
    rw [q3] at h2
    cases h2
  | biDiChannel2 =>
    have hnow : due' = true := hnow
    subst hnow
    cases w2 with
    | due p g1 g2 g3 g4 g5 hd =>
      cases cause with
      | channel2 hlack =>
        have := hlack.2.2
        rw [g3] at this
        unfold instructionByte at this
        match p, g5, this with
        | x :: y :: w :: rest, _, this => dsimp only at this; split at this <;> simp at this
  | execute now rand =>
    obtain ⟨c1, c2⟩ := clock_run b a s z hr h1 ht hc
    have h2 : z.execute e now rand = .error f := by
      simp only [Rx.step] at h2
      cases w : z.execute e now rand with
      | error g => rw [w] at h2; cases h2; rfl
      | ok y => rw [w] at h2; cases h2
    have idle : (z.packetEnd = true ∨ z.deque = []) → False := by
      intro h
      rw [execute_front_none e z now rand h] at h2
      cases h2
    cases w2 with
    | idle g1 => exact (idle (.inr g1)).elim
    | due p g1 g2 => exact (idle (.inl g2)).elim
    | answered p g1 hd =>
      have hpe : z.packetEnd = false := Bool.eq_false_iff.mpr fun h => idle (.inl h)
      have hfr : front z = some p := by unfold front; rw [hpe, g1]; rfl
      rcases meets_execute hm hd w3.store hra.lengths hfr now rand with g | g
      · omega
      rw [h2] at g
      cases hy : (d'.answered p).1.execute e.eastWest p with
      | some => rw [hy] at g; exact g.elim
      | none =>
        rw [hy] at g
        refine ⟨g, done ++ [p], packetsOf osb, ?_, ?_⟩
        · have := w1.packets
          rw [k3]
          simp only [packetsOf, List.filterMap_append] at this ⊢
          rw [← List.append_assoc, this]
          simp
        · rw [hearAll_append, w1.hears]
          show (((d'.hear e.eastWest p)).bind _).map _ = none
          unfold Decoder.hear
          rw [hy]; rfl
  | _ => cases cause

/-! ### A program that attends -/

theorem attended_fails {e : Env} {f : Fault} (b : List RxOp) : ∀ (a : List RxOp) (due : Bool) (s : Rx),
    Attends e due s a → s.run e a = .error f → Attends e due s (a ++ b) := by
  intro a
  induction a with
  | nil => intro _ _ _ h; cases h
  | cons op a ih =>
    intro due s h ho
    refine ⟨h.1, ?_⟩
    have h2 := h.2
    rw [Rx.run] at ho
    cases hz : s.step e op with
    | error => trivial
    | ok s1 =>
      rw [hz] at h2 ho
      exact ih _ s1 h2 ho

theorem polled_times (xs : List (Nat × Nat × Int × Nat)) : recvTimes (polled xs) = xs.map (·.1) := by
  induction xs with
  | nil => rfl
  | cons x xs ih =>
    have : recvTimes (polled (x :: xs)) = x.1 :: recvTimes (polled xs) := rfl
    rw [this, ih]; rfl

theorem attending_times (e : Env) (xs : List (Nat × Nat × Int × Nat)) : ∀ s : Rx,
    recvTimes (attending e s xs) = xs.map (·.1) := by
  induction xs with
  | nil => intro s; rfl
  | cons x xs ih =>
    intro s
    rw [attending]
    split
    · exact polled_times (x :: xs)
    · rename_i s1 hz
      dsimp only
      have app : ∀ a b, recvTimes (a ++ b) = recvTimes a ++ recvTimes b := by
        intro a b; unfold recvTimes; rw [List.filterMap_append]
      have hr : recvTimes ((if s1.packetEnd then [.biDiChannel1, .biDiChannel2] else []) ++
          [.execute x.2.2.1 x.2.2.2]) = [] := by split <;> rfl
      rw [show ∀ (a : List RxOp) (op : RxOp), op :: a = [op] ++ a from fun _ _ => rfl, app, app, hr]
      split
      · rw [polled_times]; rfl
      · rw [ih]; rfl

theorem attending_clock (e : Env) (xs : List (Nat × Nat × Int × Nat)) : ∀ (s : Rx) (last : Int),
    ClockForward last (polled xs) → ClockForward last (attending e s xs) := by
  induction xs with
  | nil => intro s _ _; trivial
  | cons x xs ih =>
    intro s last h
    rw [attending]
    split
    · exact h
    · rename_i s1 hz
      have h : last ≤ x.2.2.1 ∧ ClockForward x.2.2.1 (polled xs) := h
      dsimp only
      have : ∀ b, ClockForward x.2.2.1 b → ClockForward last (.receive x.1 x.2.1 ::
          ((if s1.packetEnd then [.biDiChannel1, .biDiChannel2] else []) ++ [.execute x.2.2.1 x.2.2.2]) ++ b) := by
        intro b hb
        cases s1.packetEnd
        · exact ⟨h.1, hb⟩
        · exact ⟨h.1, hb⟩
      refine this _ ?_
      split
      · exact h.2
      · exact ih _ _ h.2

/-- It does attend. -/
theorem attending_attended (e : Env) (hroom : 2 ≤ e.rxDeque) (xs : List (Nat × Nat × Int × Nat)) :
    ∀ z : Rx, Reachable e z → z.deque.length ≤ 1 → (z.packetEnd = false → z.deque = []) →
    Attends e false z (attending e z xs) := by
  induction xs with
  | nil => intro z _ _ _; trivial
  | cons x xs ih =>
    intro z hr h1 h2
    have hq : z.packetEnd = true ∨ z.deque = [] := by
      cases h : z.packetEnd
      · exact .inr (h2 h)
      · exact .inl rfl
    rw [attending]
    split
    · rename_i f hz
      exact ⟨⟨rfl, hq⟩, by rw [hz]; trivial⟩
    · rename_i z1 hz1
      have hlt : z.deque.length < e.rxDeque := by omega
      obtain ⟨o, h3, h4⟩ := receive_spec e z z1 _ _ hz1 hlt
      have hd1 := h4.deque.2
      have hlen : z1.deque.length ≤ 1 := by
        rw [hd1]
        by_cases hpe : z.packetEnd = true
        · have := preamble_no_packet z.link _ _ _ (hr.recvInv.link.pend hpe).1 h3
          subst this
          simpa [queued] using h1
        · rw [h2 (by simpa using hpe)]
          rcases o with _ | (_ | p | _) <;> simp [queued]
          split <;> simp
      have hr1 := hr.step _ hz1
      refine ⟨⟨rfl, hq⟩, ?_⟩
      rw [hz1]
      dsimp only
      generalize hrest : ((if z1.packetEnd then [.biDiChannel1, .biDiChannel2] else []) ++
        [.execute x.2.2.1 x.2.2.2] : List RxOp) = rest
      have hno : ∀ op ∈ rest, (∀ t r, op ≠ .receive t r) ∧ op ≠ .disable := by
        intro op hop
        rw [← hrest] at hop
        split at hop
        · simp only [List.cons_append, List.nil_append, List.mem_cons, List.not_mem_nil, or_false] at hop
          rcases hop with rfl | rfl | rfl <;> exact ⟨nofun, nofun⟩
        · simp only [List.nil_append, List.mem_cons, List.not_mem_nil, or_false] at hop
          subst hop
          exact ⟨nofun, nofun⟩
      have hatt : Attends e z1.packetEnd z1 rest := by
        rw [← hrest]
        cases z1.packetEnd
        · refine ⟨trivial, ?_⟩
          split <;> trivial
        · refine ⟨trivial, ?_⟩
          split
          · trivial
          · refine ⟨rfl, ?_⟩
            split
            · trivial
            · refine ⟨trivial, ?_⟩
              split <;> trivial
      have hafter : ∀ b z2, z1.run e rest = .ok z2 → Attends e false z2 b → Attends e z1.packetEnd z1 (rest ++ b) := by
        intro b z2 h5 hb
        rw [← hrest] at h5 ⊢
        revert h5
        cases z1.packetEnd
        · intro h5
          simp only [Bool.false_eq_true, if_false, List.nil_append, Rx.run, bind_eq_ok] at h5
          obtain ⟨y, h6, h7⟩ := h5
          cases h7
          refine ⟨trivial, ?_⟩
          rw [h6]
          exact hb
        · intro h5
          simp only [if_true, List.cons_append, List.nil_append, Rx.run, bind_eq_ok] at h5
          obtain ⟨y1, h6, y2, h7, y3, h8, h9⟩ := h5
          cases h9
          refine ⟨trivial, ?_⟩
          rw [h6]
          refine ⟨rfl, ?_⟩
          rw [h7]
          refine ⟨trivial, ?_⟩
          rw [h8]
          exact hb
      split
      · rename_i f h5
        exact attended_fails _ _ _ _ hatt h5
      · rename_i z2 h5
        refine hafter _ z2 h5 (ih z2 (hr1.run rest h5) ?_ ?_)
        all_goals
          rw [← hrest] at h5
          revert h5
          cases hpe : z1.packetEnd
        · intro h5
          simp only [Bool.false_eq_true, if_false, List.nil_append, Rx.run, bind_eq_ok] at h5
          obtain ⟨y, h6, h7⟩ := h5
          cases h7
          rw [(step_other e z1 z2 _ h6 nofun nofun).2]
          split
          · simp; omega
          · exact hlen
        · intro h5
          simp only [if_true, List.cons_append, List.nil_append, Rx.run, bind_eq_ok] at h5
          obtain ⟨y1, h6, y2, h7, y3, h8, h9⟩ := h5
          cases h9
          have k1 := step_other e _ _ _ h6 nofun nofun
          have k2 := step_other e _ _ _ h7 nofun nofun
          have k3 := step_other e _ _ _ h8 nofun nofun
          have e1 : y1.deque = z1.deque := k1.2
          have e2 : y2.deque = y1.deque := k2.2
          rw [k3.2, e2, e1]
          split
          · simp; omega
          · exact hlen
        · intro h5 _
          simp only [Bool.false_eq_true, if_false, List.nil_append, Rx.run, bind_eq_ok] at h5
          obtain ⟨y, h6, h7⟩ := h5
          cases h7
          rw [(step_other e z1 z2 _ h6 nofun nofun).2, hpe]
          show z1.deque.drop 1 = []
          exact List.drop_eq_nil_of_le hlen
        · intro h5 h10
          simp only [if_true, List.cons_append, List.nil_append, Rx.run, bind_eq_ok] at h5
          obtain ⟨y1, h6, y2, h7, y3, h8, h9⟩ := h5
          cases h9
          have k1 := (step_other e _ _ _ h6 nofun nofun).1
          have k2 := (step_other e _ _ _ h7 nofun nofun).1
          have k3 := (step_other e _ _ _ h8 nofun nofun).1
          unfold Rx.packetEnd at h10 hpe
          rw [k3, k2, k1, hpe] at h10
          cases h10

end Dcc
