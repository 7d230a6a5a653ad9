import Verif.Lemmas.SerialExec
import Verif.Props.RxThread
/-! C99: a decoder with interrupts does what one does that gets the packets one by one. -/
namespace Dcc
open Spec Prog

variable {e : Env}

/-! ### Interrupts -/

theorem core_logon_off (s s2 : Rx) (a : Address) (bs : List Byte) (rand : Nat) (hd : s.cfg.logonEnabled = false)
    (h : s.executeAutomaticLogon e a bs rand = .ok s2) : s2 = s := by
  have h1 : ∀ did, s.logonSelect did = .ok s := fun did => by unfold Rx.logonSelect; simp [hd]
  have h2 : ∀ did a b, s.logonAssign did a b = .ok s := fun did a b => by unfold Rx.logonAssign; simp [hd]
  have h3 : ∀ gg cid session, s.logonEnable e gg cid session rand = .ok s := fun gg cid session => by
    unfold Rx.logonEnable; simp [hd]
  unfold Rx.executeAutomaticLogon at h
  simp only [h1, h2, h3] at h
  repeat' first
    | (cases h; rfl)
    | split at h
    | (rw [bind_eq_ok] at h; obtain ⟨_, -, h⟩ := h)
    | dsimp only at h

theorem core_receive {s s' : Rx} {t rand : Nat} (h : s.receive e t rand = .ok s')
    (hn : s'.packetEnd = true → isLogon s'.link.packet = true → s.cfg.logonEnabled = false) : core s' = core s := by
  cases receive_case e s s' t rand h with
  | plain l d a pc prc h => rw [h]; rfl
  | logon l a s2 hp hd hst h3 hc ha ht hcrc h hs hk he =>
    have hf := (logon_executeAutomaticLogon e _ a (l.packet.drop 1) rand).out _ h
    have hl : s2.link = l := hf.link
    obtain ⟨a', ha', hlog⟩ := decodeAddress_three l.packet h3
    rw [ha] at ha'
    cases ha'
    have hoff : s.cfg.logonEnabled = false := by
      refine hn ?_ ?_
      · rw [hs]
        show s2.link.packetEnd = true
        rw [hl]; exact he
      · rw [hs]
        show isLogon s2.link.packet = true
        rw [hl]; exact hlog.mp ht
    have := core_logon_off (s.atLogon l a) s2 a _ rand hoff h
    rw [hs, this]
    rfl

theorem core_transmits {s s' : Rx} {q : Queues} {evs : List Event} (h : s' = { s with q := q, trace := s.trace ++ evs })
    (he : ∀ ev ∈ evs, ∃ bs, ev = .transmitBiDi bs) : core s' = core s := by
  have : visible evs = [] := by
    refine List.filter_eq_nil_iff.mpr fun ev hm => ?_
    obtain ⟨bs, rfl⟩ := he ev hm
    exact Bool.false_ne_true
  have hv : visible (s.trace ++ evs) = visible s.trace := by
    unfold visible at *
    rw [List.filter_append, this, List.append_nil]
  rw [h]
  show ({ core s with trace := visible (s.trace ++ evs) } : Rx) = core s
  rw [hv]
  rfl

theorem core_interrupt {x x' : Preempted} {m : Beat} (hl : noLogon e x m) (hm : m.call?.isSome = true)
    (h : x.step e m = .ok x') : core x'.s = core x.s ∧ x'.prog = x.prog := by
  have hl := hl x' h
  have int : ∀ op, x.interrupt e op = .ok x' → ∃ s', x.s.step e op = .ok s' ∧ x' = { x with s := s' } := by
    intro op h
    unfold Preempted.interrupt at h
    split at h
    · cases h; exact ⟨_, by assumption, rfl⟩
    · cases h
  cases m <;> first | cases hm | skip
  · obtain ⟨s', h1, rfl⟩ := int (.receive _ _) h
    exact ⟨core_receive h1 (hl rfl), rfl⟩
  · obtain ⟨s', h1, rfl⟩ := int .biDiChannel1 h
    cases h1
    obtain ⟨q, evs, h2, h3⟩ := channel1_adds x.s
    exact ⟨core_transmits h2 h3, rfl⟩
  · obtain ⟨s', h1, rfl⟩ := int .biDiChannel2 h
    obtain ⟨q, evs, h2, h3⟩ := (channel2_adds x.s).out _ h1
    exact ⟨core_transmits h2 h3, rfl⟩

/-! ### The decoder without interrupts -/

/-- A decoder that waits for the next packet; no time has passed. -/
structure AtEase (e : Env) (t : Rx) : Prop where
  reachable : Reachable e t
  state : t.link.state = .preamble
  deque : t.deque = []
  last : t.lastPacketTp = 0
  tos : t.tosTp = 0

theorem AtEase.start : AtEase e {} := ⟨.start, rfl, rfl, rfl, rfl⟩

/-- Half bits, then `execute`. -/
def delivered (p : Packet) : List RxOp := hears p ++ [.execute 0 0]

/-- A duration after a packet. -/
theorem receive_after (e : Env) (s : Rx) (t r : Nat) (hs : s.link.state = .preamble) (hb : s.link.bitCount < 20) :
    ∃ l, s.receive e t r = .ok { s with link := l } ∧ l.packetEnd = false ∧ l.state = .preamble := by
  have hh : s.link.state.halves = false := by rw [hs]; rfl
  unfold Rx.receive
  dsimp only
  rw [hh]
  simp only [Bool.false_and, Bool.false_eq_true, if_false]
  have key : ∀ v, ∃ l, ({ s with link := { s.link with packetEnd := false } } : Rx).receiveBit e v r =
      .ok { s with link := l } ∧ l.packetEnd = false ∧ l.state = .preamble := by
    intro v
    unfold Rx.receiveBit
    dsimp only
    rw [hs]
    dsimp only
    cases v
    · rw [if_neg Bool.false_ne_true, if_pos (by omega)]
      exact ⟨_, rfl, rfl, rfl⟩
    · exact ⟨_, rfl, rfl, rfl⟩
  cases time2bit t <;> dsimp only
  case invalid => exact ⟨_, rfl, rfl, hs⟩
  all_goals
    split
    · exact ⟨_, rfl, rfl, rfl⟩
    · exact key _

/-- A packet is heard. -/
theorem hears_one {t : Rx} (hr : Reachable e t) (hs : t.link.state = .preamble) (hd : t.deque = []) {p : Packet}
    (hp : ValidPacket p) (hl : isLogon p = false) (hroom : 0 < e.rxDeque) : ∃ t', t.run e (hears p) = .ok t' ∧
      core t' = core t ∧ t'.deque = [p] ∧ t'.packetEnd = false ∧ t'.link.state = .preamble ∧
      t'.lastPacketTp = t.lastPacketTp ∧ t'.tosTp = t.tosTp ∧ t'.trace = t.trace := by
  have h1 := recv_packet e t {} ((accepted_iff {}).mp rfl) p hp hl hs hr.recvInv.link
    (by rw [hd]; exact hroom) ((packetWave {} p).map (·, 0)) (by rw [List.map_map]; exact List.map_id _)
  obtain ⟨l, h2, h3, h4⟩ := receive_after e { t with
      link := Link.after p
      preambleCount := t.preambleCount + 1
      packetCount := t.packetCount + 1
      deque := t.deque ++ [p]
      addrs := { t.addrs with received := addrOf p } } 58 0 rfl (by simp [Link.after])
  refine ⟨{ t with
      link := l
      preambleCount := t.preambleCount + 1
      packetCount := t.packetCount + 1
      deque := t.deque ++ [p]
      addrs := { t.addrs with received := addrOf p } }, ?_, rfl, by rw [hd]; rfl, h3, h4, rfl, rfl, rfl⟩
  unfold Spec.hears
  rw [List.map_append, show ∀ a b, recvOps (a ++ b) = recvOps a ++ recvOps b from fun _ _ => List.map_append,
    run_append e _ _ t _ h1]
  simp only [recvOps, List.map_cons, List.map_nil, Rx.run, Rx.step]
  rw [h2]
  rfl

/-- A packet is heard and executed. -/
theorem AtEase.execute (hd : Deaf e) {t : Rx} (ht : AtEase e t) {now : Int} {rand : Nat} {L : List Packet} {c : Rx}
    (hL : ∀ p ∈ L, ValidPacket p ∧ isLogon p = false ∧ 0 < e.rxDeque)
    (h : CoreRun (Thread.calls e (.execute now rand)) (core t) L c ()) :
    ∃ t', t.run e (L.flatMap delivered) = .ok t' ∧ AtEase e t' ∧ core t' = c := by
  obtain ⟨L1, L2, c1, a, rfl, h1, h2, rfl, -⟩ := CoreRun.bind h
  subst h2
  rw [List.append_nil] at hL ⊢
  rcases coreRun_execute hd h1 with ⟨rfl, rfl⟩ | ⟨p, rfl, hx⟩
  · exact ⟨t, rfl, ht, rfl⟩
  obtain ⟨hp, hl, hroom⟩ := hL p (List.mem_singleton.mpr rfl)
  obtain ⟨t1, k1, k2, k3, k4, k5, k6, k7, -⟩ := hears_one ht.reachable ht.state ht.deque hp hl hroom
  obtain ⟨t2, g1, g2, g3, g4, g5, g6⟩ := hx t1 k2 k3 k4 (k6.trans ht.last) (k7.trans ht.tos)
  have hstep : t1.step e (.execute 0 0) = .ok t2 := by
    have := run_calls e (.execute 0 0) t1 rfl
    have h5 : (Thread.calls e (.execute 0 0)).run t1 = .ok (t2, ()) := by
      show (Thread.execute e 0 0 >>= fun _ => pure ()).run t1 = _
      rw [run_bind, g1]; rfl
    rw [h5] at this
    cases hs : t1.step e (.execute 0 0) with
    | error f => rw [hs] at this; cases this
    | ok y => rw [hs] at this; cases this; rfl
  have hrun : t.run e (delivered p) = .ok t2 := by
    unfold delivered
    rw [run_append e _ _ t _ k1]
    show (t1.step e (.execute 0 0) >>= fun s => .ok s) = _
    rw [hstep]; rfl
  refine ⟨t2, ?_, ⟨ht.reachable.run _ hrun, g4 k5, g3, g5, g6⟩, g2⟩
  rw [List.flatMap_singleton]
  exact hrun

/-- One of the other calls. -/
theorem AtEase.direct (hd : Deaf e) {t : Rx} (ht : AtEase e t) {op : RxOp} (ho : op.direct = true) {L : List Packet}
    {c : Rx} (h : CoreRun (Thread.calls e op) (core t) L c ()) :
    L = [] ∧ ∃ t', t.run e [op] = .ok t' ∧ AtEase e t' ∧ core t' = c := by
  obtain ⟨rfl, t', h1, h2, h3⟩ := follows_calls hd ho t L c () ht.last ht.tos h
  have := run_calls e op t (by cases op <;> first | rfl | cases ho)
  rw [h1] at this
  have hstep : t.step e op = .ok t' := by
    cases hs : t.step e op with
    | error f => rw [hs] at this; cases this
    | ok y => rw [hs] at this; cases this; rfl
  have hrun : t.run e [op] = .ok t' := by
    show (t.step e op >>= fun s => .ok s) = _
    rw [hstep]; rfl
  exact ⟨rfl, t', hrun, ⟨ht.reachable.run _ hrun, h3.state ht.state, h3.deque.trans ht.deque, h3.last.trans ht.last,
    h3.tos.trans ht.tos⟩, h2⟩

/-! ### Both -/

/-- The calls made to the decoder without interrupts for a call the thread is in. -/
def soFar (op : RxOp) (L : List Packet) : List RxOp := (if op.direct then [op] else []) ++ L.flatMap delivered

/-- The decoder with interrupts is in a call `op` and has fetched `L`; when it returns, the decoder without
interrupts will have done the same. -/
structure Simulates (e : Env) (x : Preempted) (t : Rx) (op : RxOp) (L : List Packet) : Prop where
  rest : AtEase e t
  valid : ∀ p ∈ L, ValidPacket p ∧ isLogon p = false ∧ 0 < e.rxDeque
  follows : ∀ L' c, CoreRun x.prog (core x.s) L' c () → CoreRun (Thread.calls e op) (core t) (L ++ L') c ()

theorem Simulates.finish (hd : Deaf e) {x : Preempted} {t : Rx} {op : RxOp} {L : List Packet}
    (h : Simulates e x t op L) (hx : x.line = none) :
    ∃ t', t.run e (soFar op L) = .ok t' ∧ AtEase e t' ∧ core t' = core x.s := by
  obtain ⟨s, p⟩ := x
  cases p with
  | atom l f k => cases hx
  | ret a =>
    have hc := h.follows [] (core s) ⟨rfl, rfl, rfl⟩
    rw [List.append_nil] at hc
    by_cases ho : op.direct = true
    · obtain ⟨rfl, t', h1, h2, h3⟩ := h.rest.direct hd ho hc
      exact ⟨t', by rw [soFar, if_pos ho]; exact h1, h2, h3⟩
    · have hs : soFar op L = L.flatMap delivered := by rw [soFar, if_neg ho]; rfl
      rw [hs]
      have idle : Idles (Thread.calls e op) → ∃ t', t.run e (L.flatMap delivered) = .ok t' ∧ AtEase e t' ∧
          core t' = core s := fun hi => by
        obtain ⟨rfl, h2⟩ := hi.core hc
        exact ⟨t, rfl, h.rest, h2.symm⟩
      cases op with
      | execute now rand => exact h.rest.execute hd h.valid hc
      | datagram ds => exact idle (idles_datagram ds)
      | receive _ _ | biDiChannel1 | biDiChannel2 => exact idle trivial
      | _ => exact absurd rfl ho

/-- The calls `inOrder` adds in a step. -/
def adds (x : Preempted) : Beat → List RxOp
  | .start (.execute _ _) | .start (.datagram _) | .start (.receive _ _) | .start .biDiChannel1
  | .start .biDiChannel2 => []
  | .start op => if x.line = none then [op] else []
  | .access =>
    match x.line with
    | none => []
    | some l => (fetchedAt l x.s).flatMap fun p => hears p ++ [.execute 0 0]
  | _ => []

theorem inOrder_cons {x x' : Preempted} {m : Beat} (h : x.step e m = .ok x') (ms : List Beat) :
    inOrder e x (m :: ms) = adds x m ++ inOrder e x' ms := by
  unfold inOrder
  rw [collect, h]
  rfl

/-- One step. -/
theorem Simulates.step (hd : Deaf e) {x x' : Preempted} {st : Stage} {m : Beat} {t : Rx} {op : RxOp} {L : List Packet}
    (hi : ThreadInv e x st) (hr : resetAlone x m) (hl : noLogon e x m) (h : Simulates e x t op L)
    (hx : x.step e m = .ok x') :
    ∃ t' op' L' ops, t.run e ops = .ok t' ∧ Simulates e x' t' op' L' ∧ soFar op L ++ adds x m = ops ++ soFar op' L' := by
  by_cases hm : m.call?.isSome = true
  · obtain ⟨h1, h2⟩ := core_interrupt hl hm hx
    refine ⟨t, op, L, [], rfl, ⟨h.rest, h.valid, by rw [h1, h2]; exact h.follows⟩, ?_⟩
    cases m <;> first | (cases hm; done) | exact List.append_nil _
  obtain ⟨s, p⟩ := x
  cases m <;> first | exact absurd rfl hm | skip
  · cases p with
    | ret a =>
      cases hx
      exact ⟨t, op, L, [], rfl, h, List.append_nil _⟩
    | atom l f k =>
      simp only [Preempted.step, Preempted.access] at hx
      split at hx
      case h_2 => cases hx
      case h_1 s1 b hb =>
      cases hx
      refine ⟨t, op, L ++ fetchedAt l s, [], rfl, ⟨h.rest, fun p hp => ?_, fun L' c hc => ?_⟩, ?_⟩
      · rcases List.mem_append.mp hp with hp | hp
        · exact h.valid p hp
        · have hm : p ∈ s.deque := by
            unfold fetchedAt at hp
            split at hp
            · exact List.mem_of_mem_take hp
            · cases hp
          have hdq : (st.settled s).deque = s.deque := by cases st <;> rfl
          have hv := hi.recv.valid p (by rw [hdq]; exact hm)
          refine ⟨hv.1, hv.2, ?_⟩
          have := hi.recv.room
          rw [hdq] at this
          have := List.length_pos_of_mem hm
          omega
      · rw [List.append_assoc]
        exact h.follows _ _ ⟨s, s1, b, L', rfl, hb, rfl, hc⟩
      · show soFar op L ++ (fetchedAt l s).flatMap delivered = soFar op (L ++ fetchedAt l s)
        unfold soFar
        rw [List.flatMap_append, List.append_assoc]
  · rename_i op'
    cases p with
    | atom l f k =>
      cases hx
      refine ⟨t, op, L, [], rfl, h, ?_⟩
      cases op' <;> exact List.append_nil _
    | ret a =>
      cases hx
      obtain ⟨t', h1, h2, h3⟩ := h.finish hd rfl
      refine ⟨t', op', [], soFar op L, h1, ⟨h2, by simp, fun L' c hc => ?_⟩, ?_⟩
      · rw [h3]; exact hc
      · cases op' <;> rfl

theorem Simulates.run (hd : Deaf e) (ms : List Beat) : ∀ {x x' : Preempted} {st : Stage} {t : Rx} {op : RxOp}
    {L : List Packet}, ThreadInv e x st → Simulates e x t op L → Always e resetAlone x ms → Always e (noLogon e) x ms →
    x.run e ms = .ok x' → x'.line = none →
    ∃ t', t.run e (soFar op L ++ inOrder e x ms) = .ok t' ∧ AtEase e t' ∧ core t' = core x'.s := by
  induction ms with
  | nil =>
    intro x x' st t op L hi h _ _ hx hn
    cases hx
    rw [show inOrder e x [] = [] from rfl, List.append_nil]
    exact h.finish hd hn
  | cons m ms ih =>
    intro x x' st t op L hi h ha hl hx hn
    simp only [Preempted.run, bind_eq_ok] at hx
    obtain ⟨x1, hx1, hx2⟩ := hx
    obtain ⟨st1, hi1, -⟩ := hi.step ha.1 hx1
    obtain ⟨t1, op1, L1, ops, h1, h2, h3⟩ := h.step hd hi ha.1 hl.1 hx1
    obtain ⟨t', k1, k2, k3⟩ := ih hi1 h2 (ha.2 x1 hx1) (hl.2 x1 hx1) hx2 hn
    refine ⟨t', ?_, k2, k3⟩
    rw [inOrder_cons hx1, ← List.append_assoc, h3, List.append_assoc, run_append e _ _ t _ h1]
    exact k1

/-- **C99** However the interrupts come between the accesses of the thread: whenever the thread is in no call,
the decoder is, apart from BiDi, reception, the clock and statistics, as if there were no interrupts, the
packets came one by one, and each was executed before the next one.  So the user's class got the same calls
with the same answers, too. -/
theorem C99_in_order (e : Env) (hd : Deaf e) (ms : List Beat) (x : Preempted) (ha : Always e resetAlone {} ms)
    (hl : Always e (noLogon e) {} ms) (h : ({} : Preempted).run e ms = .ok x) (hx : x.line = none) :
    ∃ t, ({} : Rx).run e (inOrder e {} ms) = .ok t ∧ core t = core x.s := by
  have h0 : Simulates e {} {} (.receive 0 0) [] := ⟨.start, by simp, fun L' c hc => hc⟩
  obtain ⟨t, h1, -, h2⟩ := h0.run hd ms (ThreadInv.start e) ha hl h hx
  exact ⟨t, h1, h2⟩

end Dcc
