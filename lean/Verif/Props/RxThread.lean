import Verif.Spec.Thread
import Verif.Lemmas.RxEffect
import Verif.Lemmas.RxSafe
import Verif.Props.RxWire
import Verif.Props.RxPreempt
/-! Interrupts between any two accesses of the thread: C71. -/
namespace Dcc
open Spec

/-! ### Where the thread is -/

theorem Prog.bind_bind {α β γ : Type} (p : Prog α) (f : α → Prog β) (g : β → Prog γ) :
    (p >>= f) >>= g = p >>= fun a => f a >>= g := by
  show (p.bind f).bind g = p.bind fun a => (f a).bind g
  induction p with
  | ret a => rfl
  | atom l h k ih => exact congrArg (Prog.atom l h) (funext ih)

/-- `execute` has fetched the packet, and will remove it. -/
inductive During (e : Env) : Prog Unit → Prop
  | step {β : Type} (l : Nat) (f : Rx → R (Rx × β)) (k : β → Prog Unit) (hl : plainLine l)
      (h : ∀ s s' b, f s = .ok (s', b) → Effect e s s') (hk : ∀ s s' b, f s = .ok (s', b) → During e (k b)) :
      During e (.atom l f k)
  | pop (k : Unit → Prog Unit) (h : Plain' e (k ())) :
      During e (.atom 281 (fun s => .ok (s.popFront, ())) k)

/-- `execute` has found a packet, and will fetch it. -/
inductive Before (e : Env) : Prog Unit → Prop
  | step {β : Type} (l : Nat) (f : Rx → R (Rx × β)) (k : β → Prog Unit) (hl : plainLine l)
      (h : ∀ s s' b, f s = .ok (s', b) → Effect e s s') (hk : ∀ s s' b, f s = .ok (s', b) → Before e (k b)) :
      Before e (.atom l f k)
  | fetch (l : Nat) (hl : l = 291 ∨ l = 315) (k : Packet → Prog Unit) (h : ∀ p, During e (k p)) :
      Before e (.atom l (fun s =>
        match s.deque with
        | [] => .error .oob
        | packet :: _ => .ok (s, packet)) k)

variable {e : Env} {α : Type}

theorem During.after {p : Prog α} {g : α → Prog Unit} (h : Plain' e p) (hg : ∀ a, During e (g a)) :
    During e (p >>= g) := by
  show During e (p.bind g)
  induction p with
  | ret a => exact hg a
  | atom l f k ih =>
    exact .step l f _ h.1 (fun s s' b hb => (h.2 s s' b hb).1) fun s s' b hb => ih b (h.2 s s' b hb).2

theorem Before.after {p : Prog α} {g : α → Prog Unit} (h : Plain' e p) (hg : ∀ a, Before e (g a)) :
    Before e (p >>= g) := by
  show Before e (p.bind g)
  induction p with
  | ret a => exact hg a
  | atom l f k ih =>
    exact .step l f _ h.1 (fun s s' b hb => (h.2 s s' b hb).1) fun s s' b hb => ih b (h.2 s s' b hb).2

/-- The last assignments of `reset`. -/
def reset0 : Prog Unit := Prog.set 872 fun s => { s with link := { s.link with state := .preamble } }
def reset1 : Prog Unit := do
  Prog.set 871 fun s => { s with link := { s.link with bitCount := 0 } }
  reset0
def reset2 : Prog Unit := do
  Prog.set 871 fun s => { s with link := { s.link with byte := 0#8 } }
  reset1
def reset3 : Prog Unit := do
  Prog.set 871 fun s => { s with link := { s.link with checksum := 0#8 } }
  reset2

/-- `reset`, when a number of its assignments are still to come besides the last one. -/
def resetFrom : Nat → Prog Unit
  | 0 => reset0
  | 1 => reset1
  | 2 => reset2
  | _ + 3 => reset3

/-- Where the thread is. -/
inductive Stage where
  | plain | looking | before | during | off | reset (i : Nat)
  deriving DecidableEq

/-- The part of `execute` from the second condition on. -/
def Looking (e : Env) (p : Prog Unit) : Prop :=
  ∃ k, p = .atom 275 (fun s => .ok (s, s.deque.isEmpty)) k ∧ Plain' e (k true) ∧ Before e (k false)

/-- What is left of the call. -/
def Stage.Fits (e : Env) : Stage → Prog Unit → Prop
  | .plain, p => Plain' e p ∨ ∃ k, p = .atom 275 (fun s => .ok (s, s.packetEnd)) k ∧
      Plain' e (k true) ∧ Looking e (k false)
  | .looking, p => Looking e p
  | .before, p => Before e p
  | .during, p => During e p
  | .off, p => p = Thread.disable ∨ p = (do
      Prog.set 113 fun s => { s with enabled := false }
      resetFrom 3)
  | .reset i, p => p = resetFrom i

/-- The packet being executed. -/
def Stage.current (s : Rx) : Stage → List Packet
  | .during => s.deque.take 1
  | _ => []

theorem before_execute (now : Int) (rand : Nat) : Before e (do
    Thread.adr
    Thread.logonStore e
    Thread.updateQos
    Thread.updateTimepoints now
    let ret ← Thread.executeFront e rand
    Prog.set 281 (·.popFront)
    (pure ret : Prog Bool) >>= fun _ => pure ()) := by
  refine .after plain_adr fun _ => .after plain_logonStore fun _ => .after plain_updateQos fun _ =>
    .after (plain_updateTimepoints now) fun _ => ?_
  refine .step 280 _ _ (by decide) (fun s s' b h => by cases h; exact .quiet (.refl s)) fun s s' b h => ?_
  have pop : ∀ ret : Bool, During e (do
      Prog.set 281 (·.popFront)
      (pure ret : Prog Bool) >>= fun _ => pure ()) := fun ret => .pop _ trivial
  cases b
  · refine .fetch 291 (.inl rfl) _ fun p => ?_
    exact .after (plain_executeOperations p rand) pop
  · refine .fetch 315 (.inr rfl) _ fun p => ?_
    exact .after (plain_executeService p) pop

/-- The stage a call begins with. -/
def Stage.begin : RxOp → Stage
  | .disable => .off
  | _ => .plain

theorem fits_begin (op : RxOp) : (Stage.begin op).Fits e (Thread.calls e op) := by
  by_cases hx : op.isExecute
  · cases op <;> first | cases hx | skip
    rename_i now rand
    refine .inr ⟨_, rfl, trivial, ⟨_, rfl, trivial, ?_⟩⟩
    show Before e ((do
      Thread.adr
      Thread.logonStore e
      Thread.updateQos
      Thread.updateTimepoints now
      let ret ← Thread.executeFront e rand
      Prog.set 281 (·.popFront)
      return ret) >>= fun _ => pure ())
    simp only [Prog.bind_bind]
    exact before_execute now rand
  · by_cases hd : op = .disable
    · subst hd; exact .inl rfl
    · have := plain_thread (e := e) op (by simpa using hx) hd
      cases op <;> first | exact absurd rfl hd | exact .inl this

/-! ### What a step preserves -/

theorem Effect.link {s s' : Rx} (h : Effect e s s') : s'.link = s.link := by
  cases h with
  | quiet h => exact h.link
  | _ => rfl

theorem Effect.deque {s s' : Rx} (h : Effect e s s') : s'.deque = s.deque := by
  cases h with
  | quiet h => exact h.deque
  | _ => rfl

theorem Effect.did {s s' : Rx} (h : Effect e s s') (hd : s.cfg.did.length = 4) :
    s'.cfg.did.length = 4 := by
  cases h with
  | quiet h =>
    rcases h.did with h | h
    · rw [h]; exact hd
    · exact h
  | _ => exact hd

theorem Good.add {n : Nat} {q : List (List Byte)} {m : List Byte} (h : Good n q) (hm : GoodMsg n m) :
    Good n (q ++ [m]) := by
  intro d hd
  rcases List.mem_append.mp hd with hd | hd
  · exact h d hd
  · rw [List.mem_singleton.mp hd]; exact hm

theorem WireInv.congr {s s' : Rx} (hi : WireInv e s) (h : s'.q = s.q) : WireInv e s' :=
  ⟨h ▸ hi.adr, h ▸ hi.pom, h ▸ hi.dyn, h ▸ hi.tos, h ▸ hi.logon⟩

theorem Effect.wire {s s' : Rx} (h : Effect e s s') (hi : WireInv e s) : WireInv e s' := by
  cases h with
  | quiet h => exact ⟨h.adr ▸ hi.adr, h.pom ▸ hi.pom, h.dyn ▸ hi.dyn, h.tos ▸ hi.tos, h.logonQ ▸ hi.logon⟩
  | own p => exact hi.congr rfl
  | clear => exact ⟨hi.adr, .nil, hi.dyn, hi.tos, hi.logon⟩
  | pom d h => exact ⟨hi.adr, hi.pom.add h, hi.dyn, hi.tos, hi.logon⟩
  | adr d h => exact ⟨hi.adr.add h, hi.pom, hi.dyn, hi.tos, hi.logon⟩
  | tos d h => exact ⟨hi.adr, hi.pom, hi.dyn, hi.tos.add h, hi.logon⟩
  | dyn d h room =>
    refine ⟨hi.adr, hi.pom, ⟨?_, ?_, ?_⟩, hi.tos, hi.logon⟩
    · show (s.q.dyn ++ [d]).length ≤ _
      rw [List.length_append, List.length_singleton]; omega
    · intro m hm
      rcases List.mem_append.mp hm with hm | hm
      · exact hi.dyn.size m hm
      · rw [List.mem_singleton.mp hm]; exact h.1
    · intro m hm
      rcases List.mem_append.mp hm with hm | hm
      · exact hi.dyn.valid m hm
      · rw [List.mem_singleton.mp hm]; exact h.2

theorem Effect.trace {s s' : Rx} (h : Effect e s s') :
    s'.trace = s.trace ∨ ∃ ev, s'.trace = s.trace ++ [ev] ∧ ev.silent = true := by
  cases h with
  | quiet h => exact h.trace
  | _ => exact .inl rfl

/-- What `reset` will have made of the link. -/
def settledLink : Nat → Link → Link
  | 0, l => { l with state := .preamble }
  | 1, l => { l with bitCount := 0, state := .preamble }
  | 2, l => { l with byte := 0#8, bitCount := 0, state := .preamble }
  | _ + 3, l => { l with checksum := 0#8, byte := 0#8, bitCount := 0, state := .preamble }

/-- The state when `reset` is over, if the thread is in it. -/
def Stage.settled (s : Rx) : Stage → Rx
  | .reset i => { s with link := settledLink i s.link }
  | _ => s

/-- The thread is in `reset`. -/
def Stage.resets : Stage → Bool
  | .reset _ => true
  | _ => false

theorem Stage.settled_eq {st : Stage} (h : st.resets = false) (s : Rx) : st.settled s = s := by
  cases st <;> first | rfl | cases h

/-- Invariant of the object and where the thread is. -/
structure ThreadInv (e : Env) (x : Preempted) (st : Stage) : Prop where
  fits : st.Fits e x.prog
  front : st = .before ∨ st = .during → x.s.deque ≠ []
  recv : RecvInv e (st.settled x.s)
  did : x.s.cfg.did.length = 4
  wire : WireInv e x.s

/-- The access is made in one of the lines. -/
def Preempted.at (x : Preempted) (lines : List Nat) : Bool := x.line.any (lines.contains ·)

/-- The thread is in `disable`. -/
def Stage.isOff : Stage → Bool
  | .off | .reset _ => true
  | _ => false

/-- The packet fetched and the packet removed in an access. -/
structure Passes (x x' : Preempted) (st st' : Stage) : Prop where
  queue : x.s.deque = (if x.at [281] then x.s.deque.take 1 else []) ++ x'.s.deque
  order : st.current x.s ++ (if x.at [291, 315] then x.s.deque.take 1 else []) =
    (if x.at [281] then x.s.deque.take 1 else []) ++ st'.current x'.s
  off : st.isOff = false → st'.isOff = false
  silent : transmitted (newCalls x.s x'.s) = []

theorem unsent {s s' : Rx} (h : s'.trace = s.trace) : transmitted (newCalls s s') = [] := by
  rw [newCalls_self h]; rfl

theorem Effect.unsent {s s' : Rx} (h : Effect e s s') : transmitted (newCalls s s') = [] := by
  rcases h.trace with h | ⟨ev, h, hs⟩
  · exact Dcc.unsent h
  · rw [newCalls_append h]
    cases ev <;> first | rfl | cases hs

theorem RecvInv.effect {s s' : Rx} (hi : RecvInv e s) (h : Effect e s s') : RecvInv e s' :=
  ⟨h.link ▸ hi.link, h.deque ▸ hi.valid, h.deque ▸ hi.room⟩

theorem plain_not_at {s : Rx} {l : Nat} {β : Type} {f : Rx → R (Rx × β)} {k : β → Prog Unit}
    (hl : plainLine l) : (Preempted.mk s (.atom l f k)).at [281] = false ∧
      (Preempted.mk s (.atom l f k)).at [291, 315] = false := by
  obtain ⟨h1, h2, h3, -⟩ := hl
  simp [Preempted.at, Preempted.line, h1, h2, h3]

/-- One access at an ordinary line. -/
theorem ThreadInv.plainStep {β : Type} {s s' : Rx} {l : Nat} {f : Rx → R (Rx × β)} {k : β → Prog Unit}
    {b : β} {st st' : Stage} (hi : ThreadInv e ⟨s, .atom l f k⟩ st) (hl : plainLine l) (he : Effect e s s')
    (hr : st.resets = false) (hr' : st'.resets = false) (hf : st'.Fits e (k b))
    (hfront : st' = .before ∨ st' = .during → s.deque ≠ [])
    (hc : st'.current s' = st.current s) (ho : st.isOff = false → st'.isOff = false) :
    ThreadInv e ⟨s', k b⟩ st' ∧ Passes ⟨s, .atom l f k⟩ ⟨s', k b⟩ st st' := by
  have hrecv := hi.recv
  rw [st.settled_eq hr] at hrecv
  refine ⟨⟨hf, fun h => ?_, ?_, he.did hi.did, he.wire hi.wire⟩, ?_, ?_, ho, he.unsent⟩
  · show s'.deque ≠ []
    rw [he.deque]; exact hfront h
  · rw [st'.settled_eq hr']; exact hrecv.effect he
  · rw [(plain_not_at hl).1]; exact he.deque.symm
  · rw [(plain_not_at hl).1, (plain_not_at hl).2]
    exact (List.append_nil _).trans hc.symm

theorem current_same {s s' : Rx} (h : s'.deque = s.deque) (st : Stage) : st.current s' = st.current s := by
  cases st <;> first | rfl | exact congrArg (List.take 1) h

theorem ThreadInv.access {x x' : Preempted} {st : Stage} (hi : ThreadInv e x st)
    (h : x.access = .ok x') : ∃ st', ThreadInv e x' st' ∧ Passes x x' st st' := by
  obtain ⟨s, p⟩ := x
  cases p with
  | ret a =>
    cases h
    refine ⟨st, hi, rfl, ?_, id, unsent rfl⟩
    exact List.append_nil _
  | atom l f k =>
    simp only [Preempted.access] at h
    split at h
    case h_2 => cases h
    case h_1 s1 b hb =>
    cases h
    cases st with
    | plain =>
      rcases hi.fits with hp | ⟨k', hk, h1, h2⟩
      · have he := hp.2 s s1 b hb
        exact ⟨.plain, hi.plainStep hp.1 he.1 rfl rfl (.inl he.2) (by simp) rfl (fun _ => rfl)⟩
      · cases hk
        cases hb
        have he : Effect e s s := .quiet (.refl s)
        cases hpe : s.packetEnd with
        | true => exact ⟨.plain, hi.plainStep (by decide) he rfl rfl (.inl h1) (by simp) rfl (fun _ => rfl)⟩
        | false => exact ⟨.looking, hi.plainStep (by decide) he rfl rfl h2 (by simp) rfl (fun _ => rfl)⟩
    | looking =>
      obtain ⟨k', hk, h1, h2⟩ := hi.fits
      cases hk
      cases hb
      have he : Effect e s s := .quiet (.refl s)
      cases hd : s.deque.isEmpty with
      | true => exact ⟨.plain, hi.plainStep (by decide) he rfl rfl (.inl h1) (by simp) rfl (fun _ => rfl)⟩
      | false =>
        exact ⟨.before, hi.plainStep (by decide) he rfl rfl h2 (fun _ h => by rw [h] at hd; cases hd) rfl (fun _ => rfl)⟩
    | before =>
      have hfr := hi.front (.inl rfl)
      have hf : Before e (.atom l f k) := hi.fits
      cases hf with
      | step _ _ _ hl h1 h2 =>
        exact ⟨.before, hi.plainStep hl (h1 s s1 b hb) rfl rfl (h2 s s1 b hb) (fun _ => hfr) rfl (fun _ => rfl)⟩
      | fetch _ hl _ h1 =>
        have hs : s1 = s := by
          dsimp only at hb
          split at hb
          · cases hb
          · cases hb; rfl
        subst hs
        refine ⟨.during, ⟨h1 b, fun _ => hfr, hi.recv, hi.did, hi.wire⟩, ?_, ?_, fun _ => rfl, unsent rfl⟩
        · rcases hl with rfl | rfl <;> rfl
        · rcases hl with rfl | rfl <;> exact List.nil_append _
    | during =>
      have hfr := hi.front (.inr rfl)
      have hf : During e (.atom l f k) := hi.fits
      cases hf with
      | step _ _ _ hl h1 h2 =>
        exact ⟨.during, hi.plainStep hl (h1 s s1 b hb) rfl rfl (h2 s s1 b hb) (fun _ => hfr)
          (current_same (h1 s s1 b hb).deque .during) (fun _ => rfl)⟩
      | pop _ h1 =>
        cases hb
        refine ⟨.plain, ⟨.inl h1, by simp, ⟨hi.recv.link, fun p hp => ?_, ?_⟩, hi.did, hi.wire.congr rfl⟩, ?_, ?_, fun _ => rfl, unsent rfl⟩
        · exact hi.recv.valid p (List.mem_of_mem_drop hp)
        · have := hi.recv.room
          show (s.deque.drop 1).length ≤ _
          rw [List.length_drop]
          exact Nat.le_trans (Nat.sub_le _ _) this
        · exact (List.take_append_drop 1 s.deque).symm
        · rfl
    | off =>
      have he : Effect e s s := .quiet (.refl s)
      rcases hi.fits with hk | hk
      · cases hk
        simp only [Except.ok.injEq, Prod.mk.injEq] at hb
        obtain ⟨rfl, -⟩ := hb
        cases b with
        | false => exact ⟨.plain, hi.plainStep (by decide) he rfl rfl (.inl trivial) (by simp) rfl (fun _ => rfl)⟩
        | true => exact ⟨.off, hi.plainStep (by decide) he rfl rfl (.inr rfl) (by simp) rfl nofun⟩
      · cases hk
        cases hb
        exact ⟨.reset 3, ⟨rfl, by simp, ⟨hi.recv.link.reset, hi.recv.valid, hi.recv.room⟩, hi.did, hi.wire.congr rfl⟩,
          rfl, rfl, nofun, unsent rfl⟩
    | reset i =>
      match i, hi with
      | 0, hi =>
        have hk : Prog.atom l f k = resetFrom 0 := hi.fits
        cases hk
        cases hb
        exact ⟨.plain, ⟨.inl trivial, by simp, hi.recv, hi.did, hi.wire.congr rfl⟩, rfl, rfl, nofun, unsent rfl⟩
      | 1, hi =>
        have hk : Prog.atom l f k = resetFrom 1 := hi.fits
        cases hk
        cases hb
        exact ⟨.reset 0, ⟨rfl, by simp, hi.recv, hi.did, hi.wire.congr rfl⟩, rfl, rfl, nofun, unsent rfl⟩
      | 2, hi =>
        have hk : Prog.atom l f k = resetFrom 2 := hi.fits
        cases hk
        cases hb
        exact ⟨.reset 1, ⟨rfl, by simp, hi.recv, hi.did, hi.wire.congr rfl⟩, rfl, rfl, nofun, unsent rfl⟩
      | i + 3, hi =>
        have hk : Prog.atom l f k = resetFrom (i + 3) := hi.fits
        cases hk
        cases hb
        exact ⟨.reset 2, ⟨rfl, by simp, hi.recv, hi.did, hi.wire.congr rfl⟩, rfl, rfl, nofun, unsent rfl⟩

theorem RecvInv.settled_congr {s s' : Rx} {st : Stage} (hi : RecvInv e (st.settled s))
    (hl : s'.link = s.link) (hd : s'.deque = s.deque) : RecvInv e (st.settled s') := by
  have h1 : (st.settled s').link = (st.settled s).link := by
    cases st <;> first | exact hl | exact congrArg (settledLink _) hl
  have h2 : (st.settled s').deque = (st.settled s).deque := by
    cases st <;> exact hd
  exact ⟨h1 ▸ hi.link, h2 ▸ hi.valid, h2 ▸ hi.room⟩

/-- The methods called in interrupts. -/
def RxOp.inInterrupt : RxOp → Bool
  | .receive _ _ | .biDiChannel1 | .biDiChannel2 => true
  | _ => false

/-- The packets accepted in a call. -/
def accepts1 (op : RxOp) (s' : Rx) : List Packet :=
  if op.isReceive && s'.packetEnd && !isLogon s'.link.packet then [s'.link.packet] else []

theorem ThreadInv.call {x : Preempted} {s' : Rx} {st : Stage} {op : RxOp} (hi : ThreadInv e x st)
    (hop : op.inInterrupt = true) (hr : st.resets = true → op.isReceive = false)
    (h : x.s.step e op = .ok s') :
    ThreadInv e { x with s := s' } st ∧ s'.deque = x.s.deque ++ accepts1 op s' := by
  have sound : op ≠ .biDiChannel1 → op ≠ .biDiChannel2 → Sound e x.s := by
    intro h1 h2
    have : op.isReceive = true := by
      cases op <;> first | rfl | exact absurd rfl h1 | exact absurd rfl h2 | cases hop
    have hn : st.resets = false := by
      cases hs : st.resets
      · rfl
      · rw [hr hs] at this; cases this
    have := hi.recv
    rw [st.settled_eq hn] at this
    exact ⟨this, hi.did⟩
  have hw := wire_step e x.s s' op sound hi.wire h
  have same : s'.link = x.s.link → s'.deque = x.s.deque → s'.cfg = x.s.cfg → op.isReceive = false →
      ThreadInv e { x with s := s' } st ∧ s'.deque = x.s.deque ++ accepts1 op s' := by
    intro h1 h2 h3 h4
    refine ⟨⟨hi.fits, fun hf => ?_, hi.recv.settled_congr h1 h2, ?_, hw⟩, ?_⟩
    · show s'.deque ≠ []
      rw [h2]; exact hi.front hf
    · show s'.cfg.did.length = 4
      rw [h3]; exact hi.did
    · rw [h2, accepts1, h4]; exact (List.append_nil _).symm
  cases op with
  | receive t r =>
    have hs := sound nofun nofun
    have hd : s'.deque = x.s.deque ++ accepts1 (.receive t r) s' := by
      obtain ⟨hpe, hpn⟩ := receive_packetEnd e x.s s' hs.recv t r h
      simp only [accepts1, RxOp.isReceive, Bool.true_and]
      cases hb : s'.packetEnd with
      | false => rw [(hpn hb).2]; simp
      | true =>
        obtain ⟨-, -, h5, h6⟩ := hpe hb
        cases hl : isLogon s'.link.packet with
        | false => rw [h5 hl]; simp
        | true => rw [h6 hl]; simp
    have hn : st.resets = false := by
      cases hs : st.resets
      · rfl
      · cases hr hs
    refine ⟨⟨hi.fits, fun hf => ?_, ?_, ?_, hw⟩, hd⟩
    · show s'.deque ≠ []
      rw [hd]
      exact fun h => hi.front hf (List.append_eq_nil_iff.mp h).1
    · rw [st.settled_eq hn]; exact hs.recv.step _ h
    · show s'.cfg.did.length = 4
      rw [((receive_frame e x.s hs.recv.room t r).out _ h).cfg]; exact hi.did
  | biDiChannel1 =>
    simp only [Rx.step, Except.ok.injEq] at h
    obtain ⟨q, evs, h1⟩ := channel1_eq x.s
    rw [h1] at h
    subst h
    exact same rfl rfl rfl rfl
  | biDiChannel2 =>
    obtain ⟨q, evs, h1, -⟩ := channel2_eq x.s s' h
    subst h1
    exact same rfl rfl rfl rfl
  | _ => cases hop

theorem Stage.resets_line {x : Preempted} {st : Stage} (hf : st.Fits e x.prog) (h : st.resets = true) :
    x.line = some 871 ∨ x.line = some 872 := by
  cases st <;> first | cases h | skip
  rename_i i
  have hf : x.prog = resetFrom i := hf
  unfold Preempted.line
  rw [hf]
  match i with
  | 0 => exact .inr rfl
  | 1 => exact .inl rfl
  | 2 => exact .inl rfl
  | _ + 3 => exact .inl rfl

theorem current_append {s s' : Rx} {st : Stage} {l : List Packet} (h : s'.deque = s.deque ++ l)
    (hf : st = .before ∨ st = .during → s.deque ≠ []) : st.current s' = st.current s := by
  cases st <;> first | rfl | skip
  have := hf (.inr rfl)
  show s'.deque.take 1 = s.deque.take 1
  rw [h]
  cases hd : s.deque with
  | nil => exact absurd hd this
  | cons a b => rfl

/-- What happens to the packets in a step. -/
structure Moves (x x' : Preempted) (m : Beat) (st st' : Stage) : Prop where
  queue : x.s.deque ++
      (if m.isReceive && x'.s.packetEnd && !isLogon x'.s.link.packet then [x'.s.link.packet] else []) =
    (if m = .access ∧ x.line.any ([281].contains ·) then x.s.deque.take 1 else []) ++ x'.s.deque
  order : st.current x.s ++
      (if m = .access ∧ x.line.any ([291, 315].contains ·) then x.s.deque.take 1 else []) =
    (if m = .access ∧ x.line.any ([281].contains ·) then x.s.deque.take 1 else []) ++ st'.current x'.s
  off : m ≠ .start .disable → st.isOff = false → st'.isOff = false

theorem ThreadInv.step {x x' : Preempted} {st : Stage} {m : Beat} (hi : ThreadInv e x st)
    (hm : resetAlone x m) (h : x.step e m = .ok x') :
    ∃ st', ThreadInv e x' st' ∧ Moves x x' m st st' := by
  have int : ∀ op : RxOp, op.inInterrupt = true → (op.isReceive = m.isReceive) → m ≠ .access →
      x.interrupt e op = .ok x' → ∃ st', ThreadInv e x' st' ∧ Moves x x' m st st' := by
    intro op ho hr hna h
    unfold Preempted.interrupt at h
    split at h
    case h_2 => cases h
    case h_1 s1 h1 =>
    cases h
    obtain ⟨h2, h3⟩ := hi.call ho (fun hs => hr ▸ hm (Stage.resets_line hi.fits hs)) h1
    refine ⟨st, h2, ?_, ?_, fun _ => id⟩
    · rw [accepts1, hr] at h3
      rw [if_neg (c := _ ∧ _) (fun h => hna h.1)]
      exact h3.symm
    · rw [if_neg (c := _ ∧ _) (fun h => hna h.1), if_neg (c := _ ∧ _) (fun h => hna h.1)]
      exact (List.append_nil _).trans (current_append h3 hi.front).symm
  cases m with
  | access =>
    obtain ⟨st', h1, h2⟩ := hi.access h
    refine ⟨st', h1, ?_, ?_, fun _ => h2.off⟩
    · have := h2.queue
      simp only [Preempted.at] at this
      simpa [Beat.isReceive] using this
    · have := h2.order
      simp only [Preempted.at] at this
      simpa using this
  | start op =>
    obtain ⟨s, p⟩ := x
    cases p with
    | ret a =>
      simp only [Preempted.step, Except.ok.injEq] at h
      subst h
      have h1 : st.resets = false := by
        cases hs : st.resets
        · rfl
        · have := Stage.resets_line hi.fits hs
          simp [Preempted.line] at this
      have h2 : (Stage.begin op).resets = false := by cases op <;> rfl
      have hb : ¬ (Stage.begin op = .before ∨ Stage.begin op = .during) := by cases op <;> simp [Stage.begin]
      have hc : st.current s = [] := by
        cases st <;> first | rfl | skip
        exact nomatch (hi.fits : During e _)
      have hc' : (Stage.begin op).current s = [] := by cases op <;> rfl
      have hr := hi.recv
      rw [st.settled_eq h1] at hr
      refine ⟨.begin op, ⟨fits_begin op, fun h => absurd h hb, ?_, hi.did, hi.wire⟩, ?_, ?_, fun hm _ => ?_⟩
      · rw [Stage.settled_eq h2]; exact hr
      · simp [Beat.isReceive]
      · simp [hc, hc']
      · cases op <;> first | rfl | exact absurd rfl hm
    | atom l f k =>
      cases h
      exact ⟨st, hi, by simp [Beat.isReceive], by simp, fun _ => id⟩
  | receive t r => exact int (.receive t r) rfl rfl nofun h
  | biDiChannel1 => exact int .biDiChannel1 rfl rfl nofun h
  | biDiChannel2 => exact int .biDiChannel2 rfl rfl nofun h

theorem ThreadInv.start (e : Env) : ThreadInv e {} .plain :=
  ⟨.inl trivial, by simp, (Reachable.start (e := e)).recvInv, rfl, ⟨.nil, .nil, DynInv.nil e, .nil, .nil⟩⟩

theorem ThreadInv.run (ms : List Beat) : ∀ {x x' : Preempted} {st : Stage}, ThreadInv e x st →
    Always e resetAlone x ms → x.run e ms = .ok x' → ∃ st', ThreadInv e x' st' ∧
      x.s.deque ++ acceptedBy e x ms = removedBy e x ms ++ x'.s.deque ∧
      st.current x.s ++ executedBy e x ms = removedBy e x ms ++ st'.current x'.s := by
  induction ms with
  | nil =>
    intro x x' st hi _ h
    cases h
    exact ⟨st, hi, by simp [acceptedBy, removedBy, frontAt, collect],
      by simp [executedBy, removedBy, frontAt, collect]⟩
  | cons m ms ih =>
    intro x x' st hi ha h
    rw [Preempted.run, bind_eq_ok] at h
    obtain ⟨x1, h1, h⟩ := h
    obtain ⟨st1, h2, h3⟩ := hi.step ha.1 h1
    obtain ⟨st', h4, h5, h6⟩ := ih h2 (ha.2 x1 h1) h
    refine ⟨st', h4, ?_, ?_⟩
    · simp only [acceptedBy, removedBy, frontAt, collect, h1] at h5 ⊢
      rw [← List.append_assoc, h3.queue, List.append_assoc, h5, List.append_assoc]
    · simp only [executedBy, removedBy, frontAt, collect, h1] at h6 ⊢
      rw [← List.append_assoc, h3.order, List.append_assoc, h6, List.append_assoc]

/-! ### No overflow -/

/-- No queue grew. -/
structure Fewer (s s' : Rx) : Prop where
  adr : s'.q.adr.length ≤ s.q.adr.length
  pom : s'.q.pom.length ≤ s.q.pom.length
  tos : s'.q.tos.length ≤ s.q.tos.length
  dyn : s'.q.dyn.length ≤ s.q.dyn.length

theorem Fewer.refl (s : Rx) : Fewer s s :=
  ⟨Nat.le_refl _, Nat.le_refl _, Nat.le_refl _, Nat.le_refl _⟩

theorem appDynLoop_length (q : List (List Byte)) : ∀ first, (appDynLoop first q).2.length ≤ q.length := by
  induction q with
  | nil => intro first; exact Nat.le_refl _
  | cons d rest ih =>
    intro first
    unfold appDynLoop
    split
    · exact Nat.le_trans (ih _) (Nat.le_succ _)
    · exact Nat.le_refl _

theorem fewer_appAdr (s : Rx) : Fewer s s.appAdr := by
  unfold Rx.appAdr
  split
  · exact .refl s
  · rename_i h
    exact ⟨by rw [h]; exact Nat.le_succ _, Nat.le_refl _, Nat.le_refl _, Nat.le_refl _⟩

theorem fewer_appPom (s : Rx) : Fewer s s.appPom := by
  unfold Rx.appPom
  repeat' split
  · exact .refl s
  · exact ⟨Nat.le_refl _, Nat.le_refl _, Nat.le_refl _, Nat.le_refl _⟩
  · exact .refl s
  · rename_i h
    exact ⟨Nat.le_refl _, by rw [h]; exact Nat.le_succ _, Nat.le_refl _, Nat.le_refl _⟩

theorem fewer_appTos (s : Rx) : Fewer s s.appTos := by
  unfold Rx.appTos
  split
  · exact .refl s
  · rename_i h
    exact ⟨Nat.le_refl _, Nat.le_refl _, by rw [h]; exact Nat.le_succ _, Nat.le_refl _⟩

theorem fewer_appDyn (s : Rx) : Fewer s s.appDyn := by
  unfold Rx.appDyn
  split
  · exact .refl s
  · rename_i d rest h
    refine ⟨Nat.le_refl _, Nat.le_refl _, Nat.le_refl _, ?_⟩
    rw [h]
    exact Nat.le_trans (appDynLoop_length rest d) (Nat.le_succ _)

theorem fewer_appLogon1 (s : Rx) : Fewer s s.appLogon1 := by
  unfold Rx.appLogon1
  split <;> exact ⟨Nat.le_refl _, Nat.le_refl _, Nat.le_refl _, Nat.le_refl _⟩

theorem fewer_appLogon2 (s : Rx) : Fewer s s.appLogon2 := by
  unfold Rx.appLogon2
  split <;> exact ⟨Nat.le_refl _, Nat.le_refl _, Nat.le_refl _, Nat.le_refl _⟩

theorem Calm.interrupt {x : Preempted} {s' : Rx} {st : Stage} {op : RxOp} (hi : ThreadInv e x st)
    (hop : op.inInterrupt = true) (hr : st.resets = true → op.isReceive = false)
    (h : x.s.step e op = .ok s') : Calm e x.s s' := by
  have hw := (hi.call hop hr h).1.wire.dyn.room
  have calm : Fewer x.s s' → Calm e x.s s' := fun h => ⟨h.adr, h.pom, h.tos, h.dyn, hw⟩
  apply calm
  cases op with
  | receive t r =>
    have hn : st.resets = false := by
      cases hs : st.resets
      · rfl
      · have := hr hs
        cases this
    have hrecv := hi.recv
    rw [st.settled_eq hn] at hrecv
    have f := (receive_frame e x.s hrecv.room t r).out _ h
    exact ⟨Nat.le_of_eq (congrArg _ f.adr), Nat.le_of_eq (congrArg _ f.pom),
      Nat.le_of_eq (congrArg _ f.tos), Nat.le_of_eq (congrArg _ f.dyn)⟩
  | biDiChannel1 =>
    simp only [Rx.step, Except.ok.injEq] at h
    rw [← h, Rx.biDiChannel1]
    split
    · exact fewer_appAdr _
    · exact fewer_appAdr _
    · exact fewer_appAdr _
    · exact fewer_appLogon1 _
    · exact .refl _
  | biDiChannel2 =>
    rw [channel2_cutout x.s s' h]
    cases cutout x.s with
    | nothing => exact .refl _
    | tipOff => exact fewer_appTos _
    | cv => exact fewer_appPom _
    | dynamic => exact fewer_appDyn _
    | logon => exact fewer_appLogon2 _
  | _ => cases hop

/-- The rest of the call does not overflow a queue. -/
theorem Safe.step {x x' : Preempted} {st : Stage} {m : Beat} (hi : ThreadInv e x st)
    (hs : Safe e x.prog (fun _ _ => True) x.s) (hm : resetAlone x m) (h : x.step e m = .ok x') :
    Safe e x'.prog (fun _ _ => True) x'.s := by
  have int : ∀ op : RxOp, op.inInterrupt = true → (op.isReceive = m.isReceive) →
      x.interrupt e op = .ok x' → Safe e x'.prog (fun _ _ => True) x'.s := by
    intro op ho hr h
    unfold Preempted.interrupt at h
    split at h
    case h_2 => cases h
    case h_1 s1 h1 =>
    cases h
    exact hs.calm (.interrupt hi ho (fun h => hr ▸ hm (Stage.resets_line hi.fits h)) h1)
  cases m with
  | access =>
    obtain ⟨s, p⟩ := x
    cases p with
    | ret a => cases h; trivial
    | atom l f k =>
      simp only [Preempted.step, Preempted.access] at h
      split at h
      case h_2 => cases h
      case h_1 s1 b hb =>
      cases h
      exact (hs s ⟨Nat.le_refl _, Nat.le_refl _, Nat.le_refl _, Nat.le_refl _, hi.wire.dyn.room⟩).2 s1 b hb
  | start op =>
    obtain ⟨s, p⟩ := x
    cases p with
    | ret a => cases h; exact safe_thread op s
    | atom l f k => cases h; exact hs
  | receive t r => exact int (.receive t r) rfl rfl h
  | biDiChannel1 => exact int .biDiChannel1 rfl rfl h
  | biDiChannel2 => exact int .biDiChannel2 rfl rfl h

theorem Safe.run (ms : List Beat) : ∀ {x x' : Preempted} {st : Stage}, ThreadInv e x st →
    Safe e x.prog (fun _ _ => True) x.s → Always e resetAlone x ms → x.run e ms = .ok x' →
    Safe e x'.prog (fun _ _ => True) x'.s := by
  induction ms with
  | nil => intro x x' st _ hs _ h; cases h; exact hs
  | cons m ms ih =>
    intro x x' st hi hs ha h
    rw [Preempted.run, bind_eq_ok] at h
    obtain ⟨x1, h1, h⟩ := h
    obtain ⟨st1, h2, -⟩ := hi.step ha.1 h1
    exact ih h2 (.step hi hs ha.1 h1) (ha.2 x1 h1) h

/-! ### Where the thread may be when it is not in `disable` -/

theorem Stage.off_line {x : Preempted} {st : Stage} (hf : st.Fits e x.prog) (h : st.isOff = false) :
    x.line ≠ some 871 ∧ x.line ≠ some 872 := by
  obtain ⟨s, p⟩ := x
  cases p with
  | ret a => exact ⟨nofun, nofun⟩
  | atom l f k =>
    have plain : plainLine l → (Preempted.mk s (.atom l f k)).line ≠ some 871 ∧
        (Preempted.mk s (.atom l f k)).line ≠ some 872 := fun h =>
      ⟨fun hl => h.2.2.2.1 (Option.some.inj hl), fun hl => h.2.2.2.2 (Option.some.inj hl)⟩
    cases st with
    | plain =>
      rcases hf with hp | ⟨k', hk, -⟩
      · exact plain hp.1
      · cases hk; exact plain (by decide)
    | looking =>
      obtain ⟨k', hk, -⟩ := hf
      cases hk; exact plain (by decide)
    | before =>
      have hf : Before e (.atom l f k) := hf
      cases hf with
      | step _ _ _ hl => exact plain hl
      | fetch _ hl => rcases hl with rfl | rfl <;> exact ⟨nofun, nofun⟩
    | during =>
      have hf : During e (.atom l f k) := hf
      cases hf with
      | step _ _ _ hl => exact plain hl
      | pop => exact ⟨nofun, nofun⟩
    | off => cases h
    | reset i => cases h

theorem Stage.front_line {x : Preempted} {st : Stage} (hf : st.Fits e x.prog)
    (h : x.line.any ([281, 291, 315].contains ·)) : st = .before ∨ st = .during := by
  obtain ⟨s, p⟩ := x
  cases p with
  | ret a => cases h
  | atom l f k =>
    have hl : l = 281 ∨ l = 291 ∨ l = 315 := by simpa [Preempted.line] using h
    have plain : ¬ plainLine l := fun hp => by
      rcases hl with h | h | h
      · exact hp.1 h
      · exact hp.2.1 h
      · exact hp.2.2.1 h
    cases st with
    | plain =>
      rcases hf with hp | ⟨k', hk, -⟩
      · exact absurd hp.1 plain
      · cases hk; exact absurd (by decide) plain
    | looking =>
      obtain ⟨k', hk, -⟩ := hf
      cases hk; exact absurd (by decide) plain
    | before => exact .inl rfl
    | during => exact .inr rfl
    | off =>
      rcases hf with hk | hk <;> cases hk <;> exact absurd (by decide) plain
    | reset i =>
      have hf : Prog.atom l f k = resetFrom i := hf
      match i with
      | 0 => cases hf; simp at hl
      | 1 => cases hf; simp at hl
      | 2 => cases hf; simp at hl
      | _ + 3 => cases hf; simp at hl

theorem always_resetAlone (ms : List Beat) (hms : ∀ m ∈ ms, m ≠ .start .disable) :
    ∀ {x : Preempted} {st : Stage}, ThreadInv e x st → st.isOff = false → Always e resetAlone x ms := by
  induction ms with
  | nil => intro x st _ _; trivial
  | cons m ms ih =>
    intro x st hi ho
    have hm : resetAlone x m := fun h => by
      have := Stage.off_line hi.fits ho
      rcases h with h | h
      · exact absurd h this.1
      · exact absurd h this.2
    refine ⟨hm, fun x' h => ?_⟩
    obtain ⟨st', h1, h2⟩ := hi.step hm h
    exact ih (fun m h => hms m (.tail _ h)) h1 (h2.off (hms m (.head _)) ho)

/-! ### The theorems -/

/-- **C71** Without interrupts the accesses of a call do what the call does in the other properties, with
the same fault if there is one. -/
theorem C71_uninterrupted (e : Env) (s : Rx) (op : RxOp) (h : op.inThread = true) :
    ∃ n, Preempted.run e { s := s } (.start op :: .replicate n .access) =
      (s.step e op).map fun s' => { s := s' } := by
  have key : ∀ (p : Prog Unit) (s : Rx), ∃ n, Preempted.run e { s := s, prog := p } (.replicate n .access) =
      (p.run s).map fun r => { s := r.1 } := by
    intro p
    induction p with
    | ret a => intro s; exact ⟨0, rfl⟩
    | atom l f k ih =>
      intro s
      cases hf : f s with
      | error x =>
        refine ⟨1, ?_⟩
        simp only [List.replicate, Preempted.run, Preempted.step, Preempted.access, hf, Prog.run]
        rfl
      | ok r =>
        obtain ⟨s1, b⟩ := r
        obtain ⟨n, hn⟩ := ih b s1
        refine ⟨n + 1, ?_⟩
        simp only [List.replicate, Preempted.run, Preempted.step, Preempted.access, hf, Prog.run]
        exact hn
  obtain ⟨n, hn⟩ := key (Thread.calls e op) s
  refine ⟨n, ?_⟩
  rw [Preempted.run]
  show Preempted.run e { s := s, prog := Thread.calls e op } _ = _
  rw [hn, run_calls e op s h]
  cases s.step e op <;> rfl

/-- **C71** Whatever the interrupts do between any two accesses of the thread, the packets accepted are
those removed and those waiting, in order.  The packets executed are those removed and possibly the
one in front, which is then being executed: every packet accepted is executed exactly once, in the
order of reception. -/
theorem C71_once_in_order (e : Env) (ms : List Beat) (x : Preempted) (ha : Always e resetAlone {} ms)
    (h : ({} : Preempted).run e ms = .ok x) :
    acceptedBy e {} ms = removedBy e {} ms ++ x.s.deque ∧
      (executedBy e {} ms = removedBy e {} ms ∨
        ∃ p rest, x.s.deque = p :: rest ∧ executedBy e {} ms = removedBy e {} ms ++ [p]) := by
  obtain ⟨st, hi, h1, h2⟩ := (ThreadInv.start e).run ms ha h
  refine ⟨h1, ?_⟩
  have h2 : executedBy e {} ms = removedBy e {} ms ++ st.current x.s := h2
  cases st
  case during =>
    cases hd : x.s.deque with
    | nil => exact absurd hd (hi.front (.inr rfl))
    | cons p rest =>
      refine .inr ⟨p, rest, rfl, h2.trans ?_⟩
      show _ ++ x.s.deque.take 1 = _
      rw [hd]; rfl
  all_goals exact .inl (h2.trans (List.append_nil _))

/-- **C71** Neither the queue nor the packet buffer gets larger than it is, and only valid packets
wait. -/
theorem C71_bounds (e : Env) (ms : List Beat) (x : Preempted) (ha : Always e resetAlone {} ms)
    (h : ({} : Preempted).run e ms = .ok x) :
    x.s.deque.length ≤ e.rxDeque ∧ (∀ p ∈ x.s.deque, ValidPacket p) ∧
      x.s.link.packet.length ≤ maxPacketSize := by
  obtain ⟨st, hi, -⟩ := (ThreadInv.start e).run ms ha h
  have hd : (st.settled x.s).deque = x.s.deque := by cases st <;> rfl
  have hp : (st.settled x.s).link.packet = x.s.link.packet := by
    cases st <;> first | rfl | skip
    rename_i i
    match i with
    | 0 => rfl
    | 1 => rfl
    | 2 => rfl
    | _ + 3 => rfl
  exact ⟨hd ▸ hi.recv.room, fun p h => (hi.recv.valid p (hd ▸ h)).1, hp ▸ hi.recv.link.len⟩

/-- **C71** `_deque.front()` and `_deque.pop_front()` are only called while a packet waits, and nothing
but this `pop_front()` takes a packet from the queue. -/
theorem C71_front (e : Env) (ms : List Beat) (x x' : Preempted) (m : Beat) (ha : Always e resetAlone {} ms)
    (h : ({} : Preempted).run e ms = .ok x) (hm : resetAlone x m) (h' : x.step e m = .ok x') :
    (x.line.any ([281, 291, 315].contains ·) → x.s.deque ≠ []) ∧
      (¬ (m = .access ∧ x.line = some 281) → x.s.deque <+: x'.s.deque) := by
  obtain ⟨st, hi, -⟩ := (ThreadInv.start e).run ms ha h
  refine ⟨fun hl => hi.front (Stage.front_line hi.fits hl), fun hl => ?_⟩
  obtain ⟨st', -, h2⟩ := hi.step hm h'
  have := h2.queue
  rw [if_neg (c := m = .access ∧ _) (fun h => hl ⟨h.1, by
    have h := h.2
    cases hx : x.line with
    | none => rw [hx] at h; cases h
    | some l => rw [hx] at h; simpa using h⟩)] at this
  exact ⟨_, this⟩

/-- **C71** Whatever is transmitted is well formed as in C49, and the thread transmits nothing. -/
theorem C71_well_formed (e : Env) (ms : List Beat) (x x' : Preempted) (m : Beat)
    (ha : Always e resetAlone {} ms) (h : ({} : Preempted).run e ms = .ok x) (hm : resetAlone x m)
    (h' : x.step e m = .ok x') :
    match m.call? with
    | some op => WellFormed op (transmitted (newCalls x.s x'.s))
    | none => transmitted (newCalls x.s x'.s) = [] := by
  obtain ⟨st, hi, -⟩ := (ThreadInv.start e).run ms ha h
  have int : ∀ op : RxOp, op.inInterrupt = true → (op.isReceive = m.isReceive) →
      x.interrupt e op = .ok x' → WellFormed op (transmitted (newCalls x.s x'.s)) := by
    intro op ho hr h
    unfold Preempted.interrupt at h
    split at h
    case h_2 => cases h
    case h_1 s1 h1 =>
    cases h
    refine wire_sends e x.s s1 op (fun h1 h2 => ?_) hi.wire h1
    have : op.isReceive = true := by
      cases op <;> first | rfl | exact absurd rfl h1 | exact absurd rfl h2 | cases ho
    have hn : st.resets = false := by
      cases hs : st.resets
      · rfl
      · rw [hr, hm (Stage.resets_line hi.fits hs)] at this; cases this
    have hrecv := hi.recv
    rw [st.settled_eq hn] at hrecv
    exact ⟨hrecv, hi.did⟩
  cases m with
  | access =>
    obtain ⟨st', -, h2⟩ := hi.access h'
    exact h2.silent
  | start op =>
    show transmitted (newCalls x.s x'.s) = []
    have : x'.s = x.s := by
      simp only [Preempted.step] at h'
      split at h' <;> (cases h'; rfl)
    rw [newCalls_self (congrArg _ this)]; rfl
  | receive t r => exact int (.receive t r) rfl rfl h'
  | biDiChannel1 => exact int .biDiChannel1 rfl rfl h'
  | biDiChannel2 => exact int .biDiChannel2 rfl rfl h'

/-- **C71** No access of the thread overflows a queue. -/
theorem C71_no_overflow (e : Env) (ms : List Beat) (x : Preempted) (ha : Always e resetAlone {} ms)
    (h : ({} : Preempted).run e ms = .ok x) : x.access ≠ .error .overflow := by
  obtain ⟨st, hi, -⟩ := (ThreadInv.start e).run ms ha h
  have hs := Safe.run ms (ThreadInv.start e) (by trivial) ha h
  obtain ⟨s, p⟩ := x
  cases p with
  | ret a => nofun
  | atom l f k =>
    have := (hs s ⟨Nat.le_refl _, Nat.le_refl _, Nat.le_refl _, Nat.le_refl _, hi.wire.dyn.room⟩).1
    simp only [Preempted.access]
    split
    · nofun
    · rename_i f hf
      intro h
      cases h
      exact this hf

/-- **C71** The assumption made in C71 holds for every history without `disable()`. -/
theorem C71_without_disable (e : Env) (ms : List Beat) (h : ∀ m ∈ ms, m ≠ .start .disable) :
    Always e resetAlone {} ms := always_resetAlone ms h (ThreadInv.start e) rfl

/-! ### Examples -/

/-- A packet received in interrupts. -/
def beats (p : Packet) : List Beat := (Spec.packetWave {} p ++ [58]).map fun t => .receive t 0

/-- A whole call of the thread, if it makes at most that many accesses. -/
def whole (op : RxOp) (n : Nat) : List Beat := .start op :: .replicate n .access

/-- A speed packet arrives while the thread is in `adr`, and one more and a cutout come between the
execution of the first and its removal. -/
def finePreempted : List Beat :=
  whole .init 100 ++ whole .enable 10 ++ beats [0xFF#8, 0#8, 0xFF#8] ++
    .start (.execute 0 0) :: .replicate 7 .access ++ beats [3#8, 0x3F#8, 0x80#8, 0xBC#8] ++
    .replicate 14 .access ++ [.biDiChannel1, .biDiChannel2] ++ .replicate 1 .access ++
    whole (.execute 1 0) 100

example : acceptedBy exampleEnv {} finePreempted =
      [[0xFF#8, 0#8, 0xFF#8], [3#8, 0x3F#8, 0x80#8, 0xBC#8]] ∧
    removedBy exampleEnv {} finePreempted =
      [[0xFF#8, 0#8, 0xFF#8], [3#8, 0x3F#8, 0x80#8, 0xBC#8]] ∧
    executedBy exampleEnv {} finePreempted =
      [[0xFF#8, 0#8, 0xFF#8], [3#8, 0x3F#8, 0x80#8, 0xBC#8]] := by
  refine ⟨by decide +kernel, by decide +kernel, by decide +kernel⟩

/-- Whether something holds after a history. -/
def thenHolds (r : R Preempted) (P : Preempted → Bool) : Bool :=
  match r with
  | .ok x => P x
  | .error _ => false

example : Always exampleEnv resetAlone {} finePreempted :=
  C71_without_disable _ _ (by decide +kernel)

/-- The second packet arrived in the middle of `adr`, and both wait in front of the removal of the
first. -/
example : thenHolds (({} : Preempted).run exampleEnv (finePreempted.take 336)) (fun x =>
    x.line == some 281 && x.s.deque == [[0xFF#8, 0#8, 0xFF#8], [3#8, 0x3F#8, 0x80#8, 0xBC#8]]) = true := by
  decide +kernel

instance decideAlways (e : Env) (P : Preempted → Beat → Prop) [∀ x m, Decidable (P x m)] :
    ∀ (x : Preempted) (ms : List Beat), Decidable (Always e P x ms)
  | _, [] => isTrue trivial
  | x, m :: ms =>
    match h : x.step e m with
    | .error _ => decidable_of_iff (P x m) ⟨fun hp => ⟨hp, fun x' h' => by rw [h] at h'; cases h'⟩, And.left⟩
    | .ok x1 =>
      have := decideAlways e P x1 ms
      decidable_of_iff (P x m ∧ Always e P x1 ms)
        ⟨fun hp => ⟨hp.1, fun x' h' => by rw [h] at h'; cases h'; exact hp.2⟩, fun hp => ⟨hp.1, hp.2 x1 h⟩⟩

instance (x : Preempted) (m : Beat) : Decidable (resetAlone x m) :=
  inferInstanceAs (Decidable (_ → _))

/-- The thread disables and enables the decoder again while packets are received, but none between the
assignments of `reset`. -/
example : Always exampleEnv resetAlone {}
    (whole .init 40 ++ whole .enable 4 ++ (beats [0xFF#8, 0#8, 0xFF#8]).take 60 ++
      .start .disable :: .access :: (beats [3#8, 0x3F#8, 0x80#8, 0xBC#8]).take 60 ++
      .replicate 5 .access ++ beats [3#8, 0x3F#8, 0x80#8, 0xBC#8]) := by
  decide +kernel

end Dcc
