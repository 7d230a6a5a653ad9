import Verif.Lemmas.RxDecoderRun
import Verif.Props.Engine
import Verif.Props.Programming
/-! A receiver that does not log on is an abstract decoder: C101. -/
namespace Dcc
open Spec

theorem waits {q : List (List Byte)} {w : Option Byte} (h : q = w.toList.map pomBytes) :
    q.map understood = w.toList.map fun v => some (.value v) := by
  rw [h]
  cases w with
  | none => rfl
  | some v => simp [understood_value]

/-- **C101** A receiver always is some abstract decoder. -/
theorem C101_exists {e : Env} {s : Rx} (hr : Reachable e s) (m : BitVec 32 → Byte) : ∃ d, IsDecoder m s d := by
  obtain ⟨w, hw⟩ := waiting_value hr
  exact ⟨⟨_, _, _, _, _, w⟩, rfl, rfl, rfl, rfl, rfl, waits hw⟩

theorem is_decoder {e : Env} {m : BitVec 32 → Byte} (hm : Memory e m) {s : Rx} (hr : Reachable e s)
    (hs : Settled m s) {d : Decoder} (hd : IsDecoder m s d) : Is m d s := by
  have hw : s.q.pom = d.waiting.toList.map pomBytes := by
    obtain ⟨w, hw⟩ := waiting_value hr
    have h1 := (waits hw).symm.trans hd.waiting
    suffices w = d.waiting by rw [hw, this]
    cases w <;> cases hd : d.waiting <;> simp_all
  exact ⟨⟨hd.cvs, hd.service, hd.page, hd.last, hd.count, hw, hs.address, no_callbacks hm.sync hm.syncRead hr⟩,
    by have := hs.reflects; rwa [hd.cvs] at this⟩

theorem decoder_is {m : BitVec 32 → Byte} {s : Rx} {d : Decoder} (h : Is m d s) : IsDecoder m s d :=
  ⟨h.cvs, h.service, h.page, h.last, h.count, waits h.pom⟩

/-- **C101** Executing any packet does what the abstract decoder does, and it is a fault exactly if it is one
there, provided the clock has not gone back a second. -/
theorem C101_execute (e : Env) (m : BitVec 32 → Byte) (hm : Memory e m) (s : Rx) (hr : Reachable e s)
    (hs : Settled m s) (d : Decoder) (hd : IsDecoder m s d) (p : Packet) (hp : front s = some p) (now : Int)
    (rand : Nat) (hc : s.tosTp < now + 1000000000) :
    match d.execute e.eastWest p with
    | none => s.execute e now rand = .error .oob
    | some (d', calls) => ∃ s' ret, s.execute e now rand = .ok (s', ret) ∧ IsDecoder m s' d' ∧
        sessionCalls s s' = calls ∧ Settled m s' := by
  rcases meets_execute hm (is_decoder hm hr hs hd) hs.store hr.lengths hp now rand with h | h
  · omega
  cases hx : s.execute e now rand with
  | error f =>
    rw [hx] at h
    cases hy : d.execute e.eastWest p with
    | none =>
      rw [hy] at h
      have h : f = .oob := h
      rw [h]
    | some y => rw [hy] at h; exact h.elim
  | ok x =>
    rw [hx] at h
    obtain ⟨y, hy, hb⟩ := Meets.became h
    rw [hy]
    refine ⟨x.1, x.2, rfl, decoder_is hb.is, hb.calls, ?_⟩
    have ha : x.1.logon.assigned = false := (execute_assigned (ret := x.2) hx).1.trans hs.assigned
    have := step_keeps hm.toMemoryLike s x.1 hr hs.store (.execute now rand) (by
      show (do return (← s.execute e now rand).1 : R Rx) = _
      rw [hx]; rfl) ha
    exact ⟨this.2, ha, hb.is.logon, this.1.out hs.reflects⟩

/-- **C101** Any history in which no address is assigned, and which ends without a fault: the packets executed
and the cutouts after CV accesses make of the decoder what they make of the abstract one, with the same calls
and the same answers. -/
theorem C101_history (e : Env) (m : BitVec 32 → Byte) (hm : Memory e m) (s s' : Rx) (hr : Reachable e s)
    (hs : Settled m s) (d : Decoder) (hd : IsDecoder m s d) (ops : List RxOp)
    (hl : Along (fun x => x.logon.assigned = false) e s ops) (ho : s.run e ops = .ok s') :
    ∃ d' calls messages, d.run e.eastWest (mainSteps e s ops) = some (d', calls, messages) ∧ IsDecoder m s' d' ∧
      sessionCalls s s' = calls ∧ (sent (inChannel2 .cv) e s ops).map understood = messages.map some ∧
      Settled m s' := by
  obtain ⟨x, h1, h2, h3, h4⟩ := decoder_run hm ops s s' d hr hs (is_decoder hm hr hs hd) hl ho
  exact ⟨x.1, x.2.1, x.2.2, h1, decoder_is h2.is, h2.calls, h4, h3⟩

/-- **C101** A decoder whose CVs have an address can be switched on, and is a new decoder then. -/
theorem C101_new (e : Env) (m : BitVec 32 → Byte) (hm : Memory e m) (ha : HasAddress m) :
    ∃ s, ({} : Rx).run e [.init] = .ok s ∧ Reachable e s ∧ Settled m s ∧ IsDecoder m s (.new m) := by
  obtain ⟨s, h⟩ := init_total hm.toMemoryLike {} ha
  have h' : ({} : Rx).run e [.init] = .ok s := by simp only [Rx.run, Rx.step, h]; rfl
  have hf := (frame_init e {}).out _ h
  obtain ⟨h1, h2⟩ := init_reflects hm.toMemoryLike h
  refine ⟨s, h', Reachable.of_run h', ⟨hf.store, hf.assigned, by rw [hf.logonAddr]; rfl, h1⟩, ?_⟩
  obtain ⟨cv29, prim, a, v, evs, -, -, -, -, hq, rfl⟩ := init_ok e {} s h
  exact ⟨h2, rfl, rfl, rfl, rfl, rfl⟩

/-- **C101** From the day it is switched on: every history without an assigned address. -/
theorem C101_life (e : Env) (m : BitVec 32 → Byte) (hm : Memory e m) (ops : List RxOp) (s : Rx)
    (hl : Along (fun x => x.logon.assigned = false) e {} (.init :: ops))
    (ho : ({} : Rx).run e (.init :: ops) = .ok s) :
    ∃ s0, ({} : Rx).run e [.init] = .ok s0 ∧
      ∃ d' calls messages, (Decoder.new m).run e.eastWest (mainSteps e s0 ops) = some (d', calls, messages) ∧
        IsDecoder m s d' ∧ s.trace.filter Event.isSession = calls ∧
        (sent (inChannel2 .cv) e s0 ops).map understood = messages.map some := by
  rw [Rx.run, bind_eq_ok] at ho
  obtain ⟨s0, h0, h1⟩ := ho
  have h0 : ({} : Rx).init e = .ok s0 := h0
  obtain ⟨g1, g2⟩ := init_reflects hm.toMemoryLike h0
  have ha : HasAddress m := by have := g1.address; rwa [g2] at this
  obtain ⟨s1, k1, k2, k3, k4⟩ := C101_new e m hm ha
  have : s1 = s0 := by
    have : ({} : Rx).run e [.init] = .ok s0 := by simp only [Rx.run, Rx.step, h0]; rfl
    rw [this] at k1
    cases k1; rfl
  subst this
  have hl := hl.2
  rw [show ({} : Rx).step e .init = .ok s1 from h0] at hl
  obtain ⟨x, r1, r2, -, r3⟩ := decoder_run hm ops s1 s _ k2 k3 (is_decoder hm k2 k3 k4) hl h1
  refine ⟨s1, k1, x.1, x.2.1, x.2.2, r1, decoder_is r2.is, ?_, r3⟩
  obtain ⟨tr, t1⟩ := r2.trace
  have t2 := (sessionCalls_of t1.symm).symm.trans r2.calls
  obtain ⟨cv29, prim, a, v, evs, -, -, -, -, hq, hi⟩ := init_ok e {} s1 h0
  rw [← t1, show s1.trace = [] ++ evs by rw [hi]; rfl, List.nil_append, List.filter_append, session_quiet hq, t2]
  rfl

/-! ### Examples -/

/-- On the main CV3 is written, the answer goes out, and a function is switched. -/
def onTheMain : List RxOp :=
  let w : Packet := [3#8, 0xEC#8, 2#8, 7#8, 0xEA#8]
  told w ++ told w ++ hears w ++ [.biDiChannel2, .execute 0 0] ++ told [3#8, 0x91#8, 0x92#8]

/-- In service mode the page register is written, and the first register of that page verified. -/
def inServiceMode : List RxOp :=
  told [0#8, 0#8, 0#8] ++ told [0x7D#8, 2#8, 0x7F#8] ++ told [0x70#8, 0#8, 0x70#8] ++ told [3#8, 0x91#8, 0x92#8]

example : Memory exampleEnv exampleCvs ∧ HasAddress exampleCvs := ⟨exampleEnv_memory, by decide +kernel⟩

example : Along (fun x => x.logon.assigned = false) exampleEnv {} (.init :: onTheMain) ∧
    holdsAfter (({} : Rx).run exampleEnv (.init :: onTheMain)) (fun s =>
      decide (s.trace.filter Event.isSession = [.writeCvByte 2#32 7#8 7#8, .readCvByte 2#32 7#8 7#8,
        .function 3#16 0x1F#32 3#32] ∧
        s.serviceMode = false)) = true ∧
    holdsAfter (({} : Rx).run exampleEnv [.init]) (fun s =>
      match (Decoder.new exampleCvs).run true (mainSteps exampleEnv s onTheMain) with
      | some (d, calls, messages) => decide (d.cvs 2#32 = 7#8 ∧ d.service = false ∧ d.count = 3 ∧
          calls = [.writeCvByte 2#32 7#8 7#8, .readCvByte 2#32 7#8 7#8,
        .function 3#16 0x1F#32 3#32] ∧ messages = [.value 7#8])
      | none => false) = true := by decide +kernel

example : Along (fun x => x.logon.assigned = false) exampleEnv {} (.init :: inServiceMode) ∧
    holdsAfter (({} : Rx).run exampleEnv (.init :: inServiceMode)) (fun s =>
      decide (s.trace.filter Event.isSession = [.serviceModeHook true, .readCvByte 4#32 0#8 0#8, .serviceAck,
        .serviceModeHook false])) = true ∧
    holdsAfter (({} : Rx).run exampleEnv [.init]) (fun s =>
      match (Decoder.new exampleCvs).run true (mainSteps exampleEnv s inServiceMode) with
      | some (d, calls, _) => decide (d.page = 2#8 ∧ calls = [.serviceModeHook true,
          .readCvByte 4#32 0#8 0#8, .serviceAck, .serviceModeHook false])
      | none => false) = true := by decide +kernel

/-- Writing 200 to CV1 leaves the decoder without an address, which is a fault: the second such packet. -/
example : let p : Packet := [3#8, 0xEC#8, 0#8, 200#8, 0x27#8]
    holdsAfter (({} : Rx).run exampleEnv (.init :: (told p ++ hears p))) (fun s =>
      decide (front s = some p ∧ s.tosTp < 1000000000) &&
      (match s.execute exampleEnv 0 0 with
      | .error .oob => true
      | _ => false) &&
      ((Decoder.new exampleCvs).execute true p).any fun x => (x.1.execute true p).isNone) = true := by
  decide +kernel

end Dcc
