import Verif.Lemmas.Repl
import Verif.Lemmas.RxMainTalk
import Verif.Props.Polling
/-! C78: the example program with a prompt, a command station and a decoder. -/
namespace Dcc

open Spec

theorem replEnv_deque : replEnv.rxDeque = 31 := rfl

/-- The station is initialised without assertion. -/
theorem repl_start : ∃ st, Repl.start = .ok st ∧ ReplInv st.line 3#16 [] [] ∧ st.line.tx.out = [] :=
  ⟨_, rfl, ⟨rfl, rfl, by decide, nofun, rfl, by decide⟩, rfl⟩

/-- **C78** A session with the example program: once the decoder's thread has initialised the decoder,
whatever is entered to drive locomotives with short addresses, in whatever order the threads run, the
program never faults, and the decoder does exactly what was entered, in this order, except for at most
one command it has received but not executed and those still in the FIFO or on their way. -/
theorem C78_session_partial (e : Env) (hroom : 2 ≤ e.rxDeque) (s : Rx) (hi : ({} : Rx).step e .init = .ok s)
    (st : Repl) (hst : Repl.start = .ok st) (steps : List ReplStep)
    (hd : ∀ x ∈ steps, DrivesShort x) (hp : Paced 0 steps) (hw : Patient st.line steps) :
    ∃ st', st.run e (.decoder :: steps) = .ok st' ∧
      ∃ done waiting unsent : List Command, entered 3#16 steps = done ++ waiting ++ unsent ∧
        drivingCalls s st'.rx = done.flatMap (Command.calls s) ∧ waiting.length ≤ 1 ∧
        unsent.length ≤ st'.line.fifo.length + st'.line.tx.s.size replDeque + 1 := by
  obtain ⟨st0, h0, inv0, hout⟩ := repl_start
  rw [h0] at hst
  cases hst
  obtain ⟨l', a', ops', xs, outs, i, hpt, hops, ho, htimes, hrun⟩ :=
    repl_run e steps st.line 3#16 [] [] 0 0 0 inv0 hd hp hw (by omega) (by omega)
  rw [List.nil_append] at i
  rw [hout, List.nil_append] at ho
  have hr : Reachable e s := Reachable.start.step .init hi
  have hready : Ready e s := by
    obtain ⟨_, _, _, _, _, -, -, -, -, -, rfl⟩ := init_ok e {} s hi
    exact ⟨rfl, rfl, by omega, rfl⟩
  -- what the station accepted
  let k := l'.tx.acc.length
  have hacc : l'.tx.acc.map (fun a => Except.ok a.2) = ((entered 3#16 steps).take k).map Command.packet := by
    rw [List.map_take, ← i.packets, List.map_append, List.take_append_of_le_length (by simp [k])]
    rw [List.take_of_length_le (by simp [k]), List.map_map]
    rfl
  have hlen : ((entered 3#16 steps).drop k).length = l'.fifo.length := by
    have := congrArg List.length i.packets
    simp only [List.length_map, List.length_append] at this
    rw [List.length_drop]
    omega
  obtain ⟨s', hs', done, waiting, unsent, h1, h2, h3, h4⟩ :=
    C76_station replDeque _ l'.tx i.tx _ (fun c hc => i.legal c (List.mem_of_mem_take hc)) hacc e hroom s hr
      hready 0 0 5885 (Nat.le_refl _) xs hpt hops (by rw [htimes, ho])
  refine ⟨{ line := l', rx := s', handler := true }, ?_, done, waiting,
    unsent ++ (entered 3#16 steps).drop k, ?_, h2, h3, ?_⟩
  · rw [Repl.run, Repl.step, hi]
    exact hrun s s' hs'
  · rw [← List.append_assoc, ← h1, List.take_append_drop]
  · rw [List.length_append, hlen]
    simp only
    omega

/-- **C78** `address` only changes the number, not the kind of the address: what is entered next gets
the packet for this locomotive if and only if the address is at most 127, and always goes to the short
address of the last eight bits. -/
theorem C78_address (l : ReplLine) (h : l.addr.type = .short) (a : BitVec 16) (state : Byte) :
    ∃ l1 l2 p, l.input (.address a) = .ok l1 ∧ l1.input (.f4f0 state) = .ok l2 ∧ l2.fifo = l.fifo ++ [p] ∧
      p.head? = some (BitVec.ofNat 8 a.toNat) ∧
      (makeF4F0Packet (locoAddress a) state = .ok p ↔ a.toNat ≤ 127) := by
  obtain ⟨⟨av, at'⟩, fifo, tx⟩ := l
  simp only at h
  subst h
  refine ⟨_, _, _, rfl, rfl, rfl, by simp, ?_⟩
  constructor
  · intro hp
    refine Decidable.byContradiction fun hn => ?_
    have hl : locoAddress a = { value := a, type := .long } := by
      rw [locoAddress, if_neg (by omega), if_neg hn]
    rw [hl] at hp
    have := congrArg List.length (Except.ok.inj hp)
    simp at this
  · intro ha
    rw [makeF4F0Packet, ← addressed_loco ha]
    rfl

/-- **C78** CV accesses entered: the packet for this access goes to the FIFO, once for reading and twice for
writing, which is how often a decoder needs it. -/
theorem C78_cv (l : ReplLine) (ha : LocoAddress l.addr) (i : ReplInput) (k : Kind) (x : Access) (n : Nat)
    (hi : asksFor i = some (k, x, n)) (hx : x.Legal) :
    ∃ l' p, l.input i = .ok l' ∧ l'.fifo = l.fifo ++ List.replicate n p ∧ l'.addr = l.addr ∧ l'.tx = l.tx ∧
      locoNumber p = some l.addr.value.toNat ∧ longRequest (afterAddress p) = some (k, x) ∧
      longAction n (afterAddress p) = some (k, x) ∧ ValidPacket p := by
  obtain ⟨p, hp⟩ := pom_some ha k x
  obtain ⟨h1, -, h2, h3, -⟩ := pom_packet ha k x hx hp
  have hin : l.input i = l.push n ((pomCall k x).run l.addr) := by
    cases i <;> simp only [asksFor, Option.some.injEq, Prod.mk.injEq, reduceCtorEq] at hi <;>
      obtain ⟨rfl, rfl, rfl⟩ := hi <;>
      simp [ReplLine.input, pomCall, AddressedCall.run, BitVec.ofNat_toNat]
  refine ⟨{ l with fifo := l.fifo ++ List.replicate n p }, p, by rw [hin, hp]; rfl, rfl, rfl, rfl, h1, h2, ?_, h3⟩
  cases i <;> simp only [asksFor, Option.some.injEq, Prod.mk.injEq, reduceCtorEq] at hi <;>
    obtain ⟨rfl, rfl, rfl⟩ := hi <;> simp [longAction, h2]

example : LocoAddress ({} : ReplLine).addr ∧
    asksFor (.writeCvByte 4#32 100#8) = some (.write, .byte 4 100#8, 2) ∧ (Access.byte 4 100#8).Legal := by
  refine ⟨by unfold LocoAddress; decide, by decide, show 4 < 1024 by decide⟩

/-- **C78** The station sends 17 preamble bits, bits of 58 and 100 µs, positive half first, and makes
cutouts. -/
theorem C78_config : ∃ st, Repl.start = .ok st ∧ st.line.tx.s.cfg.numPreamble.toNat = 17 ∧
    st.line.tx.s.cfg.bit1.toNat = 58 ∧ st.line.tx.s.cfg.bit0.toNat = 100 ∧
    st.line.tx.s.cfg.invert = false ∧ st.line.tx.s.cfg.bidi = true :=
  ⟨_, rfl, rfl, rfl, rfl, rfl, rfl⟩

/-- The station's thread going round `k` times, the decoder's after every fifth. -/
def replRounds (k : Nat) : List ReplStep :=
  (List.range k).flatMap fun i => if i % 5 = 4 then [.station 0, .execute 0 0] else [.station 0]

theorem entered_rounds (k : Nat) (a : BitVec 16) : entered a (replRounds k) = [] := by
  have key : ∀ ys : List ReplStep, (∀ y ∈ ys, ∀ i, y ≠ .input i) → entered a ys = [] := by
    intro ys
    induction ys with
    | nil => intro _; rfl
    | cons y ys ih =>
      intro h
      have ih := ih fun z hz => h z (List.mem_cons_of_mem _ hz)
      cases y with
      | input i => exact absurd rfl (h _ List.mem_cons_self i)
      | _ => exact ih
  refine key _ fun y hy i => ?_
  obtain ⟨n, -, hn⟩ := List.mem_flatMap.mp hy
  rintro rfl
  split at hn <;> simp at hn

theorem drives_rounds (k : Nat) : ∀ x ∈ replRounds k, DrivesShort x := by
  intro y hy
  obtain ⟨n, -, hn⟩ := List.mem_flatMap.mp hy
  split at hn
  · rcases List.mem_cons.mp hn with rfl | hn
    · trivial
    · rw [List.mem_singleton.mp hn]; trivial
  · rw [List.mem_singleton.mp hn]; trivial

/-- Everything of a session that can be observed (for examples). -/
def replTest (steps : List ReplStep) (p : Rx → Repl → Bool) : Bool :=
  match ({} : Rx).step replEnv .init, Repl.start with
  | .ok s, .ok st =>
    match st.run replEnv (.decoder :: steps) with
    | .ok st' => p s st'
    | .error _ => false
  | _, _ => false

theorem replTest_ok {steps : List ReplStep} {p : Rx → Repl → Bool} (h : replTest steps p = true) :
    ∃ s st st', ({} : Rx).step replEnv .init = .ok s ∧ Repl.start = .ok st ∧
      st.run replEnv (.decoder :: steps) = .ok st' ∧ p s st' = true := by
  unfold replTest at h
  split at h
  · rename_i s st h1 h2
    split at h
    · rename_i st' h3
      exact ⟨s, st, st', h1, h2, h3, h⟩
    · cases h
  · cases h

/-- **C78** Not all addresses the prompt offers work: `address 259` and `direction_speed 1 50` drive the
locomotive with address 3. -/
theorem C78_address_false : ∃ (steps : List ReplStep) (s : Rx) (st st' : Repl),
    Paced 0 steps ∧ ({} : Rx).step replEnv .init = .ok s ∧ Repl.start = .ok st ∧
    Patient st.line steps ∧ st.run replEnv (.decoder :: steps) = .ok st' ∧
    entered 3#16 steps = [⟨{ value := 259#16, type := .long }, .advancedSpeed 178#8⟩] ∧
    (entered 3#16 steps).flatMap (Command.calls s) = [] ∧
    drivingCalls s st'.rx = [.direction 3#16 true, .speed 3#16 99] := by
  let steps := [.input (.address 259#16), .input (.directionSpeed true 50#8)] ++ replRounds 300
  obtain ⟨s, st, st', h1, h2, h3, h4⟩ := replTest_ok (steps := steps) (p := fun s st' =>
    decide ((entered 3#16 steps).flatMap (Command.calls s) = [] ∧
      drivingCalls s st'.rx = [.direction 3#16 true, .speed 3#16 99])) (by decide +kernel)
  have h4 := of_decide_eq_true h4
  refine ⟨steps, s, st, st', by decide +kernel, h1, h2, patient_spec _ _ ?_, h3, ?_, h4⟩
  · cases h2
    decide +kernel
  · simp only [steps, List.cons_append, List.nil_append, entered, entered_rounds]
    rfl

/-- **C78** Commands entered too fast get lost: of four only three are sent, the emergency stop is not
among them. -/
theorem C78_lost_false : ∃ (steps : List ReplStep) (s : Rx) (st st' : Repl),
    (∀ x ∈ steps, DrivesShort x) ∧ Paced 0 steps ∧ ({} : Rx).step replEnv .init = .ok s ∧
    Repl.start = .ok st ∧ st.run replEnv (.decoder :: steps) = .ok st' ∧
    (entered 3#16 steps).length = 4 ∧ ⟨{ value := 3#16, type := .short }, .advancedSpeed 129#8⟩ ∈ entered 3#16 steps ∧
    st'.line.fifo = [] ∧ st'.line.tx.s.size replDeque = 0 ∧ st'.line.tx.acc.length = 3 ∧ st'.rx.deque = [] ∧
    (drivingCalls s st'.rx).length = 3 ∧ ∀ v, .speed 3#16 v ∉ drivingCalls s st'.rx := by
  let typed : List ReplStep :=
    [.input (.f4f0 1#8), .input (.f4f0 2#8), .input (.f8f5 3#8), .input (.directionSpeed true 1#8)]
  let steps := typed ++ replRounds 600
  obtain ⟨s, st, st', h1, h2, h3, h4⟩ := replTest_ok (steps := steps) (p := fun s st' =>
    decide (st'.line.fifo = [] ∧ st'.line.tx.s.size replDeque = 0 ∧ st'.line.tx.acc.length = 3 ∧ st'.rx.deque = [] ∧
    drivingCalls s st'.rx = [.function 3#16 0x1F#32 1#32, .function 3#16 0x1F#32 2#32,
      .function 3#16 0x1E0#32 0x60#32])) (by decide +kernel)
  obtain ⟨k1, k2, k3, k4, k5⟩ := of_decide_eq_true h4
  have hen : entered 3#16 steps = [⟨{ value := 3#16, type := .short }, .f4f0 1#8⟩,
      ⟨{ value := 3#16, type := .short }, .f4f0 2#8⟩, ⟨{ value := 3#16, type := .short }, .f8f5 3#8⟩,
      ⟨{ value := 3#16, type := .short }, .advancedSpeed 129#8⟩] := by
    simp only [steps, typed, List.cons_append, List.nil_append, entered, entered_rounds]
    rfl
  refine ⟨steps, s, st, st', ?_, by decide +kernel, h1, h2, h3, by rw [hen]; rfl, by rw [hen]; simp,
    k1, k2, k3, k4, by rw [k5]; rfl, fun v => by rw [k5]; simp⟩
  intro x hx
  rcases List.mem_append.mp hx with hx | hx
  · simp only [typed, List.mem_cons, List.not_mem_nil, or_false] at hx
    rcases hx with rfl | rfl | rfl | rfl
    · trivial
    · trivial
    · trivial
    · simp only [DrivesShort]; decide
  · exact drives_rounds _ x hx

/-- **C78** The station's thread must not be the first: it calls `timer_irq_handler` before the
decoder's thread has assigned it. -/
theorem C78_start_false : ∃ st, Repl.start = .ok st ∧ st.run replEnv [.station 0] = .error .assertion :=
  ⟨_, rfl, rfl⟩

/-- **C78** `address 254` followed by `read_cv_byte 0` makes the decoder read behind the end of an
array: it takes the packet for one of automatic logon. -/
theorem C78_oob_false : ∃ (steps : List ReplStep) (st : Repl), Paced 0 steps ∧ Repl.start = .ok st ∧
    Patient st.line steps ∧ st.run replEnv (.decoder :: steps) = .error .oob := by
  let steps := [.input (.address 254#16), .input (.readCvByte 0#32)] ++ replRounds 300
  have key : (match Repl.start with
    | .ok st => patient st.line steps && (match st.run replEnv (.decoder :: steps) with
      | .error .oob => true
      | _ => false)
    | .error _ => false) = true := by decide +kernel
  split at key
  · rename_i st hst
    rw [Bool.and_eq_true] at key
    refine ⟨steps, st, by decide +kernel, hst, patient_spec _ _ key.1, ?_⟩
    have := key.2
    split at this
    · assumption
    · cases this
  · cases key

/-- A session: everything entered is done. -/
example : ∃ (steps : List ReplStep) (s : Rx) (st st' : Repl),
    (∀ x ∈ steps, DrivesShort x) ∧ Paced 0 steps ∧ ({} : Rx).step replEnv .init = .ok s ∧
    Repl.start = .ok st ∧ Patient st.line steps ∧ st.run replEnv (.decoder :: steps) = .ok st' ∧
    drivingCalls s st'.rx = [.function 3#16 0x1F#32 1#32, .direction 0#16 true, .speed 0#16 99] := by
  let typed : List ReplStep :=
    [.input (.f4f0 1#8), .input (.address 4#16), .input (.f8f5 3#8), .input (.address 0#16),
      .input (.directionSpeed true 50#8)]
  let steps := typed ++ replRounds 600
  obtain ⟨s, st, st', h1, h2, h3, h4⟩ := replTest_ok (steps := steps) (p := fun s st' =>
    decide (drivingCalls s st'.rx = [.function 3#16 0x1F#32 1#32, .direction 0#16 true, .speed 0#16 99]))
    (by decide +kernel)
  refine ⟨steps, s, st, st', ?_, by decide +kernel, h1, h2, patient_spec _ _ ?_, h3, of_decide_eq_true h4⟩
  · intro x hx
    rcases List.mem_append.mp hx with hx | hx
    · simp only [typed, List.mem_cons, List.not_mem_nil, or_false] at hx
      rcases hx with rfl | rfl | rfl | rfl | rfl <;> simp only [DrivesShort] <;> decide
    · exact drives_rounds _ x hx
  · cases h2
    decide +kernel

/-- CVs can be written: both packets arrive. -/
example : replTest ([.input (.writeCvByte 4#32 100#8)] ++ replRounds 500) (fun s st' =>
    (newCalls s st'.rx).contains (.writeCvByte 4#32 100#8 100#8)) = true := by decide +kernel

example : ({ } : ReplLine).addr.type = .short := rfl

end Dcc
