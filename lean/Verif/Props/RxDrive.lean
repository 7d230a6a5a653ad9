import Verif.Lemmas.RxDrive
import Verif.Spec.Memory
/-! Driving a decoder, from the packet builder to the calls of the user's class: C35-C38. -/
namespace Dcc
open Spec

/-! ### C35 -/

/-- **C35** `execute` on a packet made by `make_advanced_operations_speed_packet`, addressed to the
decoder: exactly the calls 126 speed steps prescribe. -/
theorem C35_speed126_executed (e : Env) (s : Rx) (now : Int) (rand : Nat) (a : Address)
    (ha : LocoAddress a) (b : Byte) (p : Packet) (hp : makeAdvancedSpeedPacket a b = .ok p)
    (hf : front s = some p) (hm : s.serviceMode = false)
    (hact : a.value.toNat = 0 ∨ Active s a.value.toNat) :
    Executes e s now rand (speed126Calls (target s a.value.toNat)
      (reversedAt s (target s a.value.toNat)) b) := by
  refine executes_of e s now rand a ha (.advancedSpeed b) p hp hf hm hact _ fun x y _ hx => ?_
  rw [instr_advancedSpeed]
  simp only [reversedAt, hx]

/-- **C35** The same from the transmitter to the calls: the half bits of the packet, sent with any
accepted configuration, then one further duration and `execute`. -/
theorem C35_speed126_end_to_end (e : Env) (s : Rx) (hr : Reachable e s) (h : Ready e s)
    (cfg : TxConfig) (hc : cfg.accepted = true) (a : Address) (ha : LocoAddress a) (b : Byte)
    (p : Packet) (hp : makeAdvancedSpeedPacket a b = .ok p)
    (hact : a.value.toNat = 0 ∨ Active s a.value.toNat) :
    Delivers e s cfg p (speed126Calls (target s a.value.toNat)
      (reversedAt s (target s a.value.toNat)) b) :=
  delivers_built e s hr h cfg hc a ha (.advancedSpeed b) p hp hact
    (fun _ addr rev => speed126Calls addr rev b) fun z now rand hf hm hz =>
      C35_speed126_executed e z now rand a ha b p hp hf hm hz

/-- The decoder with address 3 after initialisation is ready and gets step 5 of 126, forward. -/
example : holdsAfter (({} : Rx).run exampleEnv [.init]) (fun s =>
    decide (s.serviceMode = false ∧ s.deque = [] ∧ s.link.state = .preamble ∧ Active s 3)) = true ∧
    makeAdvancedSpeedPacket { value := 3, type := .short } 0x86#8 = .ok [3#8, 0x3F#8, 0x86#8, 0xBA#8] ∧
    speed126Calls 3#16 false 0x86#8 = [.direction 3#16 true, .speed 3#16 10] ∧
    speed126Calls 3#16 true 0x86#8 = [.direction 3#16 false, .speed 3#16 10] ∧
    speed126Calls 3#16 false 0x81#8 = [.speed 3#16 (-1)] := by decide +kernel

/-! ### C36 -/

/-- **C36** `execute` on a packet made by `make_speed_and_direction_packet`, addressed to the
decoder: exactly the calls 28 speed steps prescribe or, if CV29 selects 14 steps with F0, those of
14 steps. -/
theorem C36_speed_executed (e : Env) (s : Rx) (now : Int) (rand : Nat) (a : Address)
    (ha : LocoAddress a) (b : Byte) (hb : b.toNat < 64) (p : Packet)
    (hp : makeSpeedAndDirectionPacket a b = .ok p) (hf : front s = some p)
    (hm : s.serviceMode = false) (hact : a.value.toNat = 0 ∨ Active s a.value.toNat) :
    Executes e s now rand (if s.cfg.f0Exception
      then speed14Calls (target s a.value.toNat) (reversedAt s (target s a.value.toNat)) b
      else speed28Calls (target s a.value.toNat) (reversedAt s (target s a.value.toNat)) b) := by
  refine executes_of e s now rand a ha (.speedAndDirection b) p hp hf hm hact _ fun x y hc hx => ?_
  rw [instr_speedAndDirection e x _ p b y hb]
  simp only [reversedAt, hx, hc]

/-- **C36** The same from the transmitter to the calls. -/
theorem C36_speed_end_to_end (e : Env) (s : Rx) (hr : Reachable e s) (h : Ready e s)
    (cfg : TxConfig) (hc : cfg.accepted = true) (a : Address) (ha : LocoAddress a) (b : Byte)
    (hb : b.toNat < 64) (p : Packet) (hp : makeSpeedAndDirectionPacket a b = .ok p)
    (hact : a.value.toNat = 0 ∨ Active s a.value.toNat) :
    Delivers e s cfg p (if s.cfg.f0Exception
      then speed14Calls (target s a.value.toNat) (reversedAt s (target s a.value.toNat)) b
      else speed28Calls (target s a.value.toNat) (reversedAt s (target s a.value.toNat)) b) :=
  delivers_built e s hr h cfg hc a ha (.speedAndDirection b) p hp hact
    (fun f0 addr rev => if f0 then speed14Calls addr rev b else speed28Calls addr rev b)
    fun z now rand hf hm hz => C36_speed_executed e z now rand a ha b hb p hp hf hm hz

/-- Step 6 of 28 (code 4 with the intermediate bit), step 3 of 14 with F0, the emergency stop. -/
example : speed28Calls 3#16 false 0x34#8 = [.direction 3#16 true, .speed 3#16 48] ∧
    speed14Calls 3#16 false 0x34#8 =
      [.function 3#16 1#32 1#32, .direction 3#16 true, .speed 3#16 40] ∧
    speed28Calls 3#16 true 0x21#8 = [.speed 3#16 (-1)] ∧
    holdsAfter (({} : Rx).run exampleEnv (.init :: hears [3#8, 0x74#8, 0x77#8])) (fun s =>
      decide (front s = some [3#8, 0x74#8, 0x77#8] ∧ s.serviceMode = false ∧ Active s 3)) = true := by
  decide +kernel

/-! ### C37 -/

/-- **C37** `execute` on a packet made by a function group builder, addressed to the decoder: one
call of `function`, which sets exactly the functions of the group to the states given to the builder
and leaves all others alone, F0 being left alone with 14 speed steps. -/
theorem C37_functions_executed (e : Env) (s : Rx) (now : Int) (rand : Nat) (a : Address)
    (ha : LocoAddress a) (c : AddressedCall) (g : Group) (states : Byte)
    (hg : groupOf c = some (g, states)) (p : Packet) (hp : c.run a = .ok p) (hf : front s = some p)
    (hm : s.serviceMode = false) (hact : a.value.toNat = 0 ∨ Active s a.value.toNat) :
    ∃ mask state, Executes e s now rand [.function (target s a.value.toNat) mask state] ∧
      SetsGroup g s.cfg.f0Exception states mask state := by
  refine ⟨_, _, ?_, groupCall_sets s.cfg.f0Exception c g states hg⟩
  refine executes_of e s now rand a ha c p hp hf hm hact _ fun x y hc _ => ?_
  rw [instr_group e x _ p c g states y hg, hc]

/-- **C37** The same from the transmitter to the call. -/
theorem C37_functions_end_to_end (e : Env) (s : Rx) (hr : Reachable e s) (h : Ready e s)
    (cfg : TxConfig) (hc : cfg.accepted = true) (a : Address) (ha : LocoAddress a)
    (c : AddressedCall) (g : Group) (states : Byte) (hg : groupOf c = some (g, states)) (p : Packet)
    (hp : c.run a = .ok p) (hact : a.value.toNat = 0 ∨ Active s a.value.toNat) :
    ∃ mask state, Delivers e s cfg p [.function (target s a.value.toNat) mask state] ∧
      SetsGroup g s.cfg.f0Exception states mask state := by
  refine ⟨_, _, ?_, groupCall_sets s.cfg.f0Exception c g states hg⟩
  refine delivers_built e s hr h cfg hc a ha c p hp hact
    (fun f0 addr _ => [.function addr (groupCall f0 c).1 (groupCall f0 c).2])
    fun z now rand hf hm hz => ?_
  refine executes_of e z now rand a ha c p hp hf hm hz _ fun x y hc _ => ?_
  rw [instr_group e x _ p c g states y hg, hc]

/-- F0 and F3 on, the other functions of F0-F4 off; F9-F12. -/
example : groupOf (.f4f0 0x09#8) = some (⟨0, 5⟩, 0x09#8) ∧
    (AddressedCall.f4f0 0x09#8).run { value := 3, type := .short } = .ok [3#8, 0x94#8, 0x97#8] ∧
    (AddressedCall.f12f9 0x05#8).run { value := 3, type := .short } = .ok [3#8, 0xA5#8, 0xA6#8] ∧
    holdsAfter (({} : Rx).run exampleEnv (.init :: hears [3#8, 0x94#8, 0x97#8])) (fun s =>
      decide (front s = some [3#8, 0x94#8, 0x97#8] ∧ s.serviceMode = false ∧ Active s 3)) = true := by
  refine ⟨rfl, ?_⟩
  decide +kernel

/-! ### C38 -/

/-- **C38** (partial: at most the groups F7-F0, F15-F8 and F23-F16) `execute` on a packet made by
`make_advanced_operations_speed_direction_and_functions_packet`: calls of `function` that set exactly
the groups given, to the states given, and then the calls for the speed. -/
theorem C38_speed_and_functions_partial (e : Env) (s : Rx) (now : Int) (rand : Nat) (a : Address)
    (ha : LocoAddress a) (r f : Byte) (fs : List Byte) (hl : fs.length ≤ 2) (p : Packet)
    (hp : makeSpeedDirFunctionsPacket a r f fs = .ok p) (hf : front s = some p)
    (hm : s.serviceMode = false) (hact : a.value.toNat = 0 ∨ Active s a.value.toNat) :
    ∃ calls, Executes e s now rand (calls ++ speed126Calls (target s a.value.toNat)
        (reversedAt s (target s a.value.toNat)) r) ∧
      (∀ c ∈ calls, ∃ mask state, c = .function (target s a.value.toNat) mask state) ∧
      ∀ (funs : BitVec 32) (i : Nat), i < 32 →
        (functionsAfter (target s a.value.toNat) funs calls).getLsbD i =
          groupsState (f :: fs) funs i := by
  refine ⟨groupsCalls (target s a.value.toNat) (f :: fs), ?_, ?_,
    fun funs i hi => groupsCalls_state _ f fs hl funs i hi⟩
  · refine executes_of e s now rand a ha (.speedDirFunctions r f fs) p hp hf hm hact _
      fun x y _ hx => ?_
    rw [instr_speedDirFunctions]
    simp only [reversedAt, hx]
  · intro c hc
    unfold groupsCalls at hc
    obtain ⟨⟨b, k⟩, _, rfl⟩ := List.mem_map.mp hc
    exact ⟨_, _, rfl⟩

/-- **C38** (partial, as above) The same from the transmitter to the calls. -/
theorem C38_end_to_end_partial (e : Env) (s : Rx) (hr : Reachable e s) (h : Ready e s)
    (cfg : TxConfig) (hc : cfg.accepted = true) (a : Address) (ha : LocoAddress a) (r f : Byte)
    (fs : List Byte) (hl : fs.length ≤ 2) (p : Packet)
    (hp : makeSpeedDirFunctionsPacket a r f fs = .ok p)
    (hact : a.value.toNat = 0 ∨ Active s a.value.toNat) :
    ∃ calls, Delivers e s cfg p (calls ++ speed126Calls (target s a.value.toNat)
        (reversedAt s (target s a.value.toNat)) r) ∧
      (∀ c ∈ calls, ∃ mask state, c = .function (target s a.value.toNat) mask state) ∧
      ∀ (funs : BitVec 32) (i : Nat), i < 32 →
        (functionsAfter (target s a.value.toNat) funs calls).getLsbD i =
          groupsState (f :: fs) funs i := by
  refine ⟨groupsCalls (target s a.value.toNat) (f :: fs), ?_, ?_,
    fun funs i hi => groupsCalls_state _ f fs hl funs i hi⟩
  · refine delivers_built e s hr h cfg hc a ha (.speedDirFunctions r f fs) p hp hact
      (fun _ addr rev => groupsCalls addr (f :: fs) ++ speed126Calls addr rev r)
      fun z now rand hf hm hz => ?_
    refine executes_of e z now rand a ha (.speedDirFunctions r f fs) p hp hf hm hz _
      fun x y _ hx => ?_
    rw [instr_speedDirFunctions]
    simp only [reversedAt, hx]
  · intro c hc
    unfold groupsCalls at hc
    obtain ⟨⟨b, k⟩, _, rfl⟩ := List.mem_map.mp hc
    exact ⟨_, _, rfl⟩

/-- Step 5 forward, F7-F0 = 0x03, F15-F8 = 0x80. -/
example : makeSpeedDirFunctionsPacket { value := 3, type := .short } 0x86#8 0x03#8 [0x80#8] =
      .ok [3#8, 0x3C#8, 0x86#8, 0x03#8, 0x80#8, 0x3A#8] ∧
    holdsAfter (({} : Rx).run exampleEnv
        (.init :: hears [3#8, 0x3C#8, 0x86#8, 0x03#8, 0x80#8, 0x3A#8])) (fun s =>
      decide (front s = some [3#8, 0x3C#8, 0x86#8, 0x03#8, 0x80#8, 0x3A#8] ∧
        s.serviceMode = false ∧ Active s 3)) = true := by decide +kernel

/-- **C38** With the fourth group the property is false: for every address and all states the
packet with F31-F24 switches F7-F0 off, whatever was given for them, and leaves F31-F24 as they
were (include/dcc/rx/crtp_base.hpp:460 passes the mask of F7-F0). -/
theorem C38_fourth_group_false (e : Env) (s : Rx) (now : Int) (rand : Nat) (a : Address)
    (ha : LocoAddress a) (r f f2 f3 f4 : Byte) (p : Packet)
    (hp : makeSpeedDirFunctionsPacket a r f [f2, f3, f4] = .ok p) (hf : front s = some p)
    (hm : s.serviceMode = false) (hact : a.value.toNat = 0 ∨ Active s a.value.toNat) :
    ∃ calls, Executes e s now rand (calls ++ speed126Calls (target s a.value.toNat)
        (reversedAt s (target s a.value.toNat)) r) ∧
      (∀ (funs : BitVec 32) (i : Nat), i < 8 →
        (functionsAfter (target s a.value.toNat) funs calls).getLsbD i = false) ∧
      (∀ (funs : BitVec 32) (i : Nat), 24 ≤ i → i < 32 →
        (functionsAfter (target s a.value.toNat) funs calls).getLsbD i = funs.getLsbD i) ∧
      (∀ (funs : BitVec 32) (i : Nat), 8 ≤ i → i < 24 →
        (functionsAfter (target s a.value.toNat) funs calls).getLsbD i =
          groupsState [f, f2, f3, f4] funs i) := by
  have key : ∀ (addr : BitVec 16) (funs : BitVec 32) (i : Nat), i < 32 →
      (functionsAfter addr funs (groupsCalls addr [f, f2, f3, f4])).getLsbD i =
        if i < 8 then false else groupsState [f, f2, f3] funs i := by
    intro addr funs i hi
    have h3 := groupsCalls_state addr f [f2, f3] (by simp) funs i hi
    have hcalls : functionsAfter addr funs (groupsCalls addr [f, f2, f3, f4]) =
        applyFunction (functionsAfter addr funs (groupsCalls addr [f, f2, f3])) 0xFF#32
          (f4.setWidth 32 <<< 24) := by
      simp [groupsCalls, functionsAfter, List.zipIdx]
    rw [hcalls, applyFunction_bit _ _ _ _ hi, h3]
    have hm : ∀ i : Fin 32, (0xFF#32).getLsbD i.val = decide (i.val < 8) := by decide +kernel
    rw [hm ⟨i, hi⟩]
    dsimp only
    by_cases h8 : i < 8
    · rw [if_pos (decide_eq_true h8), if_pos h8, BitVec.getLsbD_shiftLeft]
      have : i < 24 := by omega
      simp [this]
    · rw [if_neg (by simpa using h8), if_neg h8]
  refine ⟨groupsCalls (target s a.value.toNat) [f, f2, f3, f4], ?_, ?_, ?_, ?_⟩
  · refine executes_of e s now rand a ha (.speedDirFunctions r f [f2, f3, f4]) p hp hf hm hact _
      fun x y _ hx => ?_
    rw [instr_speedDirFunctions]
    simp only [reversedAt, hx]
  · intro funs i hi
    rw [key _ _ _ (by omega), if_pos hi]
  · intro funs i h1 h2
    rw [key _ _ _ h2, if_neg (by omega)]
    have : i / 8 = 3 := by omega
    simp [groupsState, this]
  · intro funs i h1 h2
    rw [key _ _ _ (by omega), if_neg (by omega)]
    have : i / 8 = 1 ∨ i / 8 = 2 := by omega
    rcases this with h | h <;> simp [groupsState, h]

/-- A concrete packet meets the hypotheses: F7-F0 = 0x03 and F31-F24 = 0x10 are given. -/
example : makeSpeedDirFunctionsPacket { value := 3, type := .short } 0x86#8 0x03#8
      [0x80#8, 0x00#8, 0x10#8] = .ok [3#8, 0x3C#8, 0x86#8, 0x03#8, 0x80#8, 0x00#8, 0x10#8, 0x2A#8] ∧
    holdsAfter (({} : Rx).run exampleEnv
        (.init :: hears [3#8, 0x3C#8, 0x86#8, 0x03#8, 0x80#8, 0x00#8, 0x10#8, 0x2A#8])) (fun s =>
      decide (front s = some [3#8, 0x3C#8, 0x86#8, 0x03#8, 0x80#8, 0x00#8, 0x10#8, 0x2A#8] ∧
        s.serviceMode = false ∧ Active s 3)) = true := by decide +kernel

end Dcc
