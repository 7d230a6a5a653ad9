import Verif.Props.RxConfig
import Verif.Props.RxDrive
import Verif.Props.RxLogon
/-! Which way a decoder runs after automatic logon, C123, and when everybody is told to run, C124. -/
namespace Dcc
open Spec

theorem decode_reversed {bs : List Byte} {a : Address} (h : decodeAddress bs = .ok a) : a.reversed = false := by
  unfold decodeAddress at h
  repeat' split at h
  all_goals first | (cases h; rfl) | cases h

theorem assigned_reversed {bs : List Byte} {a : Address} (h : AssignedAddress bs a) : a.reversed = false := by
  obtain ⟨b, rest, rfl, ⟨-, h⟩ | ⟨-, h⟩⟩ := h
  · exact decode_reversed h
  · exact decode_reversed h

/-- The bytes assign an address other than 0 to a decoder for its own. -/
def ForItsOwn (bs : List Byte) : Prop :=
  bs.head?.any (fun b => b.toNat / 64 ≠ 3) = true ∧ ∃ a, AssignedAddress bs a ∧ a.value.toNat ≠ 0

/-- **C123** What is received changes whether a decoder runs the other way round in one case only: LOGON_ASSIGN gives it
an address for its own.  Then it runs the way it is told, whatever CV29 says. -/
theorem C123_received (e : Env) (s s' : Rx) (t rand : Nat) (hr : Reachable e s) (h : s.receive e t rand = .ok s') :
    s'.addrs.primary.reversed = s.addrs.primary.reversed ∨
    ∃ bs, logonCommand s.link.packet = some (.assign s.cfg.did bs) ∧ s.cfg.logonEnabled = true ∧ ForItsOwn bs ∧
      s'.addrs.primary.reversed = false := by
  rcases receive_logon e s s' t rand hr h with h2 | ⟨c, -, hc, h2⟩
  · exact .inl (congrArg (fun v : LogonView => v.primary.reversed) h2)
  · cases h2 with
    | fast g cid session hen hsel hk c1 c2 tr h1 h2 a ha hv =>
      exact .inl (congrArg (fun v : LogonView => v.primary.reversed) hv)
    | enable g cid session hen hsel hk v hv h =>
      have hp : v.primary = s.addrs.primary := by
        rw [hv]
        split <;> rfl
      rcases h with h | ⟨-, -, m, h, -⟩
      · exact .inl ((congrArg (fun v : LogonView => v.primary.reversed) h).trans (congrArg Address.reversed hp))
      · exact .inl ((congrArg (fun v : LogonView => v.primary.reversed) h).trans (congrArg Address.reversed hp))
    | select hen has he m hm hv => exact .inl (congrArg (fun v : LogonView => v.primary.reversed) hv)
    | assign bs hen he a ha m hm hv =>
      have hp := congrArg LogonView.primary hv
      dsimp only at hp
      split at hp
      · rename_i hx
        refine .inr ⟨bs, hc, hen, ⟨hx.2, a, ha, hx.1⟩, ?_⟩
        show (logonView s').primary.reversed = false
        rw [hp]
        exact assigned_reversed ha
      · exact .inl (congrArg Address.reversed hp)

/-- **C123** A decoder with an assigned address runs the way its own address says. -/
theorem C123_assigned (s : Rx) (n : Nat) (hn : n ≠ 0) (hl : s.addrs.logon.value ≠ 0#16) :
    reversedAt s (target s n) = s.addrs.primary.reversed := by
  unfold target
  rw [if_neg (fun h => h.elim hn hl)]
  unfold reversedAt
  rw [if_pos rfl]

/-- **C123** (partial) A decoder that is assigned an address for the session runs the way it did before. -/
theorem C123_session_partial (e : Env) (s s' : Rx) (t rand : Nat) (hr : Reachable e s) (h : s.receive e t rand = .ok s')
    (hs : ∀ uid bs, logonCommand s.link.packet = some (.assign uid bs) → bs.head?.any (fun b => b.toNat / 64 = 3) = true) :
    s'.addrs.primary.reversed = s.addrs.primary.reversed := by
  rcases C123_received e s s' t rand hr h with h1 | ⟨bs, hc, -, ⟨ho, -⟩, -⟩
  · exact h1
  · have := hs _ bs hc
    cases bs with
    | nil => cases ho
    | cons b bs =>
      have ho : decide (b.toNat / 64 ≠ 3) = true := ho
      have this : decide (b.toNat / 64 = 3) = true := this
      exact absurd (of_decide_eq_true this) (of_decide_eq_true ho)

/-- **C123** As soon as `init` is called, by the program or because one of the CVs was written, the decoder runs as CV29
says again. -/
theorem C123_init (e : Env) (m : BitVec 32 → Byte) (hm : MemoryLike e m) (s s' : Rx) (h : s.step e .init = .ok s') :
    s'.addrs.primary.reversed = (mem m s'.trace 28#32).getLsbD 0 :=
  (init_reflects hm h).1.primaryReversed

/-- The decoder of the examples of C52, running the other way round. -/
def reversedEnv : Env := memEnv fun cv =>
  if cv = 27#32 then 0x83#8
  else if cv = 28#32 then exampleCvs 28#32 ||| 1#8
  else if 249#32 ≤ cv ∧ cv ≤ 252#32 then (cv - 248#32).setWidth 8
  else exampleCvs cv

/-- The directions a decoder was given. -/
def directionsGiven (e : Env) (ops : List RxOp) : Option (List Bool) :=
  match ({} : Rx).run e ops with
  | .ok s => some (s.trace.filterMap fun | .direction _ d => some d | _ => none)
  | .error _ => none

/-- **C123** fails: locomotive 3 runs the other way round, as its CV29 says.  It is assigned the address 17 for its own.
Told to run forward again, it runs the other way than before. -/
theorem C123_way_false :
    let before : List RxOp := .init :: hears [3#8, 0x3F#8, 0x85#8, 0xB9#8] ++ [.execute 0 0]
    let assign : List RxOp := hears (checked [254#8, 0xE0#8, 145#8, 1#8, 2#8, 3#8, 4#8, 0x78#8, 17#8, 0#8])
    let again : List RxOp := hears [17#8, 0x3F#8, 0x85#8, 0xAB#8] ++ [.execute 0 0]
    directionsGiven reversedEnv (before ++ assign ++ again) = some [false, true] ∧
    directionsGiven reversedEnv (before ++ assign ++ .init :: again) = some [false, false] := by
  refine ⟨by decide +kernel, by decide +kernel⟩

/-- **C124** A speed for everybody is executed the way round the consist has, in a consist or not. -/
theorem C124_broadcast (e : Env) (s : Rx) (now : Int) (rand : Nat) (a : Address) (ha : LocoAddress a)
    (h0 : a.value = 0#16) (hp0 : s.addrs.primary.value ≠ 0#16) (b : Byte) (p : Packet)
    (hp : makeAdvancedSpeedPacket a b = .ok p) (hf : front s = some p) (hm : s.serviceMode = false) :
    Executes e s now rand (speed126Calls 0#16 s.addrs.consist.reversed b) := by
  have hz : a.value.toNat = 0 := by rw [h0]; rfl
  have := C35_speed126_executed e s now rand a ha b p hp hf hm (.inl hz)
  rw [hz] at this
  have ht : target s 0 = 0#16 := by unfold target; rw [if_pos (.inl rfl)]
  rw [ht] at this
  unfold reversedAt at this
  rwa [if_neg (fun h => hp0 h.symm)] at this

/-- **C124** So is a speed in 28 steps, or in 14 with F0. -/
theorem C124_broadcast28 (e : Env) (s : Rx) (now : Int) (rand : Nat) (a : Address) (ha : LocoAddress a)
    (h0 : a.value = 0#16) (hp0 : s.addrs.primary.value ≠ 0#16) (b : Byte) (hb : b.toNat < 64) (p : Packet)
    (hp : makeSpeedAndDirectionPacket a b = .ok p) (hf : front s = some p) (hm : s.serviceMode = false) :
    Executes e s now rand (if s.cfg.f0Exception then speed14Calls 0#16 s.addrs.consist.reversed b
      else speed28Calls 0#16 s.addrs.consist.reversed b) := by
  have hz : a.value.toNat = 0 := by rw [h0]; rfl
  have := C36_speed_executed e s now rand a ha b hb p hp hf hm (.inl hz)
  rw [hz] at this
  have ht : target s 0 = 0#16 := by unfold target; rw [if_pos (.inl rfl)]
  rw [ht] at this
  have hr : reversedAt s 0#16 = s.addrs.consist.reversed := if_neg (fun h => hp0 h.symm)
  rwa [hr] at this

/-- **C124** (partial) If a locomotive and its consist have the same way round, a broadcast is executed the same way
round as a packet for the locomotive. -/
theorem C124_same_partial (s : Rx) (hs : s.addrs.primary.reversed = s.addrs.consist.reversed) (n : Nat) :
    reversedAt s (target s 0) = reversedAt s (target s n) := by
  unfold reversedAt
  rw [hs, ite_self, ite_self]

/-- **C124** fails: a locomotive that runs the other way round, in no consist, is told to run forward by its own number
and then by a broadcast. -/
theorem C124_way_false :
    directionsGiven reversedEnv (.init :: hears [3#8, 0x3F#8, 0x85#8, 0xB9#8] ++ [.execute 0 0] ++
      hears [0#8, 0x3F#8, 0x85#8, 0xBA#8] ++ [.execute 0 0]) = some [false, true] := by decide +kernel

/-- The hypotheses of `C123_received`, `C123_session_partial` and `C123_assigned`: the decoder of the examples is
assigned the address 1000 for the session, with the last duration of the packet. -/
example :
    let ops := hears (checked [254#8, 0xE0#8, 145#8, 1#8, 2#8, 3#8, 4#8, 0xC3#8, 0xE8#8, 0#8])
    holdsAfter (({} : Rx).run reversedEnv (.init :: ops)) (fun s =>
      decide (s.addrs.logon.value = 1000#16 ∧ s.addrs.primary.reversed = true ∧ s.addrs.primary.value = 3#16)) = true := by
  decide +kernel

/-- Those of `C124_broadcast28`: 0x78 is a speed step forward. -/
example : makeSpeedAndDirectionPacket { value := 0#16, type := .broadcast } 0x38#8 = .ok [0#8, 0x78#8, 0x78#8] ∧
    holdsAfter (({} : Rx).run reversedEnv (.init :: hears [0#8, 0x78#8, 0x78#8])) (fun s =>
      decide (front s = some [0#8, 0x78#8, 0x78#8] ∧ s.serviceMode = false ∧ s.addrs.primary.value = 3#16)) = true := by
  decide +kernel

/-- Those of `C124_broadcast`: the packet waits in a decoder with the address 3. -/
example : makeAdvancedSpeedPacket { value := 0#16, type := .broadcast } 0x85#8 = .ok [0#8, 0x3F#8, 0x85#8, 0xBA#8] ∧
    holdsAfter (({} : Rx).run reversedEnv (.init :: hears [0#8, 0x3F#8, 0x85#8, 0xBA#8])) (fun s =>
      decide (front s = some [0#8, 0x3F#8, 0x85#8, 0xBA#8] ∧ s.serviceMode = false ∧ s.addrs.primary.value = 3#16)) = true := by
  decide +kernel

/-- Those of `C123_init` and `C124_same_partial`. -/
example : MemoryLike reversedEnv (fun cv =>
      if cv = 27#32 then 0x83#8
      else if cv = 28#32 then exampleCvs 28#32 ||| 1#8
      else if 249#32 ≤ cv ∧ cv ≤ 252#32 then (cv - 248#32).setWidth 8
      else exampleCvs cv) ∧
    holdsAfter (({} : Rx).step exampleEnv .init) (fun s =>
      decide (s.addrs.primary.reversed = s.addrs.consist.reversed)) = true :=
  ⟨⟨fun _ _ => rfl⟩, by decide +kernel⟩

end Dcc
