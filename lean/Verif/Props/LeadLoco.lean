import Verif.Props.EveryConsist
import Verif.Props.RxDrive
/-! Consists that have the number of one of their locomotives: C126. -/
namespace Dcc
open Spec

/-- **C126** A locomotive whose consist has its own number cannot be programmed on the main: no CV access to its number,
in the long or the short form, has any effect, and none is answered with a value. -/
theorem C126_closed (e : Env) (s s' : Rx) (hr : Reachable e s) (now : Int) (rand : Nat) (ret : Bool) (p : Packet) (b : Byte)
    (hs : s.addrs.primary.value = s.addrs.consist.value) (h0 : s.addrs.primary.value ≠ 0#16)
    (hl : s.addrs.logon.value = 0#16) (hf : front s = some p) (hm : s.serviceMode = false)
    (hn : locoNumber p = some s.addrs.primary.value.toNat) (hb : (afterAddress p).head? = some b) (hcv : 0xE0 ≤ b.toNat)
    (h : s.execute e now rand = .ok (s', ret)) :
    ∃ stores, s'.trace = s.trace ++ stores ∧ LogonStores s stores ∧ s'.addrs = s.addrs ∧ s'.cfg = s.cfg ∧
      s'.q.pom = s.q.pom ∧ s'.lastOwnCvPacket = s.lastOwnCvPacket := by
  rw [hs] at h0 hn
  obtain ⟨st, h1, h2, h3, h4, -, h5, h6, -⟩ := C44_no_cv_access_by_consist e s s' hr now rand ret p b hf hm hn h0
    (by rw [hl]; exact h0.symm) hb hcv h
  exact ⟨st, h1, h2, h3, h4, h5, h6⟩

/-- **C126** Speeds for the consist are executed by the locomotive that has the same number the way round CV29 says;
what CV19 says is of no account. -/
theorem C126_way (e : Env) (s : Rx) (now : Int) (rand : Nat) (a : Address) (ha : LocoAddress a) (b : Byte) (p : Packet)
    (hp : makeAdvancedSpeedPacket a b = .ok p) (hf : front s = some p) (hm : s.serviceMode = false)
    (hl : s.addrs.logon.value = 0#16) (ht : s.addrs.consist.type.isLoco = true) (hc : a.value = s.addrs.consist.value)
    (hs : s.addrs.primary.value = s.addrs.consist.value) :
    Executes e s now rand (speed126Calls a.value s.addrs.primary.reversed b) := by
  have := C35_speed126_executed e s now rand a ha b p hp hf hm
    (.inr (by unfold Active; rw [if_pos hl]; exact .inr ⟨ht, by rw [hc]⟩))
  have h1 : target s a.value.toNat = a.value := by
    unfold target
    rw [if_pos (.inr hl)]
    simp
  have h2 : reversedAt s a.value = s.addrs.primary.reversed := if_pos (hc.trans hs.symm)
  rwa [h1, h2] at this

/-- **C126** (partial) The other locomotives of the consist execute them the way round CV19 says. -/
theorem C126_members_partial (e : Env) (s : Rx) (now : Int) (rand : Nat) (a : Address) (ha : LocoAddress a) (b : Byte)
    (p : Packet) (hp : makeAdvancedSpeedPacket a b = .ok p) (hf : front s = some p) (hm : s.serviceMode = false)
    (hl : s.addrs.logon.value = 0#16) (ht : s.addrs.consist.type.isLoco = true) (hc : a.value = s.addrs.consist.value)
    (hs : s.addrs.primary.value ≠ s.addrs.consist.value) :
    Executes e s now rand (speed126Calls a.value s.addrs.consist.reversed b) := by
  have := C35_speed126_executed e s now rand a ha b p hp hf hm
    (.inr (by unfold Active; rw [if_pos hl]; exact .inr ⟨ht, by rw [hc]⟩))
  have h1 : target s a.value.toNat = a.value := by
    unfold target
    rw [if_pos (.inr hl)]
    simp
  have h2 : reversedAt s a.value = s.addrs.consist.reversed := if_neg fun h => hs (h.symm.trans hc)
  rwa [h1, h2] at this

/-- Locomotive 3 is put into the consist 3, the other way round. -/
def leads : List RxOp := .init :: hears [3#8, 0x13#8, 3#8, 0x13#8] ++ [.execute 0 0]

/-- Locomotive 3 is told twice to write 5 into CV3. -/
def writesCv3 : List RxOp :=
  let p : Packet := [3#8, 0xEC#8, 2#8, 5#8, 0xE8#8]
  hears p ++ [.execute 0 0] ++ hears p ++ [.execute 0 0]

/-- The directions in the calls. -/
def waysGiven (s : Rx) : List Bool := s.trace.filterMap fun | .direction _ d => some d | _ => none

/-- **C126** fails: locomotive 3, in no consist, writes CV3; in the consist 3 it does not.  It was put there the other way
round, and runs forward all the same; locomotive 4 in the same consist runs backward. -/
theorem C126_lead_false :
    holdsAfter (({} : Rx).run exampleEnv (.init :: writesCv3)) (fun s => exampleEnv.readCv s.trace 2#32 == 5#8) = true ∧
    holdsAfter (({} : Rx).run exampleEnv (leads ++ writesCv3)) (fun s =>
      exampleEnv.readCv s.trace 2#32 == exampleCvs 2#32 && exampleCvs 2#32 != 5#8 &&
      exampleEnv.readCv s.trace 18#32 == 0x83#8) = true ∧
    holdsAfter (({} : Rx).run exampleEnv (leads ++ hears [3#8, 0x3F#8, 0x85#8, 0xB9#8] ++ [.execute 0 0])) (fun s =>
      waysGiven s == [true]) = true ∧
    holdsAfter (({} : Rx).run (numberedEnv 4#8) (.init :: hears [4#8, 0x13#8, 3#8, 0x14#8] ++ [.execute 0 0] ++
      hears [3#8, 0x3F#8, 0x85#8, 0xB9#8] ++ [.execute 0 0])) (fun s => waysGiven s == [false]) = true := by
  refine ⟨by decide +kernel, by decide +kernel, by decide +kernel, by decide +kernel⟩

/-- The hypotheses of `C126_closed`. -/
example : holdsAfter (({} : Rx).run exampleEnv (leads ++ hears [3#8, 0xEC#8, 2#8, 5#8, 0xE8#8])) (fun s =>
      decide (s.addrs.primary.value = s.addrs.consist.value ∧ s.addrs.primary.value = 3#16 ∧ s.addrs.logon.value = 0#16 ∧
        front s = some [3#8, 0xEC#8, 2#8, 5#8, 0xE8#8] ∧ s.serviceMode = false)) = true ∧
    locoNumber [3#8, 0xEC#8, 2#8, 5#8, 0xE8#8] = some 3 ∧
    (afterAddress [3#8, 0xEC#8, 2#8, 5#8, 0xE8#8]).head? = some 0xEC#8 := by decide +kernel

/-- Those of `C126_way` and, for locomotive 4, of `C126_members_partial`. -/
example : makeAdvancedSpeedPacket { value := 3#16, type := .short } 0x85#8 = .ok [3#8, 0x3F#8, 0x85#8, 0xB9#8] ∧
    holdsAfter (({} : Rx).run exampleEnv (leads ++ hears [3#8, 0x3F#8, 0x85#8, 0xB9#8])) (fun s =>
      decide (s.addrs.primary.value = s.addrs.consist.value ∧ s.addrs.consist.value = 3#16 ∧ s.addrs.logon.value = 0#16 ∧
        s.addrs.consist.type.isLoco = true ∧ front s = some [3#8, 0x3F#8, 0x85#8, 0xB9#8] ∧ s.serviceMode = false)) = true ∧
    holdsAfter (({} : Rx).run (numberedEnv 4#8) (.init :: hears [4#8, 0x13#8, 3#8, 0x14#8] ++ [.execute 0 0] ++
      hears [3#8, 0x3F#8, 0x85#8, 0xB9#8])) (fun s =>
      decide (s.addrs.primary.value ≠ s.addrs.consist.value ∧ s.addrs.consist.value = 3#16 ∧ s.addrs.logon.value = 0#16 ∧
        s.addrs.consist.type.isLoco = true ∧ front s = some [3#8, 0x3F#8, 0x85#8, 0xB9#8] ∧ s.serviceMode = false)) = true := by
  decide +kernel

end Dcc
