import Verif.Props.RxExec
import Verif.Props.RxShort
/-! Whom a consist control packet concerns: C125. -/
namespace Dcc
open Spec

/-- **C125** A consist control packet for everybody puts every decoder into the consist: whatever its own number is, CV19
is written and the decoder listens to the number of the consist, unless automatic logon assigned an address. -/
theorem C125_everybody (e : Env) (m : BitVec 32 → Byte) (hmem : MemoryLike e m) (ops : List RxOp) (s s' : Rx) (now : Int)
    (rand : Nat) (ret : Bool) (p : Packet) (b0 b1 : Byte) (rest : List Byte) (hi : .init ∈ ops)
    (ha : Along (fun s => s.logon.assigned = false) e {} ops) (hr : ({} : Rx).run e ops = .ok s)
    (hm : s.serviceMode = false) (hl : s.cfg.cvsLocked = false) (hf : front s = some p) (h0 : locoNumber p = some 0)
    (hb : afterAddress p = b0 :: b1 :: rest) (h16 : 16 ≤ b0.toNat ∧ b0.toNat < 32) (h7 : b1.toNat < 128)
    (h20 : mem m s.trace 19#32 = 0#8) (h : s.execute e now rand = .ok (s', ret)) :
    (mem m s'.trace 18#32).toNat = 128 * (b0.toNat % 2) + b1.toNat ∧
      (s.addrs.logon.value = 0#16 → Active s' b1.toNat) := by
  obtain ⟨h1, -, -, h2, -⟩ := C65_consist_control e m hmem ops s s' now rand ret p b0 b1 rest hi ha hr hm hl hf
    ⟨0, h0, .inl rfl⟩ hb h16 h7 h20 h
  exact ⟨h1, h2⟩

/-- **C125** A consist control packet for the number of a consist takes every locomotive of the consist out of it, into
the one the packet names. -/
theorem C125_members (e : Env) (m : BitVec 32 → Byte) (hmem : MemoryLike e m) (ops : List RxOp) (s s' : Rx) (now : Int)
    (rand : Nat) (ret : Bool) (p : Packet) (b0 b1 : Byte) (rest : List Byte) (hi : .init ∈ ops)
    (ha : Along (fun s => s.logon.assigned = false) e {} ops) (hr : ({} : Rx).run e ops = .ok s)
    (hm : s.serviceMode = false) (hl : s.cfg.cvsLocked = false) (hf : front s = some p)
    (hg : s.addrs.logon.value = 0#16) (ht : s.addrs.consist.type.isLoco = true)
    (hc : locoNumber p = some s.addrs.consist.value.toNat)
    (hb : afterAddress p = b0 :: b1 :: rest) (h16 : 16 ≤ b0.toNat ∧ b0.toNat < 32) (h7 : b1.toNat < 128)
    (h20 : mem m s.trace 19#32 = 0#8) (h : s.execute e now rand = .ok (s', ret)) :
    s'.addrs.consist.value.toNat = b1.toNat ∧ Active s' b1.toNat := by
  have hd : ForDecoder s p := ⟨_, hc, .inr (by unfold Active; rw [if_pos hg]; exact .inr ⟨ht, rfl⟩)⟩
  obtain ⟨-, h1, -, h2, -⟩ := C65_consist_control e m hmem ops s s' now rand ret p b0 b1 rest hi ha hr hm hl hf
    hd hb h16 h7 h20 h
  exact ⟨h1, h2 hg⟩

/-- **C125** (partial) A packet for a number that is neither 0 nor the one of the locomotive, its consist or the logon
leaves the consist alone. -/
theorem C125_others_partial (e : Env) (s : Rx) (hr : Reachable e s) (now : Int) (rand : Nat) (p : Packet) (n : Nat)
    (hf : front s = some p) (hm : s.serviceMode = false) (hn : locoNumber p = some n) (h0 : n ≠ 0)
    (ha : ¬ Active s n) :
    ∃ s', s.execute e now rand = .ok (s', false) ∧ s'.addrs = s.addrs ∧ s'.cfg = s.cfg := by
  have hp : ¬ ForDecoder s p := by
    rintro ⟨k, h1, h2⟩
    rw [hn] at h1
    cases h1
    exact h2.elim h0 ha
  obtain ⟨s', evs, h1, -, -, -, h2, h3, -⟩ := C32_foreign_ignored e s hr now rand p hf hm hp
  exact ⟨s', h1, h2, h3⟩

/-- The decoder of the examples with another number. -/
def numberedEnv (n : Byte) : Env := memEnv fun cv => if cv = 0#32 then n else exampleCvs cv

/-- The consist of a decoder. -/
def consistNow (e : Env) (ops : List RxOp) : Option Nat :=
  match ({} : Rx).run e ops with
  | .ok s => some s.addrs.consist.value.toNat
  | .error _ => none

/-- **C125** fails: one packet for everybody puts the locomotives 3 and 4 into the consist 17, and one packet for 17 takes
both out of it. -/
theorem C125_own_false :
    let all : List RxOp := .init :: hears [0#8, 0x12#8, 17#8, 0x03#8] ++ [.execute 0 0]
    let out : List RxOp := hears [17#8, 0x12#8, 0#8, 0x03#8] ++ [.execute 0 0]
    consistNow (numberedEnv 3#8) all = some 17 ∧ consistNow (numberedEnv 4#8) all = some 17 ∧
    consistNow (numberedEnv 3#8) (all ++ out) = some 0 ∧ consistNow (numberedEnv 4#8) (all ++ out) = some 0 := by
  refine ⟨by decide +kernel, by decide +kernel, by decide +kernel, by decide +kernel⟩

/-- The hypotheses of `C125_everybody`, and those of `C125_others_partial` for locomotive 5. -/
example : holdsAfter (({} : Rx).run (numberedEnv 4#8) (.init :: hears [0#8, 0x12#8, 17#8, 0x03#8])) (fun s =>
      decide (front s = some [0#8, 0x12#8, 17#8, 0x03#8] ∧ s.serviceMode = false ∧ s.cfg.cvsLocked = false ∧
        s.logon.assigned = false ∧ s.addrs.logon.value = 0#16 ∧ ¬ Active s 5)) = true ∧
    locoNumber [0#8, 0x12#8, 17#8, 0x03#8] = some 0 ∧ locoNumber [5#8, 0x12#8, 17#8, 0x06#8] = some 5 ∧
    afterAddress [0#8, 0x12#8, 17#8, 0x03#8] = [0x12#8, 17#8, 0x03#8] ∧ exampleCvs 19#32 = 0#8 ∧
    Along (fun s => s.logon.assigned = false) (numberedEnv 4#8) {} (.init :: hears [0#8, 0x12#8, 17#8, 0x03#8]) := by
  decide +kernel

/-- Those of `C125_members`. -/
example : holdsAfter (({} : Rx).run (numberedEnv 4#8) (.init :: hears [0#8, 0x12#8, 17#8, 0x03#8] ++ [.execute 0 0] ++
      hears [17#8, 0x12#8, 0#8, 0x03#8])) (fun s =>
      decide (front s = some [17#8, 0x12#8, 0#8, 0x03#8] ∧ s.serviceMode = false ∧ s.cfg.cvsLocked = false ∧
        s.addrs.consist.type.isLoco = true ∧ s.addrs.consist.value.toNat = 17 ∧ s.addrs.logon.value = 0#16)) = true ∧
    locoNumber [17#8, 0x12#8, 0#8, 0x03#8] = some 17 := by
  decide +kernel

end Dcc
