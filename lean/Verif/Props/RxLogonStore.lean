import Verif.Props.RxLogon
import Verif.Props.RxCv
import Verif.Props.RxConfig
import Verif.Lemmas.RxConfig
/-!
C53: storing the data of an automatic logon, and fast logon after a restart.  A restart is a new
object whose user class has the CVs written before.
-/
namespace Dcc
open Spec

/-- A memory has the data of a logon: command station, session and both bytes of the address. -/
structure Spec.StoredLogon (m : BitVec 32 → Byte) (cid session address : Nat) : Prop where
  cid : (m 65296#32).toNat * 256 + (m 65297#32).toNat = cid
  session : (m 65298#32).toNat = session
  address : (m 65299#32).toNat * 256 + (m 65300#32).toNat = address

theorem mem_erase (evs : List Event) : ∀ m, mem m (evs.map Event.erase) = mem m evs := by
  induction evs with
  | nil => exact fun _ => rfl
  | cons ev evs ih => intro m; cases ev <;> exact ih _

private theorem split_nat (v : BitVec 16) :
    v.toNat >>> 8 % 256 * 256 + v.toNat % 256 = v.toNat := by
  have := v.isLt
  rw [Nat.shiftRight_eq_div_pow]
  omega

private theorem join_nat (c0 c1 : Byte) :
    (c0.setWidth 16 <<< 8 ||| c1.setWidth 16).toNat = c0.toNat * 256 + c1.toNat := by
  have e0 := c0.isLt
  have e1 := c1.isLt
  rw [BitVec.toNat_or, BitVec.toNat_shiftLeft, BitVec.toNat_setWidth, BitVec.toNat_setWidth,
    Nat.mod_eq_of_lt (by omega : c0.toNat < 2 ^ 16), Nat.mod_eq_of_lt (by omega : c1.toNat < 2 ^ 16),
    Nat.shiftLeft_eq, Nat.mod_eq_of_lt (by omega), Nat.mul_comm c0.toNat,
    ← Nat.two_pow_add_eq_or_of_lt e1]

theorem mem_logonWrites (m : BitVec 32 → Byte) (cid : BitVec 16) (session : Byte) (a : BitVec 16) :
    StoredLogon (mem m (logonWrites cid session a)) cid.toNat session.toNat a.toNat := by
  simp only [logonWrites, mem]
  refine ⟨?_, ?_, ?_⟩
  · simp [split_nat]
  · simp
  · simp [split_nat]

theorem prepared_mem (e : Env) (s : Rx) (now : Int) (m : BitVec 32 → Byte) (hs : s.logon.store = true) :
    StoredLogon (mem m (s.prepared e now).trace) s.logon.cidBack.toNat s.logon.sessionBack.toNat
      s.addrs.logon.value.toNat := by
  have key : ∀ x : Rx, x.trace = s.trace → x.logon = s.logon → x.addrs = s.addrs →
      StoredLogon (mem m ((x.logonStore e).updateQos.updateTimepoints now).trace) s.logon.cidBack.toNat
        s.logon.sessionBack.toNat s.addrs.logon.value.toNat := by
    intro x h1 h2 h3
    obtain ⟨evs, h, he⟩ := logonStore_eq e x
    have ht : ∀ x : Rx, (x.updateQos.updateTimepoints now).trace = x.trace := by
      intro x
      unfold Rx.updateTimepoints Rx.updateQos
      dsimp only
      split <;> split <;> rfl
    rw [ht, h, if_pos (by rw [h2]; exact hs), mem_append, ← mem_erase evs, he, storeWrites, mem_append,
      h2, h3]
    exact mem_logonWrites ..
  exact key _ rfl rfl rfl

/-- **C53** (first part) The first packet executed after a logon stores command station, session and
address (the packet executed is no CV access; that would be executed afterwards). -/
theorem C53_stored_partial (e : Env) (m : BitVec 32 → Byte) (s s' : Rx) (hr : Reachable e s) (now : Int)
    (rand : Nat) (p : Packet) (hs : s.logon.store = true) (hm : s.serviceMode = false)
    (hf : front s = some p) (hc : cvRequest s p = false) (hn : isConsistControl p = false)
    (h : s.step e (.execute now rand) = .ok s') :
    StoredLogon (mem m s'.trace) s.logon.cidBack.toNat s.logon.sessionBack.toNat
      s.addrs.logon.value.toNat := by
  simp only [Rx.step, bind_eq_ok, pure_eq_ok, Except.ok.injEq] at h
  obtain ⟨⟨s1, ret⟩, h1, rfl⟩ := h
  obtain ⟨calls, h2, h3⟩ := plain_calls e s s1 hr now rand ret p hm hf hc hn h1
  rw [h2, mem_append_quiet _ _ _ fun ev hev => ?_]
  · exact prepared_mem e s now m hs
  · have := (h3 ev hev).1
    cases ev <;> first | rfl | cases this

/-- A decoder switched on that has only received since. -/
private theorem received_only (e : Env) (xs : List (Nat × Nat)) : ∀ s s' : Rx, Reachable e s →
    s.run e (recvOps xs) = .ok s' → s'.logon.cidFront = s.logon.cidFront ∧
      s'.logon.sessionFront = s.logon.sessionFront ∧ Adds (fun ev => ev.isQuiet = true) s s' := by
  induction xs with
  | nil => intro s s' _ h; cases h; exact ⟨rfl, rfl, .of_eq rfl⟩
  | cons x xs ih =>
    intro s s' hr h
    have h : (s.step e (.receive x.1 x.2) >>= fun s1 => s1.run e (recvOps xs)) = .ok s' := h
    rw [bind_eq_ok] at h
    obtain ⟨s1, h1, h2⟩ := h
    have f := (receive_frame e s hr.recvInv.room x.1 x.2).out _ h1
    obtain ⟨i1, i2, i3⟩ := ih s1 s' (hr.step _ h1) h2
    exact ⟨i1.trans f.cidFront, i2.trans f.sessionFront, f.adds.trans i3⟩

private theorem fast_read (e : Env) (y : Rx) (m : BitVec 32 → Byte)
    (r1 : e.readCv y.trace 65299#32 = m 65299#32)
    (r2 : e.readCv (y.trace ++ [Event.readCv 65299#32 (m 65299#32)]) 65300#32 = m 65300#32) (a : Address)
    (ha : decodeAddress [m 65299#32, m 65300#32] = .ok a) :
    ∃ s2 : Rx, (do
      let a ← decodeAddress [(y.readCv e 65299#32).1, ((y.readCv e 65299#32).2.readCv e 65300#32).1]
      return { ((y.readCv e 65299#32).2.readCv e 65300#32).2 with
        addrs := { ((y.readCv e 65299#32).2.readCv e 65300#32).2.addrs with logon := a } }) = .ok s2 ∧
      s2.logon = y.logon ∧ s2.addrs.logon = a := by
  have q1 : y.readCv e 65299#32 = (m 65299#32, { y with trace := y.trace ++ [.readCv 65299#32 (m 65299#32)] }) := by
    rw [← r1]; rfl
  have q2 : ({ y with trace := y.trace ++ [.readCv 65299#32 (m 65299#32)] } : Rx).readCv e 65300#32 =
      (m 65300#32, { y with trace := y.trace ++ [.readCv 65299#32 (m 65299#32)] ++
        [.readCv 65300#32 (m 65300#32)] }) := by
    rw [← r2]; rfl
  rw [q1, q2, ha, ok_bind]
  exact ⟨_, rfl, rfl, rfl⟩

/-- **C53** (second part) After a restart LOGON_ENABLE of the stored command station, with the stored
session or one of the next four, selects the decoder and gives it an address, namely the one decoded
from the two bytes stored. -/
theorem C53_fast_logon_partial (e : Env) (m : BitVec 32 → Byte) (hm : MemoryLike e m)
    (cid session address : Nat) (hst : StoredLogon m cid session address) (xs : List (Nat × Nat))
    (s : Rx) (hrun : ({} : Rx).run e (.init :: recvOps xs) = .ok s) (t rand : Nat)
    (hc : Completes e s t) (ha : logonAccepted s.link.packet) (h6 : 6 ≤ s.link.packet.length)
    (hen : s.cfg.logonEnabled = true) (hsel : s.logon.selected = false) (g session' : Nat)
    (hcmd : logonCommand s.link.packet = some (.enable g cid session'))
    (hse : session ≤ session' ∧ session' ≤ session + 4) :
    ∃ s', s.step e (.receive t rand) = .ok s' ∧ s'.logon.selected = true ∧ s'.logon.assigned = true ∧
      decodeAddress [m 65299#32, m 65300#32] = .ok s'.addrs.logon := by
  have hr := Reachable.of_run hrun
  have h0 : (({} : Rx).step e .init >>= fun s1 => s1.run e (recvOps xs)) = .ok s := hrun
  rw [bind_eq_ok] at h0
  obtain ⟨s1, h1, h2⟩ := h0
  obtain ⟨cv29, prim, a, v, evs, -, -, -, hv, hq, rfl⟩ := init_ok e {} s1 h1
  obtain ⟨f1, f2, evs2, f3, f4⟩ := received_only e xs _ s (Reachable.start.step .init h1) h2
  have hmem : ∀ x, (∀ ev ∈ x, ev.isQuiet = true) → ∀ cv, e.readCv (s.trace ++ x) cv = m cv := by
    intro x hx cv
    have : mem m (s.trace ++ x) = m := by
      rw [mem_quiet]
      intro ev hev
      rw [f3] at hev
      simp only [List.mem_append] at hev
      rcases hev with (hev | hev) | hev
      · exact stores_of_quiet _ (hq ev (by simpa [initResult] using hev))
      · exact stores_of_quiet _ (f4 ev hev)
      · exact stores_of_quiet _ (hx ev hev)
    rw [hm.reads, this]
  have hcid : s.logon.cidFront.toNat = cid := by
    rw [f1, ← hst.cid, ← (show v.cv65297 = m 65296#32 from hv.cv65297.mem hm),
      ← (show v.cv65298 = m 65297#32 from hv.cv65298.mem hm)]
    exact join_nat ..
  have hses : s.logon.sessionFront.toNat = session := by
    rw [f2, ← hst.session, ← (show v.cv65299 = m 65298#32 from hv.cv65299.mem hm)]
    rfl
  obtain ⟨b, bs, hp⟩ := packet_cons hcmd
  obtain ⟨l, -, hrec⟩ := receive_completes e s t rand hc hr b bs hp ha
  rw [hp] at h6
  match bs, h6 with
  | c0 :: c1 :: se :: more, h6 =>
  have hs : b.toNat / 16 = 15 ∧ b.toNat % 4 = g ∧ c0.toNat * 256 + c1.toNat = cid ∧ se.toNat = session' := by
    rw [hp, logonCommand, if_neg (by decide)] at hcmd
    split at hcmd
    · cases hcmd
    · split at hcmd
      · cases hcmd
      · split at hcmd
        · rename_i h
          simp only [Option.some.injEq, LogonCommand.enable.injEq] at hcmd
          exact ⟨h, hcmd⟩
        · cases hcmd
  obtain ⟨hs1, hs2, hs3, hs4⟩ := hs
  have hceq : c0.setWidth 16 <<< 8 ||| c1.setWidth 16 = s.logon.cidFront := by
    apply BitVec.eq_of_toNat_eq
    rw [join_nat, hs3, hcid]
  have hdiff : sessionDiff se s.logon.sessionFront ≤ 4#32 := by
    rw [sessionDiff_le]
    omega
  generalize hx : s.atLogon l { value := 254#16, type := .automaticLogon } = x at hrec
  have h0 : x.cfg = s.cfg ∧ x.trace = s.trace ∧ x.logon = s.logon := by subst hx; exact ⟨rfl, rfl, rfl⟩
  obtain ⟨x1, x2, x3⟩ := h0
  have : ∃ s2, x.logonEnable e (AddressGroup.ofByte b) (c0.setWidth 16 <<< 8 ||| c1.setWidth 16) se rand =
      .ok s2 ∧ s2.logon.selected = true ∧ s2.logon.assigned = true ∧
      decodeAddress [m 65299#32, m 65300#32] = .ok s2.addrs.logon := by
    rw [Rx.logonEnable, if_neg (by rw [x1, x3, hen, hsel]; decide)]
    dsimp only
    rw [if_pos (by rw [x3]; exact hceq), if_pos (by rw [x3]; exact hdiff)]
    obtain ⟨a, ha⟩ := decode_two (m 65299#32) (m 65300#32)
    have r1 : e.readCv x.trace 65299#32 = m 65299#32 := by
      have := hmem [] (by simp) 65299#32
      rwa [List.append_nil, ← x2] at this
    have r2 : e.readCv (x.trace ++ [Event.readCv 65299#32 (m 65299#32)]) 65300#32 = m 65300#32 := by
      rw [x2]
      exact hmem _ (by simp [Event.isQuiet]) _
    obtain ⟨s2, k1, k2, k3⟩ := fast_read e { x with logon := { x.logon with
      cidBack := c0.setWidth 16 <<< 8 ||| c1.setWidth 16, sessionBack := se, selected := true,
      assigned := true, store := true } } m r1 r2 a ha
    exact ⟨s2, k1, by rw [k2], by rw [k2], by rw [k3]; exact ha⟩
  obtain ⟨s2, i1, i2, i3, i4⟩ := this
  have d0 : data2uint16 ((b :: c0 :: c1 :: se :: more).drop 1) = .ok (c0.setWidth 16 <<< 8 ||| c1.setWidth 16) := rfl
  have d1 : byteAt (b :: c0 :: c1 :: se :: more) 3 = .ok se := rfl
  rw [Rx.executeAutomaticLogon, if_neg (by decide), byteAt_zero, ok_bind] at hrec
  dsimp only at hrec
  rw [if_neg (fun h => by have := (nib_d b).1.mp h; omega),
    if_neg (fun h => by have := (nib_d b).2.1.mp h; omega), if_pos ((nib_d b).2.2.mpr hs1), d0, ok_bind,
    d1, ok_bind, i1] at hrec
  exact ⟨_, hrec, i2, i3, i4⟩

/-- The number of an address that is decoded from the two bytes of a number other than 0 is another
one. -/
theorem decode_plain_ne (b c : Byte) (a : Address) (h : decodeAddress [b, c] = .ok a)
    (h0 : b.toNat * 256 + c.toNat ≠ 0) : a.value.toNat ≠ b.toNat * 256 + c.toNat := by
  have hb := b.isLt
  have hc := c.isLt
  have hv : a.value = b.setWidth 16 ∨ (192 ≤ b.toNat ∧ a.value.toNat < 16384) := by
    rw [decodeAddress] at h
    split at h
    · cases h; exact .inl rfl
    split at h
    · cases h; exact .inl rfl
    split at h
    · cases h; exact .inl rfl
    split at h
    · cases h
      rename_i h3 _
      refine .inr ⟨?_, ?_⟩
      · simp only [BitVec.le_def, BitVec.toNat_ofNat] at h3
        omega
      · rw [BitVec.toNat_and]
        exact Nat.lt_of_le_of_lt Nat.and_le_right (by decide)
    repeat' split at h
    all_goals cases h; exact .inl rfl
  rcases hv with hv | hv
  · rw [hv, BitVec.toNat_setWidth, Nat.mod_eq_of_lt (by omega)]
    omega
  · omega

/-- **C53** fails: a decoder that got an address other than 0 by LOGON_ASSIGN stores the address and,
after a restart, is given another one by the next LOGON_ENABLE of the same session.  The long address
is stored without the two bits that mark long addresses. -/
theorem C53_restored_false (e : Env) (m : BitVec 32 → Byte) (s s' : Rx) (hr : Reachable e s) (now : Int)
    (rand : Nat) (p : Packet) (hs : s.logon.store = true) (hmode : s.serviceMode = false)
    (hf : front s = some p) (hcv : cvRequest s p = false) (hn : isConsistControl p = false)
    (h : s.step e (.execute now rand) = .ok s') (h0 : s.addrs.logon.value ≠ 0#16)
    (e' : Env) (hm : MemoryLike e' (mem m s'.trace)) (xs : List (Nat × Nat)) (r : Rx)
    (hrun : ({} : Rx).run e' (.init :: recvOps xs) = .ok r) (t rand' : Nat)
    (hc : Completes e' r t) (ha : logonAccepted r.link.packet) (h6 : 6 ≤ r.link.packet.length)
    (hen : r.cfg.logonEnabled = true) (hsel : r.logon.selected = false) (g session : Nat)
    (hcmd : logonCommand r.link.packet = some (.enable g s.logon.cidBack.toNat session))
    (hse : s.logon.sessionBack.toNat ≤ session ∧ session ≤ s.logon.sessionBack.toNat + 4) :
    ∃ r', r.step e' (.receive t rand') = .ok r' ∧ r'.logon.assigned = true ∧
      r'.addrs.logon.value ≠ s.addrs.logon.value := by
  have hst := C53_stored_partial e m s s' hr now rand p hs hmode hf hcv hn h
  obtain ⟨r', h1, -, h2, h3⟩ := C53_fast_logon_partial e' _ hm _ _ _ hst xs r hrun t rand' hc ha h6 hen
    hsel g session hcmd hse
  refine ⟨r', h1, h2, fun heq => ?_⟩
  have h4 : s.addrs.logon.value.toNat ≠ 0 := fun h => h0 (BitVec.eq_of_toNat_eq h)
  rw [← hst.address] at h4
  exact decode_plain_ne _ _ _ h3 h4 (by rw [heq, hst.address])

/-- The decoder of `logonExample` with a drive packet for its new address. -/
def storeExample : List RxOp := logonExample ++ hears [0xC3#8, 0xE8#8, 0x3F#8, 0x85#8, 0x91#8]

/-- The state before the store meets the hypotheses: the long address 1000 is assigned. -/
example : holdsAfter (({} : Rx).run logonEnv storeExample) (fun s =>
    s.logon.store && !s.serviceMode && decide (s.addrs.logon = { value := 1000#16, type := .long }) &&
    decide (s.logon.cidBack = 513#16 ∧ s.logon.sessionBack = 7#8) &&
    (match front s with
      | some p => !cvRequest s p && !isConsistControl p
      | none => false)) = true := by
  decide +kernel

/-- The user class after the restart: the CVs written by the decoder of the example. -/
def restartedEnv : Env :=
  match ({} : Rx).run logonEnv (storeExample ++ [.execute 1000 0]) with
  | .ok s => memEnv (mem (logonEnv.readCv []) s.trace)
  | .error _ => logonEnv

/-- The long address 1000 comes back as short address 3. -/
example : holdsAfter (({} : Rx).run restartedEnv (.init :: hears [254#8, 0xFF#8, 2#8, 1#8, 8#8, 10#8]))
    (fun r => r.logon.assigned && decide (r.addrs.logon = { value := 3#16, type := .short })) = true := by
  decide +kernel

/-- The state before the last half bit of that LOGON_ENABLE meets the hypotheses. -/
example : holdsAfter (({} : Rx).run restartedEnv (.init :: lastHalf [254#8, 0xFF#8, 2#8, 1#8, 8#8, 10#8]))
    (completesNow (.enable 3 513 8)) = true := by
  decide +kernel

end Dcc
