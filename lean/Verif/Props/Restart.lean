import Verif.Lemmas.RxLife
import Verif.Props.Guest
/-! C89: switching off and on again after having logged on. -/
namespace Dcc
open Spec

private theorem joined (c0 c1 : Byte) :
    (c0.setWidth 16 <<< 8 ||| c1.setWidth 16).toNat = c0.toNat * 256 + c1.toNat := by
  have e0 := c0.isLt
  have e1 := c1.isLt
  rw [BitVec.toNat_or, BitVec.toNat_shiftLeft, BitVec.toNat_setWidth, BitVec.toNat_setWidth,
    Nat.mod_eq_of_lt (by omega : c0.toNat < 2 ^ 16), Nat.mod_eq_of_lt (by omega : c1.toNat < 2 ^ 16),
    Nat.shiftLeft_eq, Nat.mod_eq_of_lt (by omega), Nat.mul_comm c0.toNat,
    ← Nat.two_pow_add_eq_or_of_lt e1]

/-- A decoder just switched on knows the station stored and reads what is stored. -/
theorem switched_on {e : Env} {m : BitVec 32 → Byte} (hm : MemoryLike e m) {cid session address : Nat}
    (hst : StoredLogon m cid session address) {s : Rx} (h : ({} : Rx).run e [.init] = .ok s) :
    s.logon.cidFront.toNat = cid ∧ s.logon.sessionFront.toNat = session ∧
      (∀ x, (∀ ev ∈ x, ev.isQuiet = true) → ∀ cv, e.readCv (s.trace ++ x) cv = m cv) ∧
      s.addrs.logon.value = 0#16 ∧ mem m s.trace = m ∧ Reflects m s := by
  have h0 : (({} : Rx).step e .init >>= fun s1 => s1.run e []) = .ok s := h
  rw [bind_eq_ok] at h0
  obtain ⟨s1, h1, h2⟩ := h0
  cases h2
  obtain ⟨hR, hmem⟩ := init_reflects hm (s := {}) h1
  rw [hmem] at hR
  obtain ⟨cv29, prim, a, v, evs, -, -, -, hv, hq, rfl⟩ := init_ok e {} s h1
  refine ⟨?_, ?_, fun x hx cv => ?_, rfl, hmem, hR⟩
  · rw [← hst.cid, ← (show v.cv65297 = m 65296#32 from hv.cv65297.mem hm),
      ← (show v.cv65298 = m 65297#32 from hv.cv65298.mem hm)]
    exact joined ..
  · rw [← hst.session, ← (show v.cv65299 = m 65298#32 from hv.cv65299.mem hm)]
    rfl
  · rw [hm.reads, mem_quiet]
    intro ev hev
    rcases List.mem_append.mp hev with hev | hev
    · exact stores_of_quiet _ (hq ev (by simpa [initResult] using hev))
    · exact stores_of_quiet _ (hx ev hev)

/-- Commands after a fast logon. -/
theorem fast_calls {s t : Rx} (n : Nat) (h2 : n < 32768) (hcfg : t.cfg = s.cfg)
    (hprim : t.addrs.primary = s.addrs.primary) (hcon : t.addrs.consist = s.addrs.consist)
    (h0 : s.addrs.logon.value = 0#16) (hlog : t.addrs.logon =
      { value := BitVec.ofNat 16 (n / 256), type := if n < 256 then .broadcast else .short }) (c : Command) :
    c.calls t = if n < 256 ∨ c.addr.value.toNat = 0 then c.calls s
      else if c.addr.value.toNat = n / 256 then
        AddressedCall.asks s.cfg.f0Exception s.addrs.primary.reversed s.addrs.primary.value c.call
      else [] := by
  have hrev : ∀ a, reversedAt t a = reversedAt s a := by
    intro a; unfold reversedAt; rw [hprim, hcon]
  by_cases hn : n < 256
  · have hz : t.addrs.logon.value = 0#16 := by
      rw [hlog]; show BitVec.ofNat 16 (n / 256) = _
      rw [Nat.div_eq_of_lt hn]
    have ha : ∀ n, Active t n ↔ Active s n := by
      intro n; unfold Active; rw [hprim, hcon, if_pos hz, if_pos h0]
    have ht : ∀ n, target t n = target s n := by
      intro n; unfold target; rw [hz, h0, hprim]
    rw [if_pos (.inl hn)]
    unfold Command.calls
    simp only [ha, ht, hrev, hcfg]
  · have hv : (BitVec.ofNat 16 (n / 256)).toNat = n / 256 := by rw [BitVec.toNat_ofNat]; omega
    have hz : ¬ t.addrs.logon.value = 0#16 := by
      rw [hlog]
      intro h
      have := congrArg BitVec.toNat h
      simp only [hv, BitVec.toNat_ofNat] at this
      omega
    have ha : ∀ k, Active t k ↔ k = n / 256 := by
      intro k
      unfold Active
      rw [if_neg hz, hlog]
      simp only [hv, if_neg hn]
      exact ⟨fun h => h.2, fun h => ⟨rfl, h⟩⟩
    unfold Command.calls
    simp only [ha, hrev, hcfg]
    by_cases h0 : c.addr.value.toNat = 0
    · rw [if_pos (.inl h0), if_pos (.inr h0), if_pos (.inl h0)]
      have : ∀ s : Rx, target s c.addr.value.toNat = BitVec.ofNat 16 c.addr.value.toNat := by
        intro s; unfold target; rw [if_pos (.inl h0)]
      rw [this, this]
    · have hno : ¬ (n < 256 ∨ c.addr.value.toNat = 0) := fun h => h.elim hn h0
      rw [if_neg hno]
      by_cases h4 : c.addr.value.toNat = n / 256
      · rw [if_pos (.inr h4), if_pos h4]
        have : target t c.addr.value.toNat = s.addrs.primary.value := by
          unfold target
          rw [if_neg (fun h => h.elim h0 hz), hprim]
        rw [this]
        have : reversedAt s s.addrs.primary.value = s.addrs.primary.reversed := by
          unfold reversedAt; rw [if_pos rfl]
        rw [this]
      · rw [if_neg (fun h => h.elim h0 h4), if_neg h4]

theorem after_selected (xs : List (Nat × GuestItem)) : ∀ g : Guest, g.selected = true →
    (g.after xs).station = g.station := by
  induction xs with
  | nil => intro g _; rfl
  | cons x xs ih =>
    intro g h
    rw [Guest.after, ih _ (hear_selected g _ _ h)]
    obtain ⟨k, i⟩ := x
    cases i <;> simp only [Guest.hear, h, if_true] <;> (repeat' split) <;> rfl

theorem after_station (items : List GuestItem) : ∀ (ks : List Nat) (seen : List (BitVec 32)) (g : Guest),
    ks.length = items.length → SelectedFirst seen items → g.uid ∉ seen → g.selected = false → g.number = none →
    (g.after (ks.zip items)).station = stationHeard g.uid g.station items := by
  induction items with
  | nil => intro ks seen g h _ _ _ _; cases ks <;> first | rfl | cases h
  | cons i items ih =>
    intro ks seen g hl hf hseen hs hn
    obtain _ | ⟨k, ks⟩ := ks
    · cases hl
    replace hl : ks.length = items.length := by simpa using hl
    rw [List.zip_cons_cons, Guest.after]
    cases i with
    | enable group c se =>
      have : (g.hear k (.enable group c se)).1 =
          { g with pause := (g.pause.enable (groupNumber group) k).1, station := some (c, se) } := by
        simp [Guest.hear, hs]
      dsimp only
      rw [this]
      exact ih ks seen _ hl hf hseen hs hn
    | select m u sub =>
      by_cases hu : u = g.uid
      · have : (g.hear k (.select m u sub)).1 = { g with selected := true } := by simp [Guest.hear, hu, hn]
        dsimp only
        rw [this, after_selected _ _ rfl, stationHeard, if_pos hu]
      · have : (g.hear k (.select m u sub)).1 = g := by simp [Guest.hear, hu]
        dsimp only
        rw [this, stationHeard, if_neg hu]
        refine ih ks (u :: seen) g hl hf ?_ hs hn
        intro h
        rcases List.mem_cons.mp h with h | h
        · exact hu h.symm
        · exact hseen h
    | assign m u n =>
      have hu : ¬ u = g.uid := fun h => hseen (h ▸ hf.1)
      have : (g.hear k (.assign m u n)).1 = g := by simp [Guest.hear, hu]
      dsimp only
      rw [this]
      exact ih ks seen g hl hf.2 hseen hs hn
    | idle => exact ih ks seen g hl hf hseen hs hn
    | drive c => exact ih ks seen g hl hf hseen hs hn

/-- **C89** (first part) A decoder logged on, got the number `n`, and executed one more packet: then
station, session and number are stored. -/
theorem C89_stored (e : Env) (ops : List RxOp) (s : Rx) (uid : BitVec 32) (rs : List Round) (r : Round)
    (items : List GuestItem) (last : Item) (hl : rs.length = items.length)
    (h : LogsOn e ops s uid (rs ++ [r]) (items ++ [match last with | none => .idle | some c => .drive c]))
    (n : Nat) (c : BitVec 16) (k : Byte) (hn : assignedLast uid items = some n)
    (hst : stationHeard uid none items = some (c, k)) :
    ∃ s', s.run e ((rs ++ [r]).flatMap Round.ops) = .ok s' ∧
      ∀ m, StoredLogon (mem m s'.trace) c.toNat k.toNat n := by
  have hp := h.packets
  rw [List.map_append, List.map_append] at hp
  obtain ⟨hp1, hp2⟩ := List.append_inj hp (by simp [hl])
  obtain ⟨s1, h1, h2, h3, h4, -, -, -⟩ := guest_rounds e s rs items [] _ s (.of_run h.run) h.ready (logsOn_guest h)
    h.may.silent (fun r hr => h.sent r (List.mem_append_left _ hr)) hp1
    (fun i hi => h.legal i (List.mem_append_left _ hi)) (first_left h.first) (fun hx => absurd hx (by simp))
  have hnum : (Guest.after { uid := uid, pause := logonPause e {} {} ops }
      ((rs.map Round.drawn).zip items)).number = some n := by
    rw [(after_number _ _).2, List.map_snd_zip (by simp [hl])]
    exact hn
  have hsta : (Guest.after { uid := uid, pause := logonPause e {} {} ops }
      ((rs.map Round.drawn).zip items)).station = some (c, k) := by
    rw [after_station items _ [] _ (by simp [hl]) (first_left h.first) (by simp) rfl rfl]
    exact hst
  have hlast : last.Legal ∧ last.packet = .ok r.packet ∧ ValidPacket r.packet ∧ isLogon r.packet = false := by
    have hleg := h.legal _ (List.mem_append_right _ (.head _))
    cases last with
    | none =>
      have hip : (.ok idleBytes : R Packet) = .ok r.packet := (List.cons.inj hp2).1
      have hp : r.packet = idleBytes := (Except.ok.inj hip).symm
      exact ⟨fun c hc => (by cases hc), hip, by rw [hp]; exact ⟨by decide, by decide, by decide⟩, by rw [hp]; decide⟩
    | some c =>
      have hip : c.packet = .ok r.packet := (List.cons.inj hp2).1
      obtain ⟨-, -, k1, k2⟩ := built_packet c.addr (show c.Legal from hleg).1 c.call r.packet hip
      exact ⟨fun c' hc => (Option.some.inj hc) ▸ hleg, hip, k1, k2⟩
  obtain ⟨i1, i2, i3, i4⟩ := hlast
  obtain ⟨s2, k1, k2⟩ := guest_drive_round e s _ s1 (Reachable.run (.of_run h.run) _ h1) h2 h3 h4 r
    (h.sent r (List.mem_append_right _ (.head _))) last i1 i2 i3 i4
  refine ⟨s2, ?_, fun m => ?_⟩
  · rw [List.flatMap_append, run_append e _ _ s _ h1]
    simpa using k1.run
  · rcases k1.guest.kept n c k hnum hsta with hx | hx
    · rw [k2] at hx; cases hx
    · exact hx m

/-- A decoder with station, session and the number `n` stored is switched on, and hears LOGON_ENABLE of
that station in the same session or one of the next four. -/
theorem restart_fast {e : Env} {m : BitVec 32 → Byte} (hm : MemoryLike e m) {cid : BitVec 16}
    {session session' : Byte} {n : Nat} (hst : StoredLogon m cid.toNat session.toNat n)
    (h2 : n < 32768) {s : Rx} (h : ({} : Rx).run e [.init] = .ok s) (hready : Ready e s) (hmay : MayLogOn s)
    (hse : session.toNat ≤ session'.toNat ∧ session'.toNat ≤ session.toNat + 4) {group : AddressGroup} {r : Round}
    (hr : r.Sent) (hp : makeLogonEnablePacket group cid session' = .ok r.packet) :
    ∃ s1, FastRound e s s1 r.ops cid session'
      { value := BitVec.ofNat 16 (n / 256), type := if n < 256 then .broadcast else .short } := by
  obtain ⟨k1, k2, k3, -, -⟩ := switched_on hm hst h
  refine fast_round e s (.of_run h) hready hmay.silent hmay.enabled hmay.selected r hr group cid session'
    (m 65299#32) (m 65300#32) _ hp (BitVec.eq_of_toNat_eq k1).symm (by rw [sessionDiff_le, k2]; exact hse) ?_
    (k3 _ (by simp [Event.isQuiet]) _) (decode_number _ _ n hst.address h2)
  have := k3 [] (by simp) 65299#32
  rwa [List.append_nil] at this

/-- **C89** (partial) What happens when a decoder with station, session and a number `n` stored is switched
on and hears LOGON_ENABLE of that station in the same session or one of the next four.  With a number of
at least 256 its locomotive does from then on what commands to the number `n / 256` ask, and what is asked
of everyone.  With a smaller number it does what it did before, that is what commands to its own address
and its consist ask. -/
theorem C89_restart_partial (e : Env) (m : BitVec 32 → Byte) (hm : MemoryLike e m) (cid : BitVec 16)
    (session session' : Byte) (n : Nat) (hst : StoredLogon m cid.toNat session.toNat n)
    (h2 : n < 32768) (s : Rx) (h : ({} : Rx).run e [.init] = .ok s) (hready : Ready e s) (hmay : MayLogOn s)
    (hse : session.toNat ≤ session'.toNat ∧ session'.toNat ≤ session.toNat + 4) (group : AddressGroup) (r : Round)
    (hr : r.Sent) (hp : makeLogonEnablePacket group cid session' = .ok r.packet) (rs : List Round)
    (cs : List Command) (hrs : ∀ r ∈ rs, r.Sent) (hps : cs.map Command.packet = rs.map (fun r => .ok r.packet))
    (hcs : ∀ c ∈ cs, c.Legal) :
    ∃ s1 s2, s.run e r.ops = .ok s1 ∧ s1.run e (rs.flatMap Round.ops) = .ok s2 ∧ drivingCalls s s1 = [] ∧
      drivingCalls s1 s2 = cs.flatMap fun c =>
        if n < 256 ∨ c.addr.value.toNat = 0 then c.calls s
        else if c.addr.value.toNat = n / 256 then
          AddressedCall.asks s.cfg.f0Exception s.addrs.primary.reversed s.addrs.primary.value c.call
        else [] := by
  obtain ⟨s1, i1⟩ := restart_fast hm hst h2 h hready hmay hse hr hp
  obtain ⟨s2, j1, -, -, -, -, j2, -⟩ := plain_rounds e rs cs s1 (Reachable.run (.of_run h) _ i1.run) i1.ready
    i1.silent hrs hps hcs
  refine ⟨s1, s2, i1.run, j1, i1.calls, ?_⟩
  rw [j2]
  exact congrArg (fun f => cs.flatMap f)
    (funext (fast_calls n h2 i1.cfg i1.primary i1.consist (switched_on hm hst h).2.2.2.1 i1.logon))

/-- **C89** (false) A locomotive obeys the number assigned to it after it has been switched off and on
again and has logged on fast.  In truth none does, unless it does so anyhow: commands to its number are
ignored if the number is at least 256, or neither its own nor that of its consist. -/
theorem C89_restored_false (e : Env) (ops : List RxOp) (s : Rx) (uid : BitVec 32) (rs : List Round) (r : Round)
    (items : List GuestItem) (last : Item) (hl : rs.length = items.length)
    (h : LogsOn e ops s uid (rs ++ [r]) (items ++ [match last with | none => .idle | some c => .drive c]))
    (n : Nat) (cid : BitVec 16) (k : Byte) (hn : assignedLast uid items = some n)
    (hst : stationHeard uid none items = some (cid, k)) (h1 : 1 ≤ n) (h2 : n < 10240) :
    ∃ s', s.run e ((rs ++ [r]).flatMap Round.ops) = .ok s' ∧
      ∀ (m : BitVec 32 → Byte) (e' : Env), MemoryLike e' (mem m s'.trace) → ∀ t : Rx,
        ({} : Rx).run e' [.init] = .ok t → Ready e' t → MayLogOn t → (n < 256 → ¬ Active t n) →
        ∀ (k' : Byte), k.toNat ≤ k'.toNat → k'.toNat ≤ k.toNat + 4 → ∀ (group : AddressGroup) (r1 r2 : Round),
        r1.Sent → r2.Sent → makeLogonEnablePacket group cid k' = .ok r1.packet →
        ∀ c : Command, c.Legal → c.addr.value.toNat = n → c.packet = .ok r2.packet →
        ∃ t1 t2, t.run e' r1.ops = .ok t1 ∧ t1.run e' r2.ops = .ok t2 ∧ drivingCalls t1 t2 = [] := by
  obtain ⟨s', i1, i2⟩ := C89_stored e ops s uid rs r items last hl h n cid k hn hst
  refine ⟨s', i1, ?_⟩
  intro m e' hm t ht hr hmay hact k' hk1 hk2 group r1 r2 hs1 hs2 hp c hc hcn hcp
  obtain ⟨t1, t2, j1, j2, -, j3⟩ := C89_restart_partial e' _ hm cid k k' n (i2 m) (by omega) t ht hr hmay
    ⟨hk1, hk2⟩ group r1 hs1 hp [r2] [c] (fun r hr => by rw [List.mem_singleton.mp hr]; exact hs2)
    (by simp [hcp]) (fun c' hc' => by rw [List.mem_singleton.mp hc']; exact hc)
  simp only [List.flatMap_cons, List.flatMap_nil, List.append_nil] at j2 j3
  refine ⟨t1, t2, j1, j2, j3.trans ?_⟩
  by_cases hn : n < 256
  · rw [if_pos (.inl hn)]
    unfold Command.calls
    rw [hcn, if_neg]
    exact fun h => h.elim (by omega) (hact hn)
  · rw [if_neg (by omega), if_neg (by omega)]

/-- **C89** (false) Two locomotives with different numbers are moved separately after they have been
switched off and on and have logged on fast.  In truth both obey the commands to one address, if their
numbers divided by 256 are the same. -/
theorem C89_apart_false (e e' : Env) (m m' : BitVec 32 → Byte) (hm : MemoryLike e m) (hm' : MemoryLike e' m')
    (cid : BitVec 16) (session session' : Byte) (n n' : Nat) (hst : StoredLogon m cid.toNat session.toNat n)
    (hst' : StoredLogon m' cid.toNat session.toNat n') (h1 : 256 ≤ n) (h2 : n < 10240)
    (hnn : n' / 256 = n / 256) (s s' : Rx) (h : ({} : Rx).run e [.init] = .ok s)
    (h' : ({} : Rx).run e' [.init] = .ok s') (hready : Ready e s) (hready' : Ready e' s') (hmay : MayLogOn s)
    (hmay' : MayLogOn s')
    (hse : session.toNat ≤ session'.toNat ∧ session'.toNat ≤ session.toNat + 4) (group : AddressGroup)
    (r1 r2 : Round) (hs1 : r1.Sent) (hs2 : r2.Sent)
    (hp : makeLogonEnablePacket group cid session' = .ok r1.packet) (c : Command) (hc : c.Legal)
    (hcn : c.addr.value.toNat = n / 256) (hcp : c.packet = .ok r2.packet) :
    (∃ s1 s2, s.run e r1.ops = .ok s1 ∧ s1.run e r2.ops = .ok s2 ∧ drivingCalls s1 s2 =
      AddressedCall.asks s.cfg.f0Exception s.addrs.primary.reversed s.addrs.primary.value c.call) ∧
    ∃ s1 s2, s'.run e' r1.ops = .ok s1 ∧ s1.run e' r2.ops = .ok s2 ∧ drivingCalls s1 s2 =
      AddressedCall.asks s'.cfg.f0Exception s'.addrs.primary.reversed s'.addrs.primary.value c.call := by
  have hrs : ∀ r ∈ [r2], r.Sent := fun r hr => by rw [List.mem_singleton.mp hr]; exact hs2
  have hcs : ∀ c' ∈ [c], c'.Legal := fun c' hc' => by rw [List.mem_singleton.mp hc']; exact hc
  obtain ⟨t1, t2, j1, j2, -, j3⟩ := C89_restart_partial e m hm cid session session' n hst (by omega) s h hready hmay
    hse group r1 hs1 hp [r2] [c] hrs (by simp [hcp]) hcs
  obtain ⟨t1', t2', j1', j2', -, j3'⟩ := C89_restart_partial e' m' hm' cid session session' n' hst' (by omega)
    s' h' hready' hmay' hse group r1 hs1 hp [r2] [c] hrs (by simp [hcp]) hcs
  simp only [List.flatMap_cons, List.flatMap_nil, List.append_nil] at j2 j3 j2' j3'
  rw [if_neg (by omega), if_pos hcn] at j3
  rw [if_neg (by omega), if_pos (by omega)] at j3'
  exact ⟨⟨t1, t2, j1, j2, j3⟩, t1', t2', j1', j2', j3'⟩

/-! ### Examples -/

example : stationHeard 0x01020304#32 none guestItems = some (513#16, 7#8) ∧
    stationHeard 0x05060708#32 none guestItems = some (513#16, 7#8) := by decide

/-- The session of C88, then the decoder is switched off and on: all hypotheses about it that can be
computed, and the calls after LOGON_ENABLE of the same station when loco 1000 and loco 3 are driven. -/
def restartCheck (e : Env) (uid : BitVec 32) : Bool :=
  match ({} : Rx).run e (.init :: (guestItems ++ [GuestItem.idle]).flatMap fun i => (guestRound i).ops) with
  | .error _ => false
  | .ok s =>
    let e' := memEnv fun cv => e.readCv s.trace cv
    match ({} : Rx).run e' [.init] with
    | .error _ => false
    | .ok t =>
      decide (t.serviceMode = false ∧ t.deque = [] ∧ t.link.state = .preamble ∧ t.cfg.logonEnabled = true ∧
        t.logon.selected = false ∧ t.logon.assigned = false ∧ t.logon.store = false ∧ t.q.logon = [] ∧ t.addrs.logon.value = 0#16 ∧
        t.cfg.did = uint32ToData uid ∧ 0 < e'.rxDeque ∧ t.logon.cidFront = 513#16 ∧ t.logon.sessionFront = 7#8) &&
      match t.run e' (guestRound (.enable .all 513#16 8#8)).ops with
      | .error _ => false
      | .ok t1 =>
        match t1.run e' (guestRound (.drive guestCommand)).ops with
        | .error _ => false
        | .ok t2 =>
          match t2.run e' (guestRound (.drive ⟨⟨3#16, .short, false⟩, .advancedSpeed 0x85#8⟩)).ops with
          | .error _ => false
          | .ok t3 => decide ((drivingCalls t1 t2).length = 0 ∧ (drivingCalls t2 t3).length = 2)

/-- Both decoders of C88, with the numbers 1000 and 1001, obey commands to 3 and not those to 1000. -/
example : restartCheck logonEnv 0x01020304#32 = true ∧ restartCheck otherGuestEnv 0x05060708#32 = true := by
  decide +kernel

end Dcc
