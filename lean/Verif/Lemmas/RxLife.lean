import Verif.Lemmas.RxGuest
/-! Lemmas for C89 and C97: rounds of a decoder, whatever its logon address, and LOGON_ENABLE of the
station stored. -/
namespace Dcc
open Spec

/-- What the reception of packets leaves alone. -/
structure SameSelf (s s' : Rx) : Prop where
  cfg : s'.cfg = s.cfg
  primary : s'.addrs.primary = s.addrs.primary
  consist : s'.addrs.consist = s.addrs.consist
  logon : s'.addrs.logon = s.addrs.logon
  selected : s'.logon.selected = s.logon.selected
  assigned : s'.logon.assigned = s.logon.assigned
  cidBack : s'.logon.cidBack = s.logon.cidBack
  sessionBack : s'.logon.sessionBack = s.logon.sessionBack

theorem SameSelf.refl (s : Rx) : SameSelf s s := ⟨rfl, rfl, rfl, rfl, rfl, rfl, rfl, rfl⟩

theorem SameSelf.trans {s t u : Rx} (h : SameSelf s t) (h' : SameSelf t u) : SameSelf s u :=
  ⟨h'.cfg.trans h.cfg, h'.primary.trans h.primary, h'.consist.trans h.consist, h'.logon.trans h.logon,
    h'.selected.trans h.selected, h'.assigned.trans h.assigned, h'.cidBack.trans h.cidBack,
    h'.sessionBack.trans h.sessionBack⟩

theorem SameSelf.calls {s t : Rx} (h : SameSelf s t) (c : Command) : c.calls t = c.calls s := by
  have ha : ∀ n, Active t n ↔ Active s n := by
    intro n; unfold Active; rw [h.logon, h.primary, h.consist]
  have ht : ∀ n, target t n = target s n := by
    intro n; unfold target; rw [h.logon, h.primary]
  have hr : ∀ a, reversedAt t a = reversedAt s a := by
    intro a; unfold reversedAt; rw [h.primary, h.consist]
  unfold Command.calls
  simp only [ha, ht, hr, h.cfg]

theorem SameSelf.writes {s t : Rx} (h : SameSelf s t) : storeWrites t = storeWrites s := by
  unfold storeWrites
  rw [h.primary, h.logon, h.cidBack, h.sessionBack]

theorem prepared_writes (e : Env) (s : Rx) (now : Int) (m : BitVec 32 → Byte) :
    mem m (s.prepared e now).trace =
      if s.logon.store then mem (mem m s.trace) (storeWrites s) else mem m s.trace := by
  have key : ∀ x : Rx, x.trace = s.trace → x.logon = s.logon → x.addrs = s.addrs →
      mem m ((x.logonStore e).updateQos.updateTimepoints now).trace =
        if s.logon.store then mem (mem m s.trace) (storeWrites s) else mem m s.trace := by
    intro x h1 h2 h3
    obtain ⟨evs, h, he⟩ := logonStore_eq e x
    have ht : ∀ x : Rx, (x.updateQos.updateTimepoints now).trace = x.trace := by
      intro x
      unfold Rx.updateTimepoints Rx.updateQos
      dsimp only
      split <;> split <;> rfl
    have hw : storeWrites x = storeWrites s := by unfold storeWrites; rw [h2, h3]
    rw [ht, h, h2]
    cases s.logon.store
    · exact congrArg (mem m) h1
    · show mem m (x.trace ++ evs) = mem (mem m s.trace) (storeWrites s)
      rw [mem_append, ← mem_erase evs, he, hw, h1]
  exact key _ rfl rfl rfl

/-- What a round with a command or an idle packet does. -/
structure PlainRound (e : Env) (s s' : Rx) (ops : List RxOp) (calls : List Event) : Prop where
  run : s.run e ops = .ok s'
  ready : Ready e s'
  self : SameSelf s s'
  silent : s'.q.logon = []
  stored : s'.logon.store = false
  calls : drivingCalls s s' = calls
  trace : s.trace <+: s'.trace
  mem : ∀ m, mem m s'.trace = if s.logon.store then mem (mem m s.trace) (storeWrites s) else mem m s.trace

theorem plain_round (e : Env) (s : Rx) (hr : Reachable e s) (hready : Ready e s) (hq : s.q.logon = []) (r : Round)
    (hsent : r.Sent) (i : Item) (hi : i.Legal) (hip : i.packet = .ok r.packet) (hv : ValidPacket r.packet)
    (hlog : isLogon r.packet = false) : ∃ s', PlainRound e s s' r.ops (i.calls s) := by
  obtain ⟨p, wave, after, now, rand⟩ := r
  obtain ⟨cfg, hcfg, hw⟩ := hsent
  dsimp only at hip hv hlog hw
  have hw : wave.map (·.1) = packetWave cfg p := by
    rw [bytes2timings_ok p cfg hv.max] at hw
    exact (Except.ok.inj hw).symm
  have h1 := recv_packet e s cfg ((accepted_iff cfg).mp hcfg) p hv hlog hready.waiting hr.recvInv.link
    (by rw [hready.deque]; exact hready.room) wave hw
  rw [hready.deque, List.nil_append] at h1
  generalize hs1 : ({ s with
      link := Link.after p
      preambleCount := s.preambleCount + 1
      packetCount := s.packetCount + 1
      deque := [p]
      addrs := { s.addrs with received := addrOf p } } : Rx) = s1 at h1
  have hty : (addrOf p).type ≠ .automaticLogon := by
    obtain ⟨a, ha, hb⟩ := decodeAddress_three p hv.min
    rw [addrOf_ok ha]
    intro hc
    have := hb.mp hc
    rw [hlog] at this
    cases this
  have hcut : ∀ x : Rx, x.addrs.received = addrOf p → cutout x ≠ .logon := by
    intro x hx
    unfold cutout
    rw [hx]
    cases ht : (addrOf p).type <;> dsimp only <;> first
      | exact absurd ht hty
      | (intro h; cases h)
      | (repeat' split) <;> (intro h; cases h)
  -- channel 1
  obtain ⟨q1, evs1, k1, k2⟩ := channel1_adds s1
  have c1 : s1.step e .biDiChannel1 = .ok s1.biDiChannel1 := rfl
  generalize hs2 : s1.biDiChannel1 = s2 at c1 k1
  -- channel 2
  have e2 : s2.link = Link.after p := by rw [k1, ← hs1]
  obtain ⟨s3, c2⟩ := channel2_total s2 (by rw [e2]; exact hv.min)
  obtain ⟨q2, evs2, l1, l2⟩ := (channel2_adds s2).out _ c2
  have c2 : s2.step e .biDiChannel2 = .ok s3 := c2
  have a2 : s2.addrs.received = addrOf p := by rw [k1, ← hs1]
  have q3 : s3.q.logon = [] := by
    obtain ⟨-, -, -, h | ⟨-, h, -⟩⟩ := other_logon e s2 s3 .biDiChannel2 c2 rfl
    · rw [h, k1, ← hs1]; exact hq
    · exact absurd h (hcut s2 a2)
  -- waiting
  have e3 : s3.link = Link.after p := by rw [l1]; exact e2
  obtain ⟨l, b1, b2, b3⟩ := receive_waiting' e s3 after.1 after.2 (by rw [e3]; rfl) (by rw [e3]; show 0 < 20; omega)
  have c3 : s3.step e (.receive after.1 after.2) = .ok { s3 with link := l } := b1
  generalize hs4 : ({ s3 with link := l } : Rx) = s4 at c3
  have t4 : s4.trace = s.trace ++ (evs1 ++ evs2) := by
    rw [← hs4, l1, k1, ← hs1]; exact List.append_assoc _ _ _
  have g4 : SameSelf s s4 ∧ s4.logon = s.logon := by
    rw [← hs4, l1, k1, ← hs1]
    exact ⟨⟨rfl, rfl, rfl, rfl, rfl, rfl, rfl, rfl⟩, rfl⟩
  obtain ⟨g4, n4⟩ := g4
  have mem4 : ∀ m, mem m s4.trace = mem m s.trace := by
    intro m
    rw [t4]
    refine mem_append_quiet _ _ _ fun ev hev => ?_
    rcases List.mem_append.mp hev with hev | hev
    · obtain ⟨_, rfl⟩ := k2 ev hev; rfl
    · obtain ⟨_, rfl⟩ := l2 ev hev; rfl
  have d4 : s4.deque = [p] := by rw [← hs4, l1, k1, ← hs1]
  have m4 : s4.serviceMode = false := by rw [← hs4, l1, k1, ← hs1]; exact hready.mode
  have i4 : i.calls s4 = i.calls s := by
    cases i with
    | none => rfl
    | some c => exact g4.calls c
  have fr : front s4 = some p := by
    rw [← hs4]; unfold front Rx.packetEnd; dsimp only; rw [b2, l1, k1, ← hs1]; rfl
  obtain ⟨ret, h5⟩ := item_executes e s4 now rand i hi p hip fr m4
  have f := (prepare_total e s4 now).2
  obtain ⟨evs3, t5, hst⟩ := prepared_trace e s4 now
  rw [i4] at h5
  generalize hs5 : ({ s4.prepared e now with trace := (s4.prepared e now).trace ++ i.calls s } : Rx).popFront = s5
    at h5
  have c4 : s4.step e (.execute now rand) = .ok s5 := by
    show (Rx.execute e s4 now rand >>= _) = _
    rw [h5, ok_bind]
    rfl
  have t6 : s5.trace = s.trace ++ ((evs1 ++ evs2) ++ evs3 ++ i.calls s) := by
    rw [← hs5]
    show (s4.prepared e now).trace ++ i.calls s = _
    rw [t5, t4]; simp only [List.append_assoc]
  have hc : (i.calls s).filter Event.isDriving = i.calls s := by
    cases i with
    | none => rfl
    | some c => exact calls_driving s c
  have hz : ∀ ev ∈ i.calls s, ev.stores = false := by
    intro ev hev
    rw [← hc] at hev
    have := (List.mem_filter.mp hev).2
    cases ev <;> first | rfl | cases this
  refine ⟨s5, ?_, ⟨?_, ?_, hready.room, ?_⟩, ?_, ?_, by rw [← hs5]; exact f.stored, ?_, ?_, ?_⟩
  · unfold Round.ops
    rw [run_append e _ _ s _ h1]
    simp only [Rx.run, c1, c2, c3, c4, ok_bind]
  · rw [← hs5]
    show (s4.prepared e now).serviceMode = false
    unfold Rx.serviceMode at m4 ⊢
    rw [f.mode]; exact m4
  · rw [← hs5]
    show (s4.prepared e now).deque.drop 1 = []
    rw [f.deque, d4]; rfl
  · rw [← hs5]
    show (s4.prepared e now).link.state = _
    rw [f.link, ← hs4]; exact b3
  · refine g4.trans ?_
    rw [← hs5]
    exact ⟨f.cfg, congrArg Addresses.primary f.addrs, congrArg Addresses.consist f.addrs,
      congrArg Addresses.logon f.addrs, f.selected, f.assigned, f.cidBack, f.sessionBack⟩
  · rw [← hs5]
    show (s4.prepared e now).q.logon = []
    rw [f.qlogon, ← hs4]; exact q3
  · have hz : ∀ evs : List Event, (∀ ev ∈ evs, Event.isDriving ev = false) → evs.filter Event.isDriving = [] := by
      intro evs h
      rw [List.filter_eq_nil_iff]
      intro ev hev
      rw [h ev hev]; exact Bool.false_ne_true
    unfold drivingCalls
    rw [newCalls_append t6, List.filter_append, List.filter_append, List.filter_append, hc,
      hz evs1 (fun ev h => by obtain ⟨_, rfl⟩ := k2 ev h; rfl),
      hz evs2 (fun ev h => by obtain ⟨_, rfl⟩ := l2 ev h; rfl),
      hz evs3 (fun ev h => driving_write ev (hst.writes ev h))]
    rfl
  · rw [t6]; exact List.prefix_append _ _
  · intro m
    rw [← hs5]
    show Spec.mem m ((s4.prepared e now).trace ++ i.calls s) = _
    rw [mem_append_quiet _ _ _ hz, prepared_writes, n4, mem4, g4.writes]

/-- Commands one after another. -/
theorem plain_rounds (e : Env) (rs : List Round) : ∀ (cs : List Command) (s : Rx), Reachable e s → Ready e s →
    s.q.logon = [] → (∀ r ∈ rs, r.Sent) → cs.map Command.packet = rs.map (fun r => .ok r.packet) →
    (∀ c ∈ cs, c.Legal) → ∃ s', s.run e (rs.flatMap Round.ops) = .ok s' ∧ Ready e s' ∧ SameSelf s s' ∧
      s'.q.logon = [] ∧ s.trace <+: s'.trace ∧ drivingCalls s s' = cs.flatMap (fun c => c.calls s) ∧
      ∀ m, mem m s'.trace =
        if s.logon.store ∧ cs ≠ [] then mem (mem m s.trace) (storeWrites s) else mem m s.trace := by
  induction rs with
  | nil =>
    intro cs s hr hready hq _ hp _
    have hcs : cs = [] := by simpa using hp
    subst hcs
    refine ⟨s, rfl, hready, .refl s, hq, List.prefix_refl _, ?_, fun m => by simp⟩
    unfold drivingCalls newCalls
    simp
  | cons r rs ih =>
    intro cs s hr hready hq hs hp hc
    obtain _ | ⟨c, cs⟩ := cs
    · cases hp
    obtain ⟨hp1, hp2⟩ := List.cons.inj hp
    have hleg := hc c (.head _)
    obtain ⟨-, -, k1, k2⟩ := built_packet c.addr hleg.1 c.call r.packet hp1
    obtain ⟨s1, h1⟩ := plain_round e s hr hready hq r (hs r (.head _)) (some c)
      (fun c' hc' => (Option.some.inj hc') ▸ hleg) hp1 k1 k2
    obtain ⟨s2, j1, j2, j3, j4, j5, j6, j7⟩ := ih cs s1 (hr.run _ h1.run) h1.ready h1.silent
      (fun r hr => hs r (.tail _ hr)) hp2 (fun c hx => hc c (.tail _ hx))
    refine ⟨s2, ?_, j2, h1.self.trans j3, j4, h1.trace.trans j5, ?_, fun m => ?_⟩
    · rw [List.flatMap_cons, run_append e _ _ s _ h1.run]; exact j1
    · rw [drivingCalls_trans h1.trace j5, h1.calls, j6, List.flatMap_cons]
      congr 1
      exact congrArg (fun f => cs.flatMap f) (funext fun c => h1.self.calls c)
    · rw [j7, h1.stored, h1.mem]
      simp

/-- What a round with LOGON_ENABLE of the station stored does. -/
structure FastRound (e : Env) (s s' : Rx) (ops : List RxOp) (cid : BitVec 16) (session : Byte) (a : Address) :
    Prop where
  run : s.run e ops = .ok s'
  ready : Ready e s'
  silent : s'.q.logon = []
  cfg : s'.cfg = s.cfg
  primary : s'.addrs.primary = s.addrs.primary
  consist : s'.addrs.consist = s.addrs.consist
  logon : s'.addrs.logon = a
  selected : s'.logon.selected = true
  assigned : s'.logon.assigned = true
  store : s'.logon.store = true
  cidBack : s'.logon.cidBack = cid
  sessionBack : s'.logon.sessionBack = session
  calls : drivingCalls s s' = []
  trace : s.trace <+: s'.trace
  mem : ∀ m, mem m s'.trace = mem m s.trace

/-- What the two bytes stored are decoded to, for the numbers an address can have. -/
theorem decode_number (b c : Byte) (n : Nat) (h : b.toNat * 256 + c.toNat = n) (h2 : n < 32768) :
    decodeAddress [b, c] =
      .ok { value := BitVec.ofNat 16 (n / 256), type := if n < 256 then .broadcast else .short } := by
  have hc := c.isLt
  have hb : b.toNat = n / 256 := by omega
  have hv : b.setWidth 16 = BitVec.ofNat 16 (n / 256) := by
    apply BitVec.eq_of_toNat_eq
    rw [BitVec.toNat_setWidth, BitVec.toNat_ofNat, hb]
  rw [decodeAddress, hv]
  by_cases hn : n < 256
  · have : b = 0#8 := BitVec.eq_of_toNat_eq (by rw [hb]; show n / 256 = 0; omega)
    rw [if_pos this, if_pos hn]
  · rw [if_neg hn, if_neg, if_pos]
    · rw [BitVec.le_def]
      show b.toNat ≤ 127
      omega
    · intro hx
      rw [hx] at hb
      have : (0#8 : Byte).toNat = 0 := rfl
      omega

private theorem read_stored (e : Env) (y : Rx) (b c : Byte) (r1 : e.readCv y.trace 65299#32 = b)
    (r2 : e.readCv (y.trace ++ [Event.readCv 65299#32 b]) 65300#32 = c) (a : Address)
    (ha : decodeAddress [b, c] = .ok a) : (do
      let a ← decodeAddress [(y.readCv e 65299#32).1, ((y.readCv e 65299#32).2.readCv e 65300#32).1]
      return { ((y.readCv e 65299#32).2.readCv e 65300#32).2 with
        addrs := { ((y.readCv e 65299#32).2.readCv e 65300#32).2.addrs with logon := a } }) =
      Except.ok { y with
        trace := y.trace ++ [.readCv 65299#32 b] ++ [.readCv 65300#32 c], addrs := { y.addrs with logon := a } } := by
  have q1 : y.readCv e 65299#32 = (b, { y with trace := y.trace ++ [.readCv 65299#32 b] }) := by
    rw [← r1]; rfl
  have q2 : ({ y with trace := y.trace ++ [.readCv 65299#32 b] } : Rx).readCv e 65300#32 =
      (c, { y with trace := y.trace ++ [.readCv 65299#32 b] ++ [.readCv 65300#32 c] }) := by
    rw [← r2]; rfl
  rw [q1, q2, ha, ok_bind]
  rfl

theorem fast_enable (e : Env) (x : Rx) (g : AddressGroup) (cid : BitVec 16) (session b c : Byte) (a : Address)
    (rand : Nat) (hen : x.cfg.logonEnabled = true) (hsel : x.logon.selected = false) (hcid : cid = x.logon.cidFront)
    (hses : sessionDiff session x.logon.sessionFront ≤ 4#32) (r1 : e.readCv x.trace 65299#32 = b)
    (r2 : e.readCv (x.trace ++ [Event.readCv 65299#32 b]) 65300#32 = c) (ha : decodeAddress [b, c] = .ok a) :
    x.logonEnable e g cid session rand = .ok { x with
      trace := x.trace ++ [.readCv 65299#32 b] ++ [.readCv 65300#32 c]
      addrs := { x.addrs with logon := a }
      logon := { x.logon with cidBack := cid, sessionBack := session, selected := true, assigned := true, store := true } } := by
  rw [Rx.logonEnable, if_neg (by rw [hen, hsel]; decide)]
  dsimp only
  rw [if_pos hcid, if_pos hses]
  exact read_stored e { x with logon := { x.logon with
    cidBack := cid, sessionBack := session, selected := true, assigned := true, store := true } } b c r1 r2 a ha

/-- A round with LOGON_ENABLE of the station stored. -/
theorem fast_round (e : Env) (s : Rx) (hr : Reachable e s) (hready : Ready e s) (hq : s.q.logon = [])
    (hen : s.cfg.logonEnabled = true) (hsel : s.logon.selected = false) (r : Round) (hsent : r.Sent)
    (group : AddressGroup) (cid : BitVec 16) (session b c : Byte) (a : Address)
    (hp : makeLogonEnablePacket group cid session = .ok r.packet) (hcid : cid = s.logon.cidFront)
    (hses : sessionDiff session s.logon.sessionFront ≤ 4#32) (r1 : e.readCv s.trace 65299#32 = b)
    (r2 : e.readCv (s.trace ++ [Event.readCv 65299#32 b]) 65300#32 = c) (ha : decodeAddress [b, c] = .ok a) :
    ∃ s', FastRound e s s' r.ops cid session a := by
  obtain ⟨cfg, hcfg, hw⟩ := hsent
  obtain ⟨d, y0, e1, rfl, e2, e3⟩ := enable_packet group cid session
  rw [e1] at hp
  have hp := (Except.ok.inj hp).symm
  rw [hp] at hw
  generalize hbs : uint16ToData cid ++ [session, y0] = bs at e2 e3 hw
  have hw : r.wave.map (·.1) = packetWave cfg (254#8 :: (0xFC#8 ||| group.toByte) :: bs) := by
    rw [bytes2timings_ok _ cfg e2.max] at hw
    exact (Except.ok.inj hw).symm
  obtain ⟨l, h1⟩ := recv_logon e s hr cfg ((accepted_iff cfg).mp hcfg) _ _ e2 e3 hready.waiting
    (by rw [hready.deque]; exact hready.room) r.wave hw
  rw [← hbs, execute_enable, fast_enable e
    (({ s with preambleCount := s.preambleCount + 1 } : Rx).atLogon l logonAddr) _ cid session b c a _ hen hsel hcid
    hses r1 r2 ha] at h1
  have h1 : s.run e (recvOps r.wave) = .ok _ := h1
  generalize hy : Rx.reset _ = y at h1
  have ht : y.addrs.received.type = .automaticLogon := by rw [← hy]; rfl
  have hyq : y.q.logon = [] := by rw [← hy]; exact hq
  have hd : y.deque = [] := by rw [← hy]; exact hready.deque
  have c1 : y.step e .biDiChannel1 = .ok y := by
    show Except.ok y.biDiChannel1 = _
    rw [Rx.biDiChannel1, ht]
    dsimp only
    rw [Rx.appLogon1, hyq]
  have c2 : y.step e .biDiChannel2 = .ok y := by
    show y.biDiChannel2 = _
    rw [Rx.biDiChannel2, ht]
    dsimp only
    rw [Rx.appLogon2, hyq]
  obtain ⟨l', b1, b2, b3⟩ := receive_waiting' e y r.after.1 r.after.2 (by rw [← hy]; rfl)
    (by rw [← hy]; show 0 < 20; omega)
  have c3 : y.step e (.receive r.after.1 r.after.2) = .ok { y with link := l' } := b1
  have c4 : ({ y with link := l' } : Rx).step e (.execute r.now r.rand) = .ok { y with link := l' } := by
    show (Rx.execute e _ r.now r.rand >>= _) = _
    rw [execute_front_none e { y with link := l' } r.now r.rand (.inr hd), ok_bind]
    rfl
  have htr : y.trace = s.trace ++ ([.readCv 65299#32 b] ++ [.readCv 65300#32 c]) := by
    rw [← hy]; exact List.append_assoc _ _ _
  refine ⟨{ y with link := l' }, ?_, ⟨?_, hd, hready.room, b3⟩, hyq, ?_, ?_, ?_, ?_, ?_, ?_, ?_, ?_, ?_, ?_, ?_, ?_⟩
  · unfold Round.ops
    rw [run_append e _ _ s _ h1]
    simp only [Rx.run, c1, c2, c3, c4, ok_bind]
  · rw [← hy]; exact hready.mode
  iterate 9 · rw [← hy]; rfl
  · exact driving_nil (P := fun ev => ev.isQuiet = true) ⟨_, htr, by simp [Event.isQuiet]⟩
      (fun ev h => driving_cv ev (Event.isCv_of_quiet h))
  · show s.trace <+: y.trace
    rw [htr]; exact List.prefix_append _ _
  · intro m
    show Spec.mem m y.trace = _
    rw [htr]
    exact mem_append_quiet _ _ _ (by simp [Event.stores])

end Dcc
