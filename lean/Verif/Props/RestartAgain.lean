import Verif.Props.Restart
/-! C97: what a fast logon leaves in the CVs. -/
namespace Dcc
open Spec

/-- The decoder's own address is taken for the one decoded from the stored number `n`: `n / 256` is its own
number, or both are 0. -/
def Spec.TakenForOwn (m : BitVec 32 → Byte) (n : Nat) : Prop :=
  if n < 256 then primaryByte m = 0#8 else ownNumber m = some (n / 256)

/-- CVs after a fast logon of a decoder with the stored number `n`: station and session are stored, the
number is divided by 256, the consist is dissolved, and the own number, if it is taken for the number
decoded, becomes a long one. -/
structure Spec.Refreshed (m m' : BitVec 32 → Byte) (cid session n : Nat) : Prop where
  station : StoredLogon m' cid session (n / 256)
  consist : m' 18#32 = 0#8 ∧ m' 19#32 = 0#8
  own : TakenForOwn m n →
    m' 16#32 = 0xC0#8 ∧ (m' 17#32).toNat = n / 256 ∧ ∀ i, (m' 28#32).getLsbD i = (i == 5 || (m 28#32).getLsbD i)
  other : ¬ TakenForOwn m n → m' 16#32 = m 16#32 ∧ m' 17#32 = m 17#32 ∧ m' 28#32 = m 28#32
  rest : ∀ cv, cv ∉ logonCvs → m' cv = m cv

theorem set_five (b : Byte) (i : Nat) : (setBit b 5#32 true).getLsbD i = (i == 5 || b.getLsbD i) := by
  by_cases h : i < 8
  · have key : ∀ b : Byte, ∀ i : Fin 8, (setBit b 5#32 true).getLsbD i = (i.val == 5 || b.getLsbD i) := by
      decide +kernel
    exact key b ⟨i, h⟩
  · rw [BitVec.getLsbD_of_ge _ _ (by omega), BitVec.getLsbD_of_ge _ _ (by omega)]
    have : (i == 5) = false := by simp; omega
    rw [this]; rfl

private theorem class_facts {b : Nat} {t : AddrType} (h : HasClass b t) :
    (t = .broadcast ↔ b = 0) ∧ (t.isLoco = true ↔ (1 ≤ b ∧ b ≤ 127 ∨ 192 ≤ b ∧ b ≤ 231)) := by
  obtain ⟨c, hc, c1, c2, rfl⟩ := h
  simp only [firstByteClass, List.mem_cons, List.not_mem_nil, or_false] at hc
  rcases hc with rfl | rfl | rfl | rfl | rfl | rfl | rfl | rfl <;>
    (dsimp only at c1 c2 ⊢; simp [AddrType.isLoco]; omega)

theorem taken_iff {m : BitVec 32 → Byte} {s : Rx} (h : Reflects m s) (n : Nat) (h2 : n < 32768) :
    s.addrs.primary.eq
      { value := BitVec.ofNat 16 (n / 256), type := if n < 256 then .broadcast else .short } = true ↔
        TakenForOwn m n := by
  obtain ⟨f1, f2⟩ := class_facts h.primaryType
  have hv := h.primaryValue
  have hveq : ∀ k, k < 65536 → (s.addrs.primary.value = BitVec.ofNat 16 k ↔ primaryNumber m = k) := by
    intro k hk
    rw [← hv]
    constructor
    · intro h; rw [h, BitVec.toNat_ofNat]; omega
    · intro h; apply BitVec.eq_of_toNat_eq; rw [BitVec.toNat_ofNat, h]; omega
  have hz : primaryByte m = 0#8 ↔ (primaryByte m).toNat = 0 :=
    ⟨fun h => by rw [h]; rfl, fun h => BitVec.eq_of_toNat_eq h⟩
  unfold TakenForOwn Address.eq
  by_cases hn : n < 256
  · have h0 : n / 256 = 0 := Nat.div_eq_of_lt hn
    have hl : AddrType.isLoco .broadcast = false := rfl
    simp only [hn, if_true, hl, Bool.and_false, Bool.false_eq_true, if_false, h0, Bool.and_eq_true, beq_iff_eq]
    rw [hveq 0 (by omega), hz, f1]
    refine ⟨fun h => h.2, fun h => ⟨?_, h⟩⟩
    unfold primaryNumber
    rw [h]; rfl
  · have hl : AddrType.isLoco .short = true := rfl
    simp only [hn, if_false, hl, Bool.and_true]
    unfold ownNumber
    dsimp only
    by_cases hp : s.addrs.primary.type.isLoco = true
    · rw [if_pos hp, if_pos (f2.mp hp), beq_iff_eq, hveq _ (by omega), Option.some.injEq]
    · rw [if_neg hp, if_neg (fun h => hp (f2.mpr h))]
      refine ⟨fun h => ?_, fun h => by cases h⟩
      simp only [Bool.and_eq_true, beq_iff_eq] at h
      exact absurd (by rw [h.2]; rfl) hp

theorem eq_value {a b : Address} (h : a.eq b = true) : a.value = b.value := by
  unfold Address.eq at h
  split at h
  · exact beq_iff_eq.mp h
  · rw [Bool.and_eq_true] at h
    exact beq_iff_eq.mp h.1

/-- What storing does to the CVs. -/
theorem refreshed_writes {m : BitVec 32 → Byte} {s t : Rx} (h : Reflects m s) (n : Nat) (h2 : n < 32768)
    (hprim : t.addrs.primary = s.addrs.primary) (hlog : t.addrs.logon =
      { value := BitVec.ofNat 16 (n / 256), type := if n < 256 then .broadcast else .short }) :
    Refreshed m (mem m (storeWrites t)) t.logon.cidBack.toNat t.logon.sessionBack.toNat n := by
  have hs : StoredLogon (mem m (storeWrites t)) t.logon.cidBack.toNat t.logon.sessionBack.toNat (n / 256) := by
    have := mem_logonWrites (mem m (if t.addrs.primary.eq t.addrs.logon then primaryWrites t.addrs.primary.value else []))
      t.logon.cidBack t.logon.sessionBack t.addrs.logon.value
    rw [← mem_append] at this
    have hv : t.addrs.logon.value.toNat = n / 256 := by
      rw [hlog]; show (BitVec.ofNat 16 (n / 256)).toNat = _; rw [BitVec.toNat_ofNat]; omega
    rw [hv] at this
    exact this
  have key : (t.addrs.primary.eq t.addrs.logon = true ↔ TakenForOwn m n) := by
    rw [hprim, hlog]; exact taken_iff h n h2
  have hval : TakenForOwn m n → t.addrs.primary.value = BitVec.ofNat 16 (n / 256) := by
    intro hx
    have := key.mpr hx
    rw [hlog] at this
    exact eq_value this
  by_cases ht : TakenForOwn m n
  · have hw : storeWrites t = primaryWrites (BitVec.ofNat 16 (n / 256)) ++
        logonWrites t.logon.cidBack t.logon.sessionBack t.addrs.logon.value := by
      unfold storeWrites
      rw [if_pos (key.mpr ht), hval ht]
    rw [hw] at hs ⊢
    have k1 : 0xC0#8 ||| ((BitVec.ofNat 16 (n / 256)) >>> 8).setWidth 8 = 0xC0#8 := by
      have : (BitVec.ofNat 16 (n / 256)) >>> 8 = 0#16 := by
        apply BitVec.eq_of_toNat_eq
        rw [BitVec.toNat_ushiftRight, BitVec.toNat_ofNat, Nat.shiftRight_eq_div_pow]
        show n / 256 % 65536 / 256 = 0
        omega
      rw [this]; decide
    refine ⟨hs, ⟨rfl, rfl⟩, fun _ => ⟨?_, ?_, ?_⟩, fun hx => absurd ht hx, fun cv hcv => ?_⟩
    · rw [← k1]; simp [primaryWrites, logonWrites, mem]
    · simp only [primaryWrites, logonWrites, mem, List.cons_append, List.nil_append]
      simp
      omega
    · intro i
      rw [← set_five]
      simp [primaryWrites, logonWrites, mem]
    · simp only [logonCvs, List.mem_cons, List.not_mem_nil, or_false, not_or] at hcv
      simp [primaryWrites, logonWrites, mem, hcv]
  · have hw : storeWrites t = logonWrites t.logon.cidBack t.logon.sessionBack t.addrs.logon.value := by
      unfold storeWrites
      rw [if_neg (fun hx => ht (key.mp hx)), List.nil_append]
    rw [hw] at hs ⊢
    refine ⟨hs, ⟨rfl, rfl⟩, fun hx => absurd hx ht, fun _ => ⟨rfl, rfl, rfl⟩, fun cv hcv => ?_⟩
    simp only [logonCvs, List.mem_cons, List.not_mem_nil, or_false, not_or] at hcv
    simp [logonWrites, mem, hcv]

/-- **C97** (partial) A decoder with station, session and a number `n` stored is switched on, hears
LOGON_ENABLE of that station in the same session or one of the next four, and commands.  Without any
command the CVs stay as they are.  With the first one, whoever it is for, they become those described by
`Refreshed`, and stay so. -/
theorem C97_stored_partial (e : Env) (m : BitVec 32 → Byte) (hm : MemoryLike e m) (cid : BitVec 16)
    (session session' : Byte) (n : Nat) (hst : StoredLogon m cid.toNat session.toNat n)
    (h2 : n < 32768) (s : Rx) (h : ({} : Rx).run e [.init] = .ok s) (hready : Ready e s) (hmay : MayLogOn s)
    (hse : session.toNat ≤ session'.toNat ∧ session'.toNat ≤ session.toNat + 4) (group : AddressGroup) (r : Round)
    (hr : r.Sent) (hp : makeLogonEnablePacket group cid session' = .ok r.packet) (rs : List Round)
    (cs : List Command) (hrs : ∀ r ∈ rs, r.Sent) (hps : cs.map Command.packet = rs.map (fun r => .ok r.packet))
    (hcs : ∀ c ∈ cs, c.Legal) :
    ∃ s', s.run e ((r :: rs).flatMap Round.ops) = .ok s' ∧ s'.logon.selected = true ∧ s'.logon.assigned = true ∧
      (cs = [] → mem m s'.trace = m) ∧
      (cs ≠ [] → Refreshed m (mem m s'.trace) cid.toNat session'.toNat n) := by
  obtain ⟨s1, i1⟩ := restart_fast hm hst h2 h hready hmay hse hr hp
  obtain ⟨-, -, -, -, k5, k6⟩ := switched_on hm hst h
  obtain ⟨s2, j1, -, j3, -, -, -, j7⟩ := plain_rounds e rs cs s1 (Reachable.run (.of_run h) _ i1.run) i1.ready
    i1.silent hrs hps hcs
  refine ⟨s2, ?_, j3.selected.trans i1.selected, j3.assigned.trans i1.assigned, fun hc => ?_, fun hc => ?_⟩
  · rw [List.flatMap_cons, run_append e _ _ s _ i1.run]; exact j1
  · rw [j7, if_neg (fun hx => hx.2 hc), i1.mem, k5]
  · rw [j7, if_pos ⟨i1.store, hc⟩, i1.mem, k5]
    have := refreshed_writes k6 n h2 i1.primary i1.logon
    rwa [i1.cidBack, i1.sessionBack] at this

/-- A decoder with these CVs is switched on, logs on fast, and hears at least one command. -/
structure Spec.FastSession (e : Env) (m : BitVec 32 → Byte) (cid : BitVec 16) (session : Byte) (s s' : Rx) : Prop where
  memory : MemoryLike e m
  on : ({} : Rx).run e [.init] = .ok s
  ready : Ready e s
  may : MayLogOn s
  heard : ∃ (group : AddressGroup) (r : Round) (rs : List Round) (c : Command) (cs : List Command), r.Sent ∧
    makeLogonEnablePacket group cid session = .ok r.packet ∧ (∀ r ∈ rs, r.Sent) ∧
    (c :: cs).map Command.packet = rs.map (fun r => .ok r.packet) ∧ (∀ c' ∈ c :: cs, c'.Legal) ∧
    s.run e ((r :: rs).flatMap Round.ops) = .ok s'

/-- The CVs after such a session. -/
theorem fast_session {e : Env} {m : BitVec 32 → Byte} {cid : BitVec 16} {session session' : Byte} {s s' : Rx}
    (h : FastSession e m cid session' s s') {n : Nat} (hst : StoredLogon m cid.toNat session.toNat n)
    (h2 : n < 32768) (hse : session.toNat ≤ session'.toNat ∧ session'.toNat ≤ session.toNat + 4) :
    Refreshed m (mem m s'.trace) cid.toNat session'.toNat n := by
  obtain ⟨group, r, rs, c, cs, h3, h4, h5, h6, h7, h8⟩ := h.heard
  obtain ⟨t, i1, -, -, -, i2⟩ := C97_stored_partial e m h.memory cid session session' n hst h2 s h.on h.ready h.may hse
    group r h3 h4 rs (c :: cs) h5 h6 h7
  rw [h8] at i1
  cases i1
  exact i2 (by simp)

/-- **C97** (false) The number stored survives fast logons.  In truth it is another one after the first and
0 after the second, whatever it was. -/
theorem C97_number_false (m : BitVec 32 → Byte) (cid : BitVec 16) (k0 k1 k2 : Byte) (n : Nat)
    (hst : StoredLogon m cid.toNat k0.toNat n) (h1 : 1 ≤ n) (h2 : n < 32768)
    (hk1 : k0.toNat ≤ k1.toNat ∧ k1.toNat ≤ k0.toNat + 4) (hk2 : k1.toNat ≤ k2.toNat ∧ k2.toNat ≤ k1.toNat + 4)
    (e : Env) (s s' : Rx) (h : FastSession e m cid k1 s s') :
    (∃ n', StoredLogon (mem m s'.trace) cid.toNat k1.toNat n' ∧ n' ≠ n) ∧
    ∀ (e' : Env) (t t' : Rx), FastSession e' (mem m s'.trace) cid k2 t t' →
      StoredLogon (mem (mem m s'.trace) t'.trace) cid.toNat k2.toNat 0 := by
  have i1 := fast_session h hst h2 hk1
  refine ⟨⟨_, i1.station, by omega⟩, fun e' t t' h' => ?_⟩
  have i2 := (fast_session h' i1.station (by omega) hk2).station
  have : n / 256 / 256 = 0 := by omega
  rwa [this] at i2

/-- **C97** (false) A fast logon leaves the decoder's own address alone.  In truth, if the short address in
CV1 is the stored number divided by 256, the decoder has the long address with this number afterwards, and
what is written to CV1 later does not matter. -/
theorem C97_own_false (m : BitVec 32 → Byte) (cid : BitVec 16) (k0 k1 : Byte) (n : Nat)
    (hst : StoredLogon m cid.toNat k0.toNat n) (h1 : 256 ≤ n) (h2 : n < 32768)
    (hk1 : k0.toNat ≤ k1.toNat ∧ k1.toNat ≤ k0.toNat + 4) (hshort : (m 28#32).getLsbD 5 = false)
    (hown : (m 0#32).toNat = n / 256) (e : Env) (s s' : Rx) (h : FastSession e m cid k1 s s') (m' : BitVec 32 → Byte)
    (hm' : ∀ cv, cv ≠ 0#32 → m' cv = mem m s'.trace cv) (e' : Env) (he' : MemoryLike e' m') (t : Rx)
    (ht : ({} : Rx).run e' [.init] = .ok t) :
    s.addrs.primary.type = .short ∧ s.addrs.primary.value.toNat = n / 256 ∧
      t.addrs.primary.type = .long ∧ t.addrs.primary.value.toNat = n / 256 := by
  have i1 := fast_session h hst h2 hk1
  have hpb : primaryByte m = m 0#32 := by unfold primaryByte; rw [hshort]; rfl
  have hpn : primaryNumber m = n / 256 := by
    unfold primaryNumber; rw [hpb, if_neg (by omega)]; exact hown
  have htk : TakenForOwn m n := by
    unfold TakenForOwn ownNumber
    rw [if_neg (by omega), hpb, hown, hpn]
    dsimp only
    rw [if_pos (.inl (by omega))]
  obtain ⟨o1, o2, o3⟩ := i1.own htk
  have p5 : (m' 28#32).getLsbD 5 = true := by rw [hm' _ (by decide), o3]; rfl
  have qb : primaryByte m' = 0xC0#8 := by unfold primaryByte; rw [p5, if_pos rfl, hm' _ (by decide)]; exact o1
  have qn : primaryNumber m' = n / 256 := by
    unfold primaryNumber
    rw [qb, if_pos (by decide), hm' _ (by decide), o2]
    show (192 - 192) * 256 + n / 256 = _
    omega
  have refl : ∀ {e : Env} {m : BitVec 32 → Byte} {s : Rx}, MemoryLike e m → ({} : Rx).run e [.init] = .ok s →
      Reflects m s := by
    intro e m s hm h
    have h0 : (({} : Rx).step e .init >>= fun s1 => s1.run e []) = .ok s := h
    rw [bind_eq_ok] at h0
    obtain ⟨s1, h1, h2⟩ := h0
    cases h2
    obtain ⟨hR, hmem⟩ := init_reflects hm (s := {}) h1
    rwa [hmem] at hR
  have r1 := refl h.memory h.on
  have r2 := refl he' ht
  refine ⟨?_, r1.primaryValue.trans hpn, ?_, r2.primaryValue.trans qn⟩
  · have := r1.primaryType
    rw [hpb, hown] at this
    obtain ⟨c, hc, c1, c2, c3⟩ := this
    rw [← c3]
    simp only [firstByteClass, List.mem_cons, List.not_mem_nil, or_false] at hc
    rcases hc with rfl | rfl | rfl | rfl | rfl | rfl | rfl | rfl <;> dsimp only at c1 c2 ⊢ <;> omega
  · have := r2.primaryType
    rw [qb] at this
    obtain ⟨c, hc, c1, c2, c3⟩ := this
    rw [← c3]
    have c1 : c.1 ≤ 192 := c1
    have c2 : 192 ≤ c.2.1 := c2
    simp only [firstByteClass, List.mem_cons, List.not_mem_nil, or_false] at hc
    rcases hc with rfl | rfl | rfl | rfl | rfl | rfl | rfl | rfl <;> dsimp only at c1 c2 ⊢ <;> omega

/-! ### Examples -/

/-- The CVs after the session of C88. -/
def loggedOnCvs : BitVec 32 → Byte :=
  match ({} : Rx).run logonEnv (.init :: (guestItems ++ [GuestItem.idle]).flatMap fun i => (guestRound i).ops) with
  | .ok s => fun cv => logonEnv.readCv s.trace cv
  | .error _ => fun _ => 0#8

/-- The calls of a fast session: LOGON_ENABLE and one command, for somebody else. -/
def fastOps (session : Byte) : List RxOp :=
  [guestRound (.enable .all 513#16 session), guestRound (.drive guestCommand)].flatMap Round.ops

/-- The state after switching on and after the session. -/
def fastStates (m : BitVec 32 → Byte) (session : Byte) : Option (Rx × Rx) :=
  match ({} : Rx).run (memEnv m) [.init] with
  | .error _ => none
  | .ok s =>
    match s.run (memEnv m) (fastOps session) with
    | .error _ => none
    | .ok s' => some (s, s')

/-- All that can be computed of `FastSession`. -/
def fastCheck (m : BitVec 32 → Byte) (session : Byte) : Bool :=
  match fastStates m session with
  | none => false
  | some (s, _) =>
    decide (s.serviceMode = false ∧ s.deque = [] ∧ s.link.state = .preamble ∧ s.cfg.logonEnabled = true ∧
      s.logon.selected = false ∧ s.logon.assigned = false ∧ s.logon.store = false ∧ s.q.logon = [] ∧
      s.addrs.logon.value = 0#16)

/-- The CVs after the session. -/
def fastCvs (m : BitVec 32 → Byte) (session : Byte) : BitVec 32 → Byte :=
  match fastStates m session with
  | none => m
  | some (_, s') => mem m s'.trace

/-- The decoder with address 3 was assigned 1000 (232 + 3 · 256). -/
example : StoredLogon loggedOnCvs 513 7 1000 ∧ (loggedOnCvs 28#32).getLsbD 5 = false ∧
    (loggedOnCvs 0#32).toNat = 3 := ⟨⟨by decide +kernel, by decide +kernel, by decide +kernel⟩, by decide +kernel⟩

/-- The first fast logon: number 3, and the decoder has the long address 3. -/
example : fastCheck loggedOnCvs 8#8 = true ∧ StoredLogon (fastCvs loggedOnCvs 8#8) 513 8 3 ∧
    fastCvs loggedOnCvs 8#8 28#32 = loggedOnCvs 28#32 ||| 32#8 ∧ fastCvs loggedOnCvs 8#8 16#32 = 192#8 ∧
    fastCvs loggedOnCvs 8#8 17#32 = 3#8 :=
  ⟨by decide +kernel, ⟨by decide +kernel, by decide +kernel, by decide +kernel⟩, by decide +kernel⟩

/-- The second: number 0. -/
example : fastCheck (fastCvs loggedOnCvs 8#8) 9#8 = true ∧
    StoredLogon (fastCvs (fastCvs loggedOnCvs 8#8) 9#8) 513 9 0 :=
  ⟨by decide +kernel, ⟨by decide +kernel, by decide +kernel, by decide +kernel⟩⟩

end Dcc
