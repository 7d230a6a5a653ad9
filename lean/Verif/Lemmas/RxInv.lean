import Verif.Lemmas.RxLinkRun
/-! Invariants of the assembly state and the receive queue. -/
namespace Dcc

/-- Invariant of the assembly state. -/
structure LinkInv (l : Link) : Prop where
  idle : l.state.halves = false → l.byte = 0#8 ∧ l.checksum = 0#8
  count : l.state = .data → l.bitCount < 8
  atEnd : l.state = .endbit → l.bitCount = 0 ∧ l.byte = 0#8
  sum : l.state.halves = true → l.checksum = exor l.packet
  len : l.packet.length ≤ maxPacketSize
  pend : l.packetEnd = true → l.state = .preamble ∧ ValidPacket l.packet

theorem LinkInv.initial : LinkInv {} := by
  constructor <;> simp [LinkState.halves]

theorem LinkInv.clear {l : Link} (h : LinkInv l) : LinkInv { l with packetEnd := false } :=
  ⟨h.idle, h.count, h.atEnd, h.sum, h.len, by simp⟩

theorem LinkInv.reset {l : Link} (h : LinkInv l) : LinkInv l.reset :=
  ⟨fun _ => ⟨rfl, rfl⟩, nofun, nofun, nofun, h.len,
    fun hp => ⟨rfl, (h.pend hp).2⟩⟩

theorem LinkInv.half {l : Link} (h : LinkInv l) (b : Bool) : LinkInv { l with isHalfbit := b } :=
  ⟨h.idle, h.count, h.atEnd, h.sum, h.len, h.pend⟩

theorem exor_snoc (p : List Byte) (b : Byte) : exor (p ++ [b]) = exor p ^^^ b := by
  rw [exor_append]; simp [exor]

theorem LinkInv.bit {l l' : Link} {v : Bool} {out : Option LinkOut} (h : LinkInv l)
    (hp : l.packetEnd = false) (hs : l.bit v = .ok (l', out)) :
    LinkInv l' ∧ (∀ p, out = some (.packet p) → ValidPacket p ∧ l' = { (Link.after p) with
      isHalfbit := l.isHalfbit }) ∧
      (l'.packetEnd = true → ∃ p, out = some (.packet p)) := by
  unfold Link.bit at hs
  cases hst : l.state <;> rw [hst] at hs <;> dsimp only at hs
  · have hi := h.idle (by rw [hst]; rfl)
    split at hs
    · cases hs
      exact ⟨⟨fun _ => hi, by simp, by simp, by simp [LinkState.halves], h.len,
        by simp [hp]⟩, by simp, by simp [hp]⟩
    · split at hs
      · cases hs
        exact ⟨h.reset, by simp, by simp [Link.reset, hp]⟩
      · cases hs
        exact ⟨⟨fun _ => hi, by simp, by simp, by simp [LinkState.halves], h.len,
          by simp [hp]⟩, by simp, by simp [hp]⟩
  · have hi := h.idle (by rw [hst]; rfl)
    cases hs
    exact ⟨⟨by simp [LinkState.halves], by simp, by simp, fun _ => by simp [hi.2, exor], by simp [maxPacketSize],
      by simp [hp]⟩, by simp, by simp [hp]⟩
  · have hsum := h.sum (by rw [hst]; rfl)
    split at hs
    · cases hs
      rename_i hc
      exact ⟨⟨by simp [LinkState.halves], fun _ => hc, by simp, fun _ => hsum, h.len,
        by simp [hp]⟩, by simp, by simp [hp]⟩
    · split at hs
      · cases hs
        rename_i hc
        refine ⟨⟨by simp [LinkState.halves], by simp, fun _ => ⟨rfl, rfl⟩, fun _ => ?_, ?_,
          by simp [hp]⟩, by simp, by simp [hp]⟩
        · simp only [exor_snoc, hsum]
        · simp only [List.length_append, List.length_cons, List.length_nil]; omega
      · cases hs
  · have hsum := h.sum (by rw [hst]; rfl)
    have hbb := h.atEnd hst
    split at hs
    · cases hs
      exact ⟨⟨by simp [LinkState.halves], by simp [hbb.1], by simp, fun _ => hsum, h.len,
        by simp [hp]⟩, by simp, by simp [hp]⟩
    · split at hs
      · cases hs
        rename_i hc
        have hv : ValidPacket l.packet := ⟨hc.2, h.len, hsum ▸ hc.1⟩
        refine ⟨⟨fun _ => ⟨rfl, rfl⟩, nofun, nofun, nofun, h.len, fun _ => ⟨rfl, hv⟩⟩, ?_, by simp⟩
        intro p hp'
        simp only [Option.some.injEq, LinkOut.packet.injEq] at hp'
        subst hp'
        exact ⟨hv, rfl⟩
      · cases hs
        refine ⟨⟨fun _ => ⟨rfl, rfl⟩, nofun, nofun, nofun, by simp [Link.reset, maxPacketSize],
          by simp [Link.reset, hp]⟩, by simp, by simp [Link.reset, hp]⟩

theorem LinkInv.step {l l' : Link} {t : Nat} {out : Option LinkOut} (h : LinkInv l)
    (hs : l.step t = .ok (l', out)) :
    LinkInv l' ∧ (∀ p, out = some (.packet p) → ValidPacket p ∧ ∃ b, l' = { (Link.after p) with
      isHalfbit := b }) ∧ (l'.packetEnd = true → ∃ p, out = some (.packet p)) := by
  unfold Link.step at hs
  dsimp only at hs
  have key : ∀ b : Bit, (if l.state.halves && !l.isHalfbit then
        (.ok ({ l with packetEnd := false, isHalfbit := true }, none) : R (Link × Option LinkOut))
      else (if l.state.halves = true then { l with packetEnd := false, isHalfbit := false }
          else { l with packetEnd := false }).bit (b = Bit.b1)) = .ok (l', out) →
      LinkInv l' ∧ (∀ p, out = some (.packet p) → ValidPacket p ∧ ∃ b, l' = { (Link.after p) with
        isHalfbit := b }) ∧ (l'.packetEnd = true → ∃ p, out = some (.packet p)) := by
    intro b hs
    split at hs
    · cases hs
      exact ⟨h.clear.half true, by simp, by simp⟩
    · split at hs
      · obtain ⟨h1, h2, h3⟩ := LinkInv.bit (h.clear.half false) rfl hs
        exact ⟨h1, fun p hp => ⟨(h2 p hp).1, _, (h2 p hp).2⟩, h3⟩
      · obtain ⟨h1, h2, h3⟩ := LinkInv.bit h.clear rfl hs
        exact ⟨h1, fun p hp => ⟨(h2 p hp).1, _, (h2 p hp).2⟩, h3⟩
  cases ht : time2bit t <;> rw [ht] at hs <;> dsimp only at hs
  · exact key .b0 hs
  · exact key .b1 hs
  · cases hs
    exact ⟨h.clear, by simp, by simp⟩

/-! ### What the other calls leave alone -/

/-- A step changes only the queue of address datagrams. -/
theorem pushAdr_eq (s s' : Rx) (a : Address) (h : s.pushAdr a = .ok s') :
    ∃ q, s' = { s with q := { s.q with adr := q } } := by
  unfold Rx.pushAdr at h
  simp only [bind_eq_ok] at h
  obtain ⟨_, _, _, _, _, _, q, _, h⟩ := h
  cases h
  exact ⟨q, rfl⟩

theorem adr_eq (s s' : Rx) (h : s.adr = .ok s') :
    ∃ q, s' = { s with q := { s.q with adr := q } } := by
  unfold Rx.adr at h
  split at h
  · cases h; exact ⟨_, rfl⟩
  split at h
  · exact pushAdr_eq _ _ _ h
  split at h
  · exact pushAdr_eq _ _ _ h
  split at h
  · exact pushAdr_eq _ _ _ h
  · cases h; exact ⟨_, rfl⟩

theorem writeCvByte_eq (e : Env) (s : Rx) (cv : BitVec 32) (b : Byte) :
    ∃ v, s.writeCvByte e cv b = (v, { s with trace := s.trace ++ [.writeCvByte cv b v] }) := ⟨_, rfl⟩

theorem writeCvBit_eq (e : Env) (s : Rx) (cv : BitVec 32) (b : Bool) (p : BitVec 32) :
    ∃ v, s.writeCvBit e cv b p = (v, { s with trace := s.trace ++ [.writeCvBit cv b p v] }) := ⟨_, rfl⟩

/-- Forget the results of CV writes. -/
def Event.erase : Event → Event
  | .writeCvByte cv b _ => .writeCvByte cv b 0#8
  | .writeCvBit cv b p _ => .writeCvBit cv b p false
  | ev => ev

/-- The writes of `storePrimary`, results aside. -/
def primaryWrites (a : BitVec 16) : List Event :=
  [.writeCvByte 16#32 (0xC0#8 ||| (a >>> 8).setWidth 8) 0#8, .writeCvByte 17#32 (a.setWidth 8) 0#8,
   .writeCvBit 28#32 true 5#32 false]

theorem storePrimary_eq (e : Env) (s : Rx) :
    ∃ evs, s.storePrimary e = { s with trace := s.trace ++ evs } ∧
      evs.map Event.erase = primaryWrites s.addrs.primary.value := by
  have h : ∃ v1 v2 v3, s.storePrimary e = { s with trace := s.trace ++
      [.writeCvByte 16#32 (0xC0#8 ||| (s.addrs.primary.value >>> 8).setWidth 8) v1] ++
      [.writeCvByte 17#32 (s.addrs.primary.value.setWidth 8) v2] ++
      [.writeCvBit 28#32 true 5#32 v3] } := ⟨_, _, _, rfl⟩
  obtain ⟨v1, v2, v3, h⟩ := h
  rw [h]
  refine ⟨_, by simp only [List.append_assoc]; rfl, rfl⟩

/-- The writes of `logonStore` behind those of the primary address, results aside. -/
def logonWrites (cid : BitVec 16) (session : Byte) (a : BitVec 16) : List Event :=
  [.writeCvByte 18#32 0#8 0#8, .writeCvByte 19#32 0#8 0#8,
   .writeCvByte 65296#32 ((cid >>> 8).setWidth 8) 0#8, .writeCvByte 65297#32 (cid.setWidth 8) 0#8,
   .writeCvByte 65298#32 session 0#8,
   .writeCvByte 65299#32 ((a >>> 8).setWidth 8) 0#8, .writeCvByte 65300#32 (a.setWidth 8) 0#8]

/-- The writes of `logonStore`, results aside. -/
def storeWrites (s : Rx) : List Event :=
  (if s.addrs.primary.eq s.addrs.logon then primaryWrites s.addrs.primary.value else []) ++
    logonWrites s.logon.cidBack s.logon.sessionBack s.addrs.logon.value

theorem writeCvs_eq (e : Env) (ws : List (BitVec 32 × Byte)) : ∀ s : Rx,
    ∃ evs, s.writeCvs e ws = { s with trace := s.trace ++ evs } ∧
      evs.map Event.erase = ws.map fun w => .writeCvByte w.1 w.2 0#8 := by
  induction ws with
  | nil => intro s; exact ⟨[], by simp [Rx.writeCvs], rfl⟩
  | cons w ws ih =>
    intro s
    obtain ⟨v, hv⟩ := writeCvByte_eq e s w.1 w.2
    rw [Rx.writeCvs, hv]
    obtain ⟨evs, h1, h2⟩ := ih { s with trace := s.trace ++ [.writeCvByte w.1 w.2 v] }
    rw [h1]
    exact ⟨.writeCvByte w.1 w.2 v :: evs, by simp, by simp [h2, Event.erase]⟩

theorem storeTail_eq (e : Env) (s : Rx) :
    ∃ evs, s.storeTail e = { s with
        trace := s.trace ++ evs
        logon := { s.logon with
          cidFront := s.logon.cidBack
          sessionFront := s.logon.sessionBack } } ∧
      evs.map Event.erase = logonWrites s.logon.cidBack s.logon.sessionBack s.addrs.logon.value := by
  unfold Rx.storeTail
  obtain ⟨e1, h1, q1⟩ := writeCvs_eq e [(18#32, 0#8), (19#32, 0#8)] s
  rw [h1]
  dsimp only
  obtain ⟨e2, h2, q2⟩ := writeCvs_eq e
    [(65296#32, (s.logon.cidBack >>> 8).setWidth 8), (65297#32, s.logon.cidBack.setWidth 8)]
    { s with trace := s.trace ++ e1, logon := { s.logon with cidFront := s.logon.cidBack } }
  rw [h2]
  dsimp only
  obtain ⟨e3, h3, q3⟩ := writeCvs_eq e
    [(65298#32, s.logon.sessionBack), (65299#32, (s.addrs.logon.value >>> 8).setWidth 8),
     (65300#32, s.addrs.logon.value.setWidth 8)]
    { s with
      trace := s.trace ++ e1 ++ e2
      logon := { s.logon with cidFront := s.logon.cidBack, sessionFront := s.logon.sessionBack } }
  rw [h3]
  refine ⟨e1 ++ e2 ++ e3, by simp, ?_⟩
  rw [List.map_append, List.map_append, q1, q2, q3]
  rfl

/-- `logonStore` writes CVs and copies the IDs received. -/
theorem logonStore_eq (e : Env) (s : Rx) :
    ∃ evs, (s.logonStore e = if s.logon.store then
      { s with trace := s.trace ++ evs,
               logon := { s.logon with store := false, cidFront := s.logon.cidBack,
                                       sessionFront := s.logon.sessionBack } }
      else s) ∧ evs.map Event.erase = storeWrites s := by
  obtain ⟨evs, hp, he⟩ := storePrimary_eq e { s with logon := { s.logon with store := false } }
  obtain ⟨s2, evs2, hs2, h2, he2⟩ : ∃ s2 evs2,
      s2 = { s with trace := s.trace ++ evs2, logon := { s.logon with store := false } } ∧
      (if s.addrs.primary.eq s.addrs.logon then
        Rx.storePrimary e { s with logon := { s.logon with store := false } }
        else { s with logon := { s.logon with store := false } }) = s2 ∧
      evs2.map Event.erase = if s.addrs.primary.eq s.addrs.logon then primaryWrites s.addrs.primary.value else [] := by
    split
    · exact ⟨_, evs, rfl, hp, he⟩
    · exact ⟨_, [], rfl, by simp, rfl⟩
  obtain ⟨evs3, h3, he3⟩ := storeTail_eq e s2
  refine ⟨evs2 ++ evs3, ?_, ?_⟩
  · have h4 : s.logonStore e = if s.logon.store then s2.storeTail e else s := by
      rw [← h2]
      unfold Rx.logonStore
      cases s.logon.store <;> rfl
    rw [h4, h3, hs2, List.append_assoc]
  · rw [List.map_append, he2, he3, hs2]
    rfl

/-- `execute` without its last two steps. -/
def Rx.prepare (e : Env) (s : Rx) (now : Int) : R Rx := do
  let s ← s.adr
  return ((s.logonStore e).updateQos).updateTimepoints now

theorem execute_eq (e : Env) (s : Rx) (now : Int) (rand : Nat) :
    s.execute e now rand = if s.packetEnd || s.deque.isEmpty then .ok (s, false) else do
      let s1 ← s.prepare e now
      let (s2, ret) ← s1.executeFront e rand
      return (s2.popFront, ret) := by
  unfold Rx.execute Rx.prepare
  split
  · rfl
  · simp only [bind_assoc]; rfl

/-- What `prepare` leaves alone. -/
structure PrepFrame (s s' : Rx) : Prop where
  link : s'.link = s.link
  deque : s'.deque = s.deque
  lastOwnCvPacket : s'.lastOwnCvPacket = s.lastOwnCvPacket
  ownEqualCvPackets : s'.ownEqualCvPackets = s.ownEqualCvPackets
  addrs : s'.addrs = s.addrs
  cfg : s'.cfg = s.cfg
  selected : s'.logon.selected = s.logon.selected
  assigned : s'.logon.assigned = s.logon.assigned
  cidBack : s'.logon.cidBack = s.logon.cidBack
  sessionBack : s'.logon.sessionBack = s.logon.sessionBack
  backoff : s'.logon.backoff = s.logon.backoff
  qdyn : s'.q.dyn = s.q.dyn
  qlogon : s'.q.logon = s.q.logon
  qtos : s'.q.tos = s.q.tos
  qpom : s'.q.pom = s.q.pom
  blockDyn : s'.q.blockDyn = s.q.blockDyn
  indexReg : s'.indexReg = s.indexReg
  mode : s'.mode = s.mode
  enabled : s'.enabled = s.enabled
  man : s'.man = s.man
  callbacks : s'.callbacks = s.callbacks
  trace : s.trace <+: s'.trace
  noStore : s.logon.store = false → s'.trace = s.trace ∧ s'.logon = s.logon
  stored : s'.logon.store = false

theorem prepare_frame (e : Env) (s s' : Rx) (now : Int) (h : s.prepare e now = .ok s') :
    PrepFrame s s' := by
  unfold Rx.prepare at h
  rw [bind_eq_ok] at h
  obtain ⟨s1, h1, h⟩ := h
  cases h
  obtain ⟨q, rfl⟩ := adr_eq s s1 h1
  obtain ⟨evs, h2, _⟩ := logonStore_eq e { s with q := { s.q with adr := q } }
  rw [h2]
  dsimp only
  have hq : ∀ x : Rx, PrepFrame s x → PrepFrame s x.updateQos := by
    intro x hx
    unfold Rx.updateQos
    split
    · exact hx
    · exact ⟨hx.link, hx.deque, hx.lastOwnCvPacket, hx.ownEqualCvPackets, hx.addrs, hx.cfg,
        hx.selected, hx.assigned, hx.cidBack, hx.sessionBack, hx.backoff, hx.qdyn, hx.qlogon,
        hx.qtos, hx.qpom, hx.blockDyn, hx.indexReg, hx.mode, hx.enabled, hx.man, hx.callbacks,
        hx.trace, hx.noStore, hx.stored⟩
  have ht : ∀ x : Rx, PrepFrame s x → PrepFrame s (x.updateTimepoints now) := by
    intro x hx
    unfold Rx.updateTimepoints
    dsimp only
    split <;> exact ⟨hx.link, hx.deque, hx.lastOwnCvPacket, hx.ownEqualCvPackets, hx.addrs, hx.cfg,
        hx.selected, hx.assigned, hx.cidBack, hx.sessionBack, hx.backoff, hx.qdyn, hx.qlogon,
        hx.qtos, hx.qpom, hx.blockDyn, hx.indexReg, hx.mode, hx.enabled, hx.man, hx.callbacks,
        hx.trace, hx.noStore, hx.stored⟩
  refine ht _ (hq _ ?_)
  cases hst : s.logon.store
  · simp only [Bool.false_eq_true, if_false]
    constructor <;> first | rfl | exact List.prefix_rfl | simp [hst]
  · simp only [if_true]
    constructor <;> first | rfl | exact List.prefix_append _ _ | simp [hst]

/-- `execute` on a packet: preparation, execution of the oldest packet, its removal. -/
theorem execute_cases (e : Env) (s s' : Rx) (now : Int) (rand : Nat) (ret : Bool)
    (h : s.execute e now rand = .ok (s', ret)) :
    ((s.packetEnd = true ∨ s.deque = []) ∧ s' = s ∧ ret = false) ∨
    ∃ p rest s1 s2, s.packetEnd = false ∧ s.deque = p :: rest ∧ s.prepare e now = .ok s1 ∧
      PrepFrame s s1 ∧ s1.executeFront e rand = .ok (s2, ret) ∧ ExecFrame s1 s2 ∧ s' = s2.popFront := by
  rw [execute_eq] at h
  split at h
  · cases h
    rename_i hc
    refine .inl ⟨?_, rfl, rfl⟩
    simpa using hc
  · rename_i hc
    rw [bind_eq_ok] at h
    obtain ⟨s1, h1, h⟩ := h
    rw [bind_eq_ok] at h
    obtain ⟨⟨s2, r⟩, h2, h⟩ := h
    dsimp only at h
    cases h
    have hf := (frame_executeFront e s1 rand).out _ h2
    simp only [Bool.or_eq_true, not_or, Bool.not_eq_true] at hc
    cases hd : s.deque with
    | nil => simp [hd] at hc
    | cons p rest =>
      exact .inr ⟨p, rest, s1, s2, hc.1, rfl, h1, prepare_frame e s s1 now h1, h2, hf, rfl⟩

theorem dyn_eq (e : Env) (s s' : Rx) (d x : Byte) (h : s.dyn e d x = .ok s') :
    ∃ q, s' = { s with q := { s.q with dyn := q } } := by
  unfold Rx.dyn at h
  split at h
  · cases h; exact ⟨_, rfl⟩
  · simp only [bind_eq_ok] at h
    obtain ⟨_, _, q, _, h⟩ := h
    cases h
    exact ⟨q, rfl⟩

theorem dyns_eq (e : Env) (ds : List Dyn) : ∀ s s' : Rx, s.dyns e ds = .ok s' →
    ∃ q, s' = { s with q := { s.q with dyn := q } } := by
  induction ds with
  | nil => intro s s' h; cases h; exact ⟨_, rfl⟩
  | cons d ds ih =>
    intro s s' h
    rw [Rx.dyns, bind_eq_ok] at h
    obtain ⟨s1, h1, h2⟩ := h
    obtain ⟨q1, rfl⟩ := dyn_eq e s s1 _ _ h1
    obtain ⟨q2, rfl⟩ := ih _ _ h2
    exact ⟨q2, rfl⟩

theorem datagram_eq (e : Env) (s s' : Rx) (ds : List Dyn) (h : s.datagram e ds = .ok s') :
    ∃ q b, s' = { s with q := { s.q with dyn := q, blockDyn := b } } := by
  unfold Rx.datagram at h
  rw [bind_eq_ok] at h
  obtain ⟨s1, h1, h2⟩ := h
  have : ∃ q b, s1 = { s with q := { s.q with dyn := q, blockDyn := b } } := by
    unfold Rx.datagramStart at h1
    split at h1
    · cases h1; exact ⟨_, _, rfl⟩
    split at h1
    · obtain ⟨q, rfl⟩ := dyn_eq e _ s1 _ _ h1
      exact ⟨_, _, rfl⟩
    · cases h1; exact ⟨_, _, rfl⟩
  obtain ⟨q, b, rfl⟩ := this
  split at h2
  · obtain ⟨q2, rfl⟩ := dyns_eq e ds _ _ h2
    exact ⟨_, _, rfl⟩
  · cases h2; exact ⟨_, _, rfl⟩

/-- Both channel functions only take datagrams from the queues and transmit at most one message. -/
theorem channel1_eq (s : Rx) : ∃ q evs, s.biDiChannel1 =
    { s with q := { s.q with adr := q }, trace := s.trace ++ evs } := by
  unfold Rx.biDiChannel1
  have hn : ∃ q evs, s = { s with q := { s.q with adr := q }, trace := s.trace ++ evs } :=
    ⟨s.q.adr, [], by simp⟩
  have ha : ∃ q evs, s.appAdr = { s with q := { s.q with adr := q }, trace := s.trace ++ evs } := by
    unfold Rx.appAdr
    split
    · exact hn
    · exact ⟨_, _, rfl⟩
  have hl : ∃ q evs, s.appLogon1 = { s with q := { s.q with adr := q }, trace := s.trace ++ evs } := by
    unfold Rx.appLogon1
    split
    · exact hn
    · exact ⟨_, _, rfl⟩
  split <;> first | exact ha | exact hl | exact hn

theorem channel2_eq (s s' : Rx) (h : s.biDiChannel2 = .ok s') : ∃ q evs, s' =
    { s with q := q, trace := s.trace ++ evs } ∧ q.adr = s.q.adr ∧ q.blockDyn = s.q.blockDyn := by
  have hn : ∃ q evs, s = { s with q := q, trace := s.trace ++ evs } ∧ q.adr = s.q.adr ∧ q.blockDyn = s.q.blockDyn :=
    ⟨s.q, [], by simp⟩
  have ht : ∃ q evs, s.appTos = { s with q := q, trace := s.trace ++ evs } ∧ q.adr = s.q.adr ∧ q.blockDyn = s.q.blockDyn := by
    unfold Rx.appTos
    split
    · exact hn
    · exact ⟨_, _, rfl, rfl, rfl⟩
  have hl : ∃ q evs, s.appLogon2 = { s with q := q, trace := s.trace ++ evs } ∧ q.adr = s.q.adr ∧ q.blockDyn = s.q.blockDyn := by
    unfold Rx.appLogon2
    split
    · exact hn
    · exact ⟨_, _, rfl, rfl, rfl⟩
  have hd : ∃ q evs, s.appDyn = { s with q := q, trace := s.trace ++ evs } ∧ q.adr = s.q.adr ∧ q.blockDyn = s.q.blockDyn := by
    unfold Rx.appDyn
    split
    · exact hn
    · exact ⟨_, _, rfl, rfl, rfl⟩
  have hp : ∃ q evs, s.appPom = { s with q := q, trace := s.trace ++ evs } ∧ q.adr = s.q.adr ∧ q.blockDyn = s.q.blockDyn := by
    unfold Rx.appPom
    split
    · exact hn
    split
    · exact ⟨_, _, rfl, rfl, rfl⟩
    split
    · exact hn
    · exact ⟨_, _, rfl, rfl, rfl⟩
  unfold Rx.biDiChannel2 at h
  have hc : (if s.addrs.received.eq (if s.logon.assigned then s.addrs.logon else s.addrs.primary) then do
      let i ← decodeInstructionPacket s.link.packet
      return if i = Instruction.cvLong then s.appPom else s.appDyn
    else if s.addrs.received.eq s.addrs.consist && s.cfg.ch2ConsistEnabled then .ok s.appDyn
    else .ok s : R Rx) = .ok s' → ∃ q evs, s' =
    { s with q := q, trace := s.trace ++ evs } ∧ q.adr = s.q.adr ∧ q.blockDyn = s.q.blockDyn := by
    intro h
    generalize s.addrs.received.eq (if s.logon.assigned then s.addrs.logon else s.addrs.primary) = own at h
    split at h
    · rw [bind_eq_ok] at h
      obtain ⟨i, _, h⟩ := h
      cases h
      split
      · exact hp
      · exact hd
    split at h
    · cases h; exact hd
    · cases h; exact hn
  split at h
  · cases h; exact ht
  · exact hc h
  · exact hc h
  · cases h; exact hl
  · cases h; exact hn

/-- The packets that go to the queue. -/
def queued : Option LinkOut → List Packet
  | some (.packet p) => if isLogon p then [] else [p]
  | _ => []

/-- Calls other than `receive` and `disable` leave the assembly state alone; only `execute` takes
a packet from the queue, and then exactly the oldest one. -/
theorem step_other (e : Env) (s s' : Rx) (op : RxOp) (h : s.step e op = .ok s')
    (hr : ∀ t r, op ≠ .receive t r) (hd : op ≠ .disable) :
    s'.link = s.link ∧
      s'.deque = if op.isExecute && !s.packetEnd then s.deque.drop 1 else s.deque := by
  cases op with
  | init =>
    have := (frame_init e s).out _ h
    exact ⟨this.link, this.deque⟩
  | enable =>
    simp only [Rx.step, Rx.enable, Except.ok.injEq] at h
    subst h
    split <;> exact ⟨rfl, rfl⟩
  | disable => exact absurd rfl hd
  | receive t r => exact absurd rfl (hr t r)
  | execute now rand =>
    simp only [Rx.step, bind_eq_ok, pure_eq_ok, Except.ok.injEq] at h
    obtain ⟨⟨s1, ret⟩, h1, rfl⟩ := h
    rcases execute_cases e s s1 now rand ret h1 with ⟨hc, rfl, _⟩ | ⟨p, rest, s2, s3, hp, hq, _, f1, _, f2, rfl⟩
    · refine ⟨rfl, ?_⟩
      rcases hc with hc | hc
      · simp [hc]
      · simp [hc]
    · refine ⟨f2.link.trans f1.link, ?_⟩
      simp [Rx.popFront, f2.deque, f1.deque, hp, RxOp.isExecute]
  | datagram ds =>
    obtain ⟨q, b, rfl⟩ := datagram_eq e s s' ds h
    exact ⟨rfl, rfl⟩
  | biDiChannel1 =>
    simp only [Rx.step, Except.ok.injEq] at h
    obtain ⟨q, evs, h1⟩ := channel1_eq s
    subst h
    rw [h1]
    exact ⟨rfl, rfl⟩
  | biDiChannel2 =>
    obtain ⟨q, evs, rfl, _⟩ := channel2_eq s s' h
    exact ⟨rfl, rfl⟩
  | callbackByte i v =>
    simp only [Rx.step] at h
    split at h
    · have := (frame_callbackByte s _ v).out _ h
      exact ⟨this.link, this.deque⟩
    · cases h; exact ⟨rfl, rfl⟩
  | callbackBit i v =>
    simp only [Rx.step] at h
    split at h
    · have := (frame_callbackBit s _ v).out _ h
      exact ⟨this.link, this.deque⟩
    · cases h; exact ⟨rfl, rfl⟩

theorem step_disable (e : Env) (s s' : Rx) (h : s.step e .disable = .ok s') :
    (s'.link = s.link ∨ s'.link = s.link.reset) ∧ s'.deque = s.deque := by
  simp only [Rx.step, Rx.disable, Except.ok.injEq] at h
  subst h
  split
  · exact ⟨.inl rfl, rfl⟩
  · exact ⟨.inr rfl, rfl⟩

/-- Invariant of receive queue and assembly state. -/
structure RecvInv (e : Env) (s : Rx) : Prop where
  link : LinkInv s.link
  valid : ∀ p ∈ s.deque, ValidPacket p ∧ isLogon p = false
  room : s.deque.length ≤ e.rxDeque

theorem RxEffect.deque {s s' : Rx} {l : Link} {out : Option LinkOut} (h : RxEffect s l s' out) :
    s'.link = l ∧ s'.deque = s.deque ++ queued out := by
  rcases out with _ | (_ | p | _)
  · have h : s' = _ := h; subst h; simp [queued]
  · have h : s' = _ := h; subst h; simp [queued]
  · obtain ⟨a, _, h⟩ := h
    cases hl : isLogon p
    · rw [if_neg (by simp [hl])] at h
      subst h; simp [queued, hl]
    · rw [if_pos hl] at h
      exact ⟨h.link, by simp [h.deque, queued, hl]⟩
  · have h : s' = _ := h; subst h; simp [queued]

theorem RecvInv.step {e : Env} {s s' : Rx} (i : RecvInv e s) (op : RxOp)
    (h : s.step e op = .ok s') : RecvInv e s' := by
  by_cases hr : ∃ t r, op = .receive t r
  · obtain ⟨t, r, rfl⟩ := hr
    have h : s.receive e t r = .ok s' := h
    by_cases hf : s.deque.length = e.rxDeque
    · obtain ⟨l, h1, h2, h3⟩ := receive_full e s t r hf
      rw [h] at h1
      cases h1
      refine ⟨?_, i.valid, i.room⟩
      rcases h3 with h3 | ⟨h3, _⟩ | h3 | h3 <;> simp only [h3]
      · exact i.link.clear
      · exact i.link.clear.half true
      · exact i.link.clear.reset
      · exact (i.link.clear.half false).reset
    · have hlt : s.deque.length < e.rxDeque := Nat.lt_of_le_of_ne i.room hf
      obtain ⟨out, h1, h2⟩ := receive_spec e s s' t r h hlt
      obtain ⟨h3, h4, h5⟩ := i.link.step h1
      obtain ⟨_, h6⟩ := h2.deque
      refine ⟨h3, ?_, ?_⟩
      · intro p hp
        rw [h6] at hp
        rcases List.mem_append.mp hp with hp | hp
        · exact i.valid p hp
        · rcases out with _ | (_ | p' | _)
          · simp [queued] at hp
          · simp [queued] at hp
          · simp only [queued] at hp
            split at hp
            · simp at hp
            · rename_i hl
              simp only [List.mem_singleton] at hp
              subst hp
              exact ⟨(h4 p rfl).1, by simpa using hl⟩
          · simp [queued] at hp
      · rw [h6, List.length_append]
        have : (queued out).length ≤ 1 := by
          rcases out with _ | (_ | p' | _) <;> simp only [queued] <;> try simp
          split <;> simp
        omega
  · by_cases hd : op = .disable
    · subst hd
      obtain ⟨h1, h2⟩ := step_disable e s s' h
      refine ⟨?_, h2 ▸ i.valid, h2 ▸ i.room⟩
      rcases h1 with h1 | h1 <;> rw [h1]
      · exact i.link
      · exact i.link.reset
    · obtain ⟨h1, h2⟩ := step_other e s s' op h (fun t r ho => hr ⟨t, r, ho⟩) hd
      have hsub : ∀ p ∈ s'.deque, p ∈ s.deque := by
        intro p hp
        rw [h2] at hp
        split at hp
        · exact List.mem_of_mem_drop hp
        · exact hp
      have hle : s'.deque.length ≤ s.deque.length := by
        rw [h2]
        split
        · simp
        · exact Nat.le_refl _
      exact ⟨h1 ▸ i.link, fun p hp => i.valid p (hsub p hp), Nat.le_trans hle i.room⟩

theorem Reachable.recvInv {e : Env} {s : Rx} (h : Reachable e s) : RecvInv e s := by
  induction h with
  | start => exact ⟨.initial, by simp, by simp⟩
  | step op _ hs ih => exact ih.step op hs

theorem Reachable.run {e : Env} {s s' : Rx} (h : Reachable e s) (ops : List RxOp)
    (hr : s.run e ops = .ok s') : Reachable e s' := by
  induction ops generalizing s with
  | nil => cases hr; exact h
  | cons op ops ih =>
    rw [Rx.run, bind_eq_ok] at hr
    obtain ⟨s1, h1, h2⟩ := hr
    exact ih (h.step op h1) h2

end Dcc
