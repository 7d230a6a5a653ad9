import Verif.Lemmas.RxInstr
/-! What the calls of public methods leave alone. -/
namespace Dcc
open Spec (locoNumber afterAddress Active ForDecoder target LogonStores)

/-- What `receive` leaves alone. -/
structure RecvFrame (s s' : Rx) : Prop where
  lastOwnCvPacket : s'.lastOwnCvPacket = s.lastOwnCvPacket
  ownEqualCvPackets : s'.ownEqualCvPackets = s.ownEqualCvPackets
  cfg : s'.cfg = s.cfg
  cidFront : s'.logon.cidFront = s.logon.cidFront
  sessionFront : s'.logon.sessionFront = s.logon.sessionFront
  dyn : s'.q.dyn = s.q.dyn
  tos : s'.q.tos = s.q.tos
  adr : s'.q.adr = s.q.adr
  pom : s'.q.pom = s.q.pom
  blockDyn : s'.q.blockDyn = s.q.blockDyn
  indexReg : s'.indexReg = s.indexReg
  mode : s'.mode = s.mode
  lastPacketTp : s'.lastPacketTp = s.lastPacketTp
  tosTp : s'.tosTp = s.tosTp
  tosBackoff : s'.tosBackoff = s.tosBackoff
  qos : s'.qos = s.qos
  enabled : s'.enabled = s.enabled
  man : s'.man = s.man
  callbacks : s'.callbacks = s.callbacks
  adds : Adds (fun ev => ev.isQuiet = true) s s'

theorem receive_frame (e : Env) (s : Rx) (hroom : s.deque.length ≤ e.rxDeque) (t r : Nat) :
    Post (s.receive e t r) (RecvFrame s) := by
  refine ⟨fun s' h => ?_⟩
  by_cases hf : s.deque.length = e.rxDeque
  · obtain ⟨l, h1, -⟩ := receive_full e s t r hf
    rw [h] at h1
    cases h1
    constructor <;> first | rfl | exact .of_eq rfl
  · obtain ⟨out, -, h2⟩ := receive_spec e s s' t r h (Nat.lt_of_le_of_ne hroom hf)
    rcases out with _ | (_ | p | _)
    · have h2 : s' = _ := h2
      rw [h2]
      constructor <;> first | rfl | exact .of_eq rfl
    · have h2 : s' = _ := h2
      rw [h2]
      constructor <;> first | rfl | exact .of_eq rfl
    · obtain ⟨a, -, h2⟩ := h2
      split at h2
      · exact ⟨h2.lastOwnCvPacket, h2.ownEqualCvPackets, h2.cfg, h2.cidFront, h2.sessionFront, h2.dyn,
          h2.tos, h2.adr, h2.pom, h2.blockDyn, h2.indexReg, h2.mode, h2.lastPacketTp, h2.tosTp,
          h2.tosBackoff, h2.qos, h2.enabled, h2.man, h2.callbacks, h2.trace⟩
      · rw [h2]
        constructor <;> first | rfl | exact .of_eq rfl
    · have h2 : s' = _ := h2
      rw [h2]
      constructor <;> first | rfl | exact .of_eq rfl

theorem channel1_adds (s : Rx) : ∃ q evs, s.biDiChannel1 =
    { s with q := { s.q with adr := q }, trace := s.trace ++ evs } ∧
    ∀ ev ∈ evs, ∃ bs, ev = .transmitBiDi bs := by
  unfold Rx.biDiChannel1
  have hn : ∃ q evs, s = { s with q := { s.q with adr := q }, trace := s.trace ++ evs } ∧
      ∀ ev ∈ evs, ∃ bs, ev = .transmitBiDi bs :=
    ⟨s.q.adr, [], by simp, by simp⟩
  have ha : ∃ q evs, s.appAdr = { s with q := { s.q with adr := q }, trace := s.trace ++ evs } ∧
      ∀ ev ∈ evs, ∃ bs, ev = .transmitBiDi bs := by
    unfold Rx.appAdr
    split
    · exact hn
    · exact ⟨_, _, rfl, by simp⟩
  have hl : ∃ q evs, s.appLogon1 = { s with q := { s.q with adr := q }, trace := s.trace ++ evs } ∧
      ∀ ev ∈ evs, ∃ bs, ev = .transmitBiDi bs := by
    unfold Rx.appLogon1
    split
    · exact hn
    · exact ⟨_, _, rfl, by simp⟩
  split <;> first | exact ha | exact hl | exact hn

/-- What a call in channel 2 can do. -/
inductive Chan2 (s : Rx) : Rx → Prop
  | nothing : Chan2 s s
  | tos (h : s.addrs.received.type = .broadcast) : Chan2 s s.appTos
  | pom (h1 : s.addrs.received.type = .short ∨ s.addrs.received.type = .long)
      (h2 : s.addrs.received.eq (if s.logon.assigned then s.addrs.logon else s.addrs.primary) = true)
      (h3 : decodeInstructionPacket s.link.packet = .ok .cvLong) : Chan2 s s.appPom
  | dyn (h1 : s.addrs.received.type = .short ∨ s.addrs.received.type = .long) : Chan2 s s.appDyn
  | logon (h : s.addrs.received.type = .automaticLogon) : Chan2 s s.appLogon2

theorem channel2_cases (s : Rx) : Post s.biDiChannel2 (Chan2 s) := by
  unfold Rx.biDiChannel2
  have key : (s.addrs.received.type = .short ∨ s.addrs.received.type = .long) → Post
      (if s.addrs.received.eq (if s.logon.assigned then s.addrs.logon else s.addrs.primary) then do
        let i ← decodeInstructionPacket s.link.packet
        return if i = Instruction.cvLong then s.appPom else s.appDyn
      else if s.addrs.received.eq s.addrs.consist && s.cfg.ch2ConsistEnabled then .ok s.appDyn
      else .ok s : R Rx) (Chan2 s) := by
    intro ht
    generalize ho : s.addrs.received.eq (if s.logon.assigned then s.addrs.logon else s.addrs.primary) = own
    split
    · rename_i hown
      refine ⟨fun s' h => ?_⟩
      rw [bind_eq_ok] at h
      obtain ⟨i, hi, h⟩ := h
      cases h
      split
      · rename_i hc
        exact .pom ht (by rw [ho, hown]) (by rw [hi, hc])
      · exact .dyn ht
    split
    · exact Post.ok (.dyn ht)
    · exact Post.ok .nothing
  split
  · exact Post.ok (.tos (by assumption))
  · exact key (.inl (by assumption))
  · exact key (.inr (by assumption))
  · exact Post.ok (.logon (by assumption))
  · exact Post.ok .nothing

theorem channel2_adds (s : Rx) : Post s.biDiChannel2 (fun s' => ∃ q evs, s' =
    { s with q := q, trace := s.trace ++ evs } ∧ ∀ ev ∈ evs, ∃ bs, ev = .transmitBiDi bs) := by
  refine (channel2_cases s).mono fun s' h => ?_
  have hn : ∃ q evs, s = { s with q := q, trace := s.trace ++ evs } ∧
      ∀ ev ∈ evs, ∃ bs, ev = Event.transmitBiDi bs :=
    ⟨s.q, [], by simp, by simp⟩
  cases h with
  | nothing => exact hn
  | tos h =>
    unfold Rx.appTos
    split
    · exact hn
    · exact ⟨_, _, rfl, by simp⟩
  | pom h1 h2 h3 =>
    unfold Rx.appPom
    split
    · exact hn
    split
    · exact ⟨_, _, rfl, by simp⟩
    split
    · exact hn
    · exact ⟨_, _, rfl, by simp⟩
  | dyn h =>
    unfold Rx.appDyn
    split
    · exact hn
    · exact ⟨_, _, rfl, by simp⟩
  | logon h =>
    unfold Rx.appLogon2
    split
    · exact hn
    · exact ⟨_, _, rfl, by simp⟩

/-- What executing a packet can be. -/
inductive ExecCase (e : Env) (s : Rx) (now : Int) (rand : Nat) (s' : Rx) (ret : Bool) : Prop
  | idle (h : s.packetEnd = true ∨ s.deque = []) (hs : s' = s) (hr : ret = false)
  | operations (p : Packet) (rest : List Packet) (n : Nat) (s2 : Rx) (hp : s.packetEnd = false)
      (hd : s.deque = p :: rest) (hm : s.serviceMode = false) (hn : locoNumber p = some n)
      (hf : n = 0 ∨ Active s n)
      (h : (s.prepared e now).executeInstruction e (target s n) p (afterAddress p) rand = .ok s2)
      (hs : s' = s2.popFront) (hr : ret = true)
  | foreign (p : Packet) (rest : List Packet) (hp : s.packetEnd = false) (hd : s.deque = p :: rest)
      (hm : s.serviceMode = false) (hf : ¬ ForDecoder s p) (hs : s' = (s.prepared e now).popFront)
      (hr : ret = false)
  | service (p : Packet) (rest : List Packet) (s2 : Rx) (hp : s.packetEnd = false)
      (hd : s.deque = p :: rest) (hm : s.serviceMode = true)
      (h : (s.prepared e now).executeService e p = .ok (s2, ret)) (hs : s' = s2.popFront)

theorem exec_cases (e : Env) (s s' : Rx) (now : Int) (rand : Nat) (ret : Bool)
    (hv : ∀ p ∈ s.deque, 2 ≤ p.length) (h : s.execute e now rand = .ok (s', ret)) :
    ExecCase e s now rand s' ret := by
  by_cases hi : s.packetEnd = true ∨ s.deque = []
  · unfold Rx.execute at h
    rw [if_pos (by simpa using hi)] at h
    cases h
    exact .idle hi rfl rfl
  · simp only [not_or, Bool.not_eq_true] at hi
    obtain ⟨hp, hd⟩ := hi
    obtain ⟨p, rest, hd⟩ := List.exists_cons_of_ne_nil hd
    cases hm : s.serviceMode
    · by_cases hf : ForDecoder s p
      · obtain ⟨n, hn, hf⟩ := hf
        rw [execute_for e s now rand n p rest hp hd hm hn hf, bind_eq_ok] at h
        obtain ⟨s2, h1, h2⟩ := h
        cases h2
        exact .operations p rest n s2 hp hd hm hn hf h1 rfl rfl
      · rw [execute_foreign e s now rand p rest hp hd hm (hv p (by simp [hd])) hf] at h
        cases h
        exact .foreign p rest hp hd hm hf rfl rfl
    · rw [execute_front e s now rand p rest hp hd, hm, if_pos rfl, bind_eq_ok] at h
      obtain ⟨⟨s2, r⟩, h1, h2⟩ := h
      cases h2
      exact .service p rest s2 hp hd hm h1 rfl

/-- What executing a packet in service mode can be. -/
inductive ServiceCase (e : Env) (s : Rx) (p : Packet) (s' : Rx) : Prop
  | ignored (h : (∃ rest, p = 0#8 :: rest) ∨ ∃ b rest, p = b :: rest ∧ b &&& 0xF0#8 = 0x70#8 ∧ p.length ≠ 3 ∧
      p.length ≠ 4) (hs : s' = s)
  | leave (b : Byte) (rest : List Byte) (hb : p = b :: rest) (h0 : b ≠ 0#8) (h7 : b &&& 0xF0#8 ≠ 0x70#8)
      (hs : s' = s.setServiceMode false)
  | register (b : Byte) (rest : List Byte) (hb : p = b :: rest) (h7 : b &&& 0xF0#8 = 0x70#8)
      (hl : p.length = 3) (h : s.registerMode e p = .ok s')
  | direct (b : Byte) (rest : List Byte) (hb : p = b :: rest) (h7 : b &&& 0xF0#8 = 0x70#8)
      (hl : p.length = 4) (h : s.cvLong e 0#16 p p = .ok s')

theorem service_cases (e : Env) (s s' : Rx) (p : Packet) (ret : Bool)
    (h : s.executeService e p = .ok (s', ret)) : ServiceCase e s p s' ∧ ret = true := by
  unfold Rx.executeService at h
  obtain _ | ⟨b, rest⟩ := p
  · cases h
  rw [byteAt_zero, ok_bind] at h
  split at h
  · cases h
    rename_i hb
    exact ⟨.ignored (.inl ⟨rest, by rw [hb]⟩) rfl, rfl⟩
  split at h
  · cases h
    exact ⟨.leave b rest rfl (by assumption) (by assumption) rfl, rfl⟩
  rename_i h7
  have h7 : b &&& 0xF0#8 = 0x70#8 := by simpa using h7
  split at h
  · rw [bind_eq_ok] at h
    obtain ⟨s2, h1, h2⟩ := h
    cases h2
    exact ⟨.register b rest rfl h7 (by assumption) h1, rfl⟩
  split at h
  · rw [bind_eq_ok] at h
    obtain ⟨s2, h1, h2⟩ := h
    cases h2
    exact ⟨.direct b rest rfl h7 (by assumption) h1, rfl⟩
  · cases h
    exact ⟨.ignored (.inr ⟨b, rest, rfl, h7, by assumption, by assumption⟩) rfl, rfl⟩

end Dcc
