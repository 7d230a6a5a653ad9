import Verif.Lemmas.RxFrame
/-! What logon packets, executed by `receive`, leave alone. -/
namespace Dcc

/-- What executing a logon packet in handler mode leaves alone. -/
structure LogonFrame (s s' : Rx) : Prop where
  link : s'.link = s.link
  deque : s'.deque = s.deque
  lastOwnCvPacket : s'.lastOwnCvPacket = s.lastOwnCvPacket
  ownEqualCvPackets : s'.ownEqualCvPackets = s.ownEqualCvPackets
  received : s'.addrs.received = s.addrs.received
  cfg : s'.cfg = s.cfg
  cidFront : s'.logon.cidFront = s.logon.cidFront
  sessionFront : s'.logon.sessionFront = s.logon.sessionFront
  dyn : s'.q.dyn = s.q.dyn
  tos : s'.q.tos = s.q.tos
  adr : s'.q.adr = s.q.adr
  pom : s'.q.pom = s.q.pom
  blockDyn : s'.q.blockDyn = s.q.blockDyn
  packetCount : s'.packetCount = s.packetCount
  preambleCount : s'.preambleCount = s.preambleCount
  indexReg : s'.indexReg = s.indexReg
  mode : s'.mode = s.mode
  lastPacketTp : s'.lastPacketTp = s.lastPacketTp
  tosTp : s'.tosTp = s.tosTp
  tosBackoff : s'.tosBackoff = s.tosBackoff
  qos : s'.qos = s.qos
  enabled : s'.enabled = s.enabled
  man : s'.man = s.man
  callbacks : s'.callbacks = s.callbacks
  trace : ∃ evs : List Event, s'.trace = s.trace ++ evs ∧ ∀ ev ∈ evs, ev.isQuiet = true

theorem LogonFrame.refl (s : Rx) : LogonFrame s s := by
  constructor <;> first | rfl | exact ⟨[], by simp, by simp⟩

/-- Close `LogonFrame` goals for explicit states with the same trace. -/
macro "logon_rfl" : tactic =>
  `(tactic| (constructor <;> first | rfl | exact ⟨[], by simp, by simp⟩))

theorem logon_pushLogon (s : Rx) (d : List Byte) : Post (s.pushLogon d) (LogonFrame s) := by
  unfold Rx.pushLogon
  split
  · refine Post.ok ?_
    logon_rfl
  · exact Post.error

theorem LogonFrame.trans_quiet {a b c : Rx} (h : LogonFrame a b) (g : LogonFrame b c) :
    LogonFrame a c := by
  obtain ⟨e1, t1, q1⟩ := h.trace
  obtain ⟨e2, t2, q2⟩ := g.trace
  constructor
  case trace =>
    refine ⟨e1 ++ e2, by rw [t2, t1, List.append_assoc], fun ev hev => ?_⟩
    rcases List.mem_append.mp hev with h | h
    · exact q1 ev h
    · exact q2 ev h
  all_goals first
    | exact g.link.trans h.link | exact g.deque.trans h.deque
    | exact g.lastOwnCvPacket.trans h.lastOwnCvPacket
    | exact g.ownEqualCvPackets.trans h.ownEqualCvPackets | exact g.received.trans h.received
    | exact g.cfg.trans h.cfg | exact g.cidFront.trans h.cidFront
    | exact g.sessionFront.trans h.sessionFront | exact g.dyn.trans h.dyn | exact g.tos.trans h.tos
    | exact g.adr.trans h.adr | exact g.pom.trans h.pom | exact g.blockDyn.trans h.blockDyn
    | exact g.packetCount.trans h.packetCount | exact g.preambleCount.trans h.preambleCount
    | exact g.indexReg.trans h.indexReg | exact g.mode.trans h.mode
    | exact g.lastPacketTp.trans h.lastPacketTp | exact g.tosTp.trans h.tosTp
    | exact g.tosBackoff.trans h.tosBackoff | exact g.qos.trans h.qos
    | exact g.enabled.trans h.enabled | exact g.man.trans h.man
    | exact g.callbacks.trans h.callbacks

theorem logon_answer (e : Env) (s : Rx) (gg : AddressGroup) (rand : Nat) :
    Post (s.logonAnswer e gg rand) (LogonFrame s) := by
  unfold Rx.logonAnswer
  split
  · exact Post.ok (.refl s)
  dsimp only
  generalize (if gg = .now then s.logon.backoff.now else s.logon.backoff).query rand = r
  split
  · refine Post.ok ?_
    logon_rfl
  · refine Post.bind_any fun d => (logon_pushLogon ..).mono fun a ha => ?_
    refine LogonFrame.trans_quiet ?_ ha
    logon_rfl

theorem logon_enable (e : Env) (s : Rx) (gg : AddressGroup) (cid : BitVec 16) (b : Byte)
    (rand : Nat) : Post (s.logonEnable e gg cid b rand) (LogonFrame s) := by
  unfold Rx.logonEnable
  split
  · exact Post.ok (.refl s)
  dsimp only
  split
  · split
    · refine Post.bind_any fun a => Post.ok ?_
      constructor <;> first
        | rfl
        | (refine ⟨_, List.append_assoc _ _ _, ?_⟩
           intro ev hev
           simp only [List.mem_append, List.mem_singleton] at hev
           rcases hev with h | h <;> subst h <;> rfl)
    · refine (logon_answer ..).mono fun a ha => LogonFrame.trans_quiet ?_ ha
      logon_rfl
  · refine (logon_answer ..).mono fun a ha => LogonFrame.trans_quiet ?_ ha
    logon_rfl

theorem logon_select (s : Rx) (did : List Byte) : Post (s.logonSelect did) (LogonFrame s) := by
  unfold Rx.logonSelect
  split
  · exact Post.ok (.refl s)
  dsimp only
  refine Post.bind_any fun d => (logon_pushLogon ..).mono fun a ha => LogonFrame.trans_quiet ?_ ha
  logon_rfl

theorem logon_assign (s : Rx) (did : List Byte) (a : Address) (b : Bool) :
    Post (s.logonAssign did a b) (LogonFrame s) := by
  unfold Rx.logonAssign
  split
  · exact Post.ok (.refl s)
  dsimp only
  refine Post.bind_any fun d => (logon_pushLogon ..).mono fun a ha => LogonFrame.trans_quiet ?_ ha
  logon_rfl

theorem logon_executeAutomaticLogon (e : Env) (s : Rx) (a : Address) (bs : List Byte) (rand : Nat) :
    Post (s.executeAutomaticLogon e a bs rand) (LogonFrame s) := by
  unfold Rx.executeAutomaticLogon
  split
  · exact Post.ok (.refl s)
  refine Post.bind_any fun b0 => ?_
  dsimp only
  split
  · exact Post.bind_any fun did => logon_select ..
  split
  · refine Post.bind_any fun did => Post.bind_any fun b6 => ?_
    split
    · exact Post.bind_any fun x => logon_assign ..
    split
    · exact Post.ok (.refl s)
    split
    · exact Post.bind_any fun x => logon_assign ..
    · exact Post.ok (.refl s)
  split
  · exact Post.bind_any fun cid => Post.bind_any fun se => logon_enable ..
  · exact Post.ok (.refl s)

theorem logon_handlerMode (e : Env) (s : Rx) (rand : Nat) :
    Post (s.executeHandlerMode e rand) (fun r => LogonFrame s r.1 ∧
      r.2 = (s.addrs.received.type == .automaticLogon)) := by
  unfold Rx.executeHandlerMode
  split
  · rename_i h
    exact Post.ok ⟨.refl s, by simp [h]⟩
  rename_i h
  split
  · exact Post.bind (logon_executeAutomaticLogon ..) fun s1 h1 => Post.ok ⟨h1, by simpa using h⟩
  · exact Post.ok ⟨.refl s, by simpa using h⟩

end Dcc
