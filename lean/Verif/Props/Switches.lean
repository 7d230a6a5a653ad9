import Verif.Props.RxLogonStore
import Verif.Props.WrongWay
/-! C129: the switches of a decoder are the ones in its CVs, whatever automatic logon does. -/
namespace Dcc
open Spec

/-- The switches are the ones in the CVs: F0 in the speed packet, lock, both BiDi channels and logon; and the decoder
runs the other way round only if CV29 says so. -/
structure Spec.Switched (c : BitVec 32 → Byte) (s : Rx) : Prop where
  f0Exception : s.cfg.f0Exception = !(c 28#32).getLsbD 1
  locked : s.cfg.cvsLocked = true ↔ c 14#32 ≠ 0#8 ∧ c 15#32 ≠ 0#8 ∧ c 14#32 ≠ c 15#32
  channel1 : s.cfg.ch1AddrEnabled = ((c 28#32).getLsbD 3 && (c 27#32).getLsbD 0)
  channel2 : s.cfg.ch2DataEnabled = ((c 28#32).getLsbD 3 && (c 27#32).getLsbD 1)
  logon : s.cfg.logonEnabled = ((c 28#32).getLsbD 3 && (c 27#32).getLsbD 7)
  wayRound : s.addrs.primary.reversed = true → (c 28#32).getLsbD 0 = true

theorem Spec.Reflects.switched {c : BitVec 32 → Byte} {s : Rx} (h : Reflects c s) : Switched c s :=
  ⟨h.f0Exception, h.locked, h.channel1, h.channel2, h.logon, fun hr => h.primaryReversed ▸ hr⟩

theorem Spec.Switched.of_bits {c c' : BitVec 32 → Byte} {s s' : Rx} (h : Switched c s) (h14 : c' 14#32 = c 14#32)
    (h15 : c' 15#32 = c 15#32) (h27 : c' 27#32 = c 27#32) (h0 : (c' 28#32).getLsbD 0 = (c 28#32).getLsbD 0)
    (h1 : (c' 28#32).getLsbD 1 = (c 28#32).getLsbD 1) (h3 : (c' 28#32).getLsbD 3 = (c 28#32).getLsbD 3) (hf : s'.cfg = s.cfg)
    (hp : s'.addrs.primary.reversed = true → s.addrs.primary.reversed = true) : Switched c' s' := by
  constructor
  · rw [h1, hf]; exact h.f0Exception
  · rw [h14, h15, hf]; exact h.locked
  · rw [h3, h27, hf]; exact h.channel1
  · rw [h3, h27, hf]; exact h.channel2
  · rw [h3, h27, hf]; exact h.logon
  · rw [h0]; exact fun hr => h.wayRound (hp hr)

theorem Spec.Switched.congr {c c' : BitVec 32 → Byte} {s s' : Rx} (h : Switched c s)
    (hc : ∀ cv ∈ initCvs, c' cv = c cv) (hf : s'.cfg = s.cfg)
    (hp : s'.addrs.primary = s.addrs.primary) : Switched c' s' :=
  h.of_bits (hc _ (by decide)) (hc _ (by decide)) (hc _ (by decide)) (by rw [hc _ (by decide)])
    (by rw [hc _ (by decide)]) (by rw [hc _ (by decide)]) hf (fun h => hp ▸ h)

/-- The switches still are the ones in the CVs. -/
structure Tracks (m : BitVec 32 → Byte) (s s' : Rx) : Prop where
  out : Switched (mem m s.trace) s → Switched (mem m s'.trace) s'

theorem Tracks.refl (m : BitVec 32 → Byte) (s : Rx) : Tracks m s s := ⟨id⟩

theorem Tracks.trans {m : BitVec 32 → Byte} {a b c : Rx} (h : Tracks m a b) (g : Tracks m b c) :
    Tracks m a c := ⟨fun x => g.out (h.out x)⟩

theorem Tracks.of_same {m : BitVec 32 → Byte} {s s' : Rx} (hf : s'.cfg = s.cfg)
    (hp : s'.addrs.primary = s.addrs.primary) (ht : Adds (fun ev => ev.stores = false) s s') : Tracks m s s' := by
  refine ⟨fun h => ?_⟩
  obtain ⟨evs, h1, h2⟩ := ht
  rw [h1, mem_append_quiet _ _ _ h2]
  exact h.congr (fun _ _ => rfl) hf hp

theorem tracks_answerByte (m : BitVec 32 → Byte) (s : Rx) (a b : Byte) :
    Tracks m s (s.answerByte a b) :=
  .of_same (answerByte_same s a b).2 (by rw [(answerByte_same s a b).1]) ⟨_, answerByte_trace s a b, stores_ack _ _⟩

theorem tracks_answerBit (m : BitVec 32 → Byte) (s : Rx) (a b : Bool) :
    Tracks m s (s.answerBit a b) :=
  .of_same (answerBit_same s a b).2 (by rw [(answerBit_same s a b).1]) ⟨_, answerBit_trace s a b, stores_ack _ _⟩

theorem tracks_emit (m : BitVec 32 → Byte) (s : Rx) (ev : Event) (h : ev.stores = false) :
    Tracks m s (s.emit ev) := .of_same rfl rfl (.emit s ev h)

theorem tracks_verifyByte (e : Env) (m : BitVec 32 → Byte) (s : Rx) (cv : BitVec 32) (b : Byte) :
    Post (s.cvVerifyByte e cv b) (Tracks m s) := by
  rw [cvVerifyByte_eq]
  refine Post.ok ?_
  split
  · exact .refl m s
  · unfold Rx.verifiedByte
    split
    · exact .of_same rfl rfl ⟨[_], rfl, by simp [Event.stores]⟩
    · exact (tracks_emit m s _ rfl).trans (tracks_answerByte ..)

theorem tracks_verifyBit (e : Env) (m : BitVec 32 → Byte) (s : Rx) (cv : BitVec 32) (b : Bool)
    (p : BitVec 32) : Post (s.cvVerifyBit e cv b p) (Tracks m s) := by
  rw [cvVerifyBit_eq]
  refine Post.ok ?_
  split
  · exact .refl m s
  · unfold Rx.verifiedBit
    split
    · exact .of_same rfl rfl ⟨[_], rfl, by simp [Event.stores]⟩
    · exact (tracks_emit m s _ rfl).trans (tracks_answerBit ..)

theorem tracks_writeByte {e : Env} {m : BitVec 32 → Byte} (hm : MemoryLike e m) (s : Rx)
    (cv : BitVec 32) (b : Byte) : Post (s.cvWriteByte e cv b) (Tracks m s) := by
  rw [cvWriteByte_eq]
  split
  · exact Post.ok (.refl m s)
  · unfold Rx.initIfNeeded
    split
    · exact ⟨fun s' h => ⟨fun _ => (init_reflects hm h).1.switched⟩⟩
    · rename_i hcv
      refine Post.ok ⟨fun hR => ?_⟩
      have hc : ∀ c ∈ initCvs, (if c = cv then b else mem m s.trace c) = mem m s.trace c := fun c hc =>
        if_neg (fun h : c = cv => hcv (h ▸ hc))
      unfold Rx.wroteByte
      split
      · refine hR.congr (fun c h => ?_) rfl rfl
        show mem m (s.trace ++ [_]) c = _
        rw [mem_append]
        exact hc c h
      · refine (tracks_answerByte m _ _ _).out ?_
        refine hR.congr (fun c h => ?_) rfl rfl
        show mem m (s.trace ++ [_]) c = _
        rw [mem_append]
        exact hc c h

theorem tracks_writeBit {e : Env} {m : BitVec 32 → Byte} (hm : MemoryLike e m) (s : Rx)
    (cv : BitVec 32) (b : Bool) (p : BitVec 32) : Post (s.cvWriteBit e cv b p) (Tracks m s) := by
  rw [cvWriteBit_eq]
  split
  · exact Post.ok (.refl m s)
  · unfold Rx.initIfNeeded
    split
    · exact ⟨fun s' h => ⟨fun _ => (init_reflects hm h).1.switched⟩⟩
    · rename_i hcv
      refine Post.ok ⟨fun hR => ?_⟩
      have hc : ∀ c ∈ initCvs, (if c = cv then setBit (mem m s.trace c) p b else mem m s.trace c) = mem m s.trace c := fun c hc =>
        if_neg (fun h : c = cv => hcv (h ▸ hc))
      unfold Rx.wroteBit
      split
      · refine hR.congr (fun c h => ?_) rfl rfl
        show mem m (s.trace ++ [_]) c = _
        rw [mem_append]
        exact hc c h
      · refine (tracks_answerBit m _ _ _).out ?_
        refine hR.congr (fun c h => ?_) rfl rfl
        show mem m (s.trace ++ [_]) c = _
        rw [mem_append]
        exact hc c h

theorem tracks_shortBody {e : Env} {m : BitVec 32 → Byte} (hm : MemoryLike e m) (s : Rx)
    (bs : List Byte) : Post (s.cvShortBody e bs) (Tracks m s) := by
  unfold Rx.cvShortBody
  refine Post.bind_any fun b0 => ?_
  dsimp only
  split
  · exact Post.bind_any fun b => tracks_writeByte hm ..
  split
  · exact Post.bind_any fun b => tracks_writeByte hm ..
  split
  · split
    · exact Post.ok (.refl m s)
    · refine Post.bind_any fun b1 => ?_
      refine Post.bind (tracks_writeByte hm ..) fun s1 h1 => ?_
      refine Post.bind_any fun b2 => ?_
      refine Post.bind (tracks_writeByte hm ..) fun s2 h2 => ?_
      exact (tracks_writeBit hm ..).mono fun s3 h3 => (h1.trans h2).trans h3
  split
  · split
    · exact Post.ok (.refl m s)
    · refine Post.bind_any fun b1 => ?_
      refine Post.bind (tracks_writeByte hm ..) fun s1 h1 => ?_
      refine Post.bind_any fun b2 => ?_
      exact (tracks_writeByte hm ..).mono fun s2 h2 => h1.trans h2
  · exact Post.ok (.refl m s)

theorem tracks_longBody {e : Env} {m : BitVec 32 → Byte} (hm : MemoryLike e m) (s : Rx)
    (bs : List Byte) : Post (s.cvLongBody e bs) (Tracks m s) := by
  unfold Rx.cvLongBody
  repeat' (first
    | exact tracks_verifyByte ..
    | exact tracks_verifyBit ..
    | exact tracks_writeByte hm ..
    | exact tracks_writeBit hm ..
    | exact Post.ok (.refl m s)
    | (refine Post.bind_any fun _ => ?_)
    | dsimp only
    | split)

theorem tracks_registerMode {e : Env} {m : BitVec 32 → Byte} (hm : MemoryLike e m) (s : Rx)
    (bs : List Byte) : Post (s.registerMode e bs) (Tracks m s) := by
  unfold Rx.registerMode
  refine Post.bind_any fun b0 => ?_
  dsimp only
  refine Post.bind_any fun b1 => ?_
  have key : ∀ (w : Bool) (i : BitVec 32), Post
      (if w = true then s.cvWriteByte e i b1 else s.cvVerifyByte e i b1) (Tracks m s) := by
    intro w i
    split
    · exact tracks_writeByte hm ..
    · exact tracks_verifyByte ..
  split
  · exact key _ _
  split
  · exact key _ _
  split
  · split
    · exact Post.ok (.of_same rfl rfl (.of_eq rfl))
    split
    · exact Post.ok (tracks_emit m s _ rfl)
    · exact Post.ok (.refl m s)
  · exact key _ _

theorem tracks_count (m : BitVec 32 → Byte) (s : Rx) (p : Packet) :
    Tracks m s (s.countOwnEqualCvPackets p) := by
  obtain ⟨f1, f2, f3, f4⟩ := count_fields s p
  unfold Rx.countOwnEqualCvPackets
  split <;> exact .of_same rfl rfl (.of_eq rfl)

theorem tracks_cvLong {e : Env} {m : BitVec 32 → Byte} (hm : MemoryLike e m) (s : Rx)
    (addr : BitVec 16) (p : Packet) (bs : List Byte) : Post (s.cvLong e addr p bs) (Tracks m s) := by
  unfold Rx.cvLong
  split
  · exact Post.ok (.refl m s)
  dsimp only
  split
  · exact Post.ok (tracks_count m s p)
  · exact (tracks_longBody hm ..).mono fun s' h => (tracks_count m s p).trans h

theorem tracks_cvShort {e : Env} {m : BitVec 32 → Byte} (hm : MemoryLike e m) (s : Rx)
    (addr : BitVec 16) (p : Packet) (bs : List Byte) : Post (s.cvShort e addr p bs) (Tracks m s) := by
  unfold Rx.cvShort
  split
  · exact Post.ok (.refl m s)
  · exact (tracks_shortBody hm ..).mono fun s' h => (tracks_count m s p).trans h

theorem tracks_instruction {e : Env} {m : BitVec 32 → Byte} (hm : MemoryLike e m) (s s' : Rx)
    (addr : BitVec 16) (p : Packet) (bs : List Byte) (rand : Nat)
    (h : s.executeInstruction e addr p bs rand = .ok s') : Tracks m s s' := by
  obtain ⟨b, hb, hi⟩ := instruction_cases e _ s' _ p _ rand h
  cases hi with
  | enter _ hb h => rw [h]; exact .of_same rfl rfl ⟨[_], rfl, by simp [Event.stores]⟩
  | control hd' _ h => rw [h]; exact .refl m s
  | consist hd' h =>
    unfold Rx.consistControl at h
    simp only [bind_eq_ok] at h
    obtain ⟨x, -, y, -, h⟩ := h
    exact (tracks_writeByte hm ..).out _ h
  | drives hd' h =>
    obtain ⟨evs, mm, rfl, hq⟩ := h
    exact .of_same rfl rfl ⟨evs, rfl, fun ev hev => stores_of_loco ev (hq ev hev)⟩
  | searches hd' _ _ h => obtain ⟨b, q, rfl⟩ := h; exact .of_same rfl rfl (.of_eq rfl)
  | cvShort hd' h => exact (tracks_cvShort hm ..).out _ h
  | cvLong hd' h => exact (tracks_cvLong hm ..).out _ h

theorem setBit_switches : ∀ b : Byte, ∀ i ∈ [0, 1, 3], (setBit b 5#32 true).getLsbD i = b.getLsbD i := by decide +kernel

theorem mem_storeWrites (c : BitVec 32 → Byte) (s : Rx) :
    mem c (storeWrites s) 14#32 = c 14#32 ∧ mem c (storeWrites s) 15#32 = c 15#32 ∧
      mem c (storeWrites s) 27#32 = c 27#32 ∧
      ∀ i ∈ [0, 1, 3], (mem c (storeWrites s) 28#32).getLsbD i = (c 28#32).getLsbD i := by
  unfold storeWrites
  split
  · refine ⟨rfl, rfl, rfl, fun i hi => ?_⟩
    exact setBit_switches (c 28#32) i hi
  · exact ⟨rfl, rfl, rfl, fun i _ => rfl⟩

theorem prepared_tracks (e : Env) (m : BitVec 32 → Byte) (s : Rx) (now : Int) : Tracks m s (s.prepared e now) := by
  have hf : (s.prepared e now).cfg = s.cfg := (prepare_total e s now).2.cfg
  have hp : (s.prepared e now).addrs.primary = s.addrs.primary := by rw [(prepare_total e s now).2.addrs]
  refine ⟨fun h => ?_⟩
  have ht : ∀ x : Rx, (x.updateQos.updateTimepoints now).trace = x.trace := by
    intro x
    unfold Rx.updateTimepoints Rx.updateQos
    dsimp only
    split <;> split <;> rfl
  obtain ⟨evs, h1, he⟩ := logonStore_eq e { s with q := { s.q with adr := s.adrQueue } }
  have h2 : (s.prepared e now).trace = s.trace ∨ (s.prepared e now).trace = s.trace ++ evs := by
    unfold Rx.prepared
    rw [ht, h1]
    split
    · exact .inr rfl
    · exact .inl rfl
  rcases h2 with h2 | h2
  · rw [h2]
    exact h.congr (fun _ _ => rfl) hf hp
  · rw [h2, mem_append, ← mem_erase evs, he]
    obtain ⟨c14, c15, c27, c28⟩ := mem_storeWrites (mem m s.trace) { s with q := { s.q with adr := s.adrQueue } }
    exact h.of_bits c14 c15 c27 (c28 0 (by simp)) (c28 1 (by simp)) (c28 3 (by simp)) hf (fun h => hp ▸ h)

theorem tracks_execute {e : Env} {m : BitVec 32 → Byte} (hm : MemoryLike e m) (s s' : Rx)
    (hr : Reachable e s) (now : Int) (rand : Nat) (ret : Bool)
    (h : s.execute e now rand = .ok (s', ret)) : Tracks m s s' := by
  have hp := prepared_tracks e m s now
  have hpop : ∀ x : Rx, Tracks m x x.popFront := fun x => .of_same rfl rfl (.of_eq rfl)
  cases exec_cases e s s' now rand ret hr.lengths h with
  | idle h hs _ => rw [hs]; exact .refl m s
  | foreign q rest _ hd hm' hfd hs' _ => rw [hs']; exact hp.trans (hpop _)
  | operations p rest n s2 hpe hd hm' hn' ha h hs' _ =>
    rw [hs']
    exact hp.trans ((tracks_instruction hm _ _ _ _ _ _ h).trans (hpop _))
  | service p rest s2 hpe hd hm' h hs' =>
    rw [hs']
    refine hp.trans (Tracks.trans ?_ (hpop _))
    cases (service_cases e _ s2 p ret h).1 with
    | ignored h1 hs => rw [hs]; exact .refl m _
    | leave b r hb h0 h7 hs =>
      rw [hs]; exact .of_same rfl rfl ⟨[_], rfl, by simp [Event.stores]⟩
    | direct b r hb h7 hl h => exact (tracks_cvLong hm ..).out _ h
    | register b r hb h7 hl h => exact (tracks_registerMode hm ..).out _ h

theorem step_tracks {e : Env} {m : BitVec 32 → Byte} (hm : MemoryLike e m) (s s' : Rx)
    (hr : Reachable e s) (op : RxOp) (h : s.step e op = .ok s') : Tracks m s s' := by
  cases op with
  | init => exact ⟨fun _ => (init_reflects hm h).1.switched⟩
  | enable =>
    simp only [Rx.step, Rx.enable, Except.ok.injEq] at h
    subst h
    split <;> exact .of_same rfl rfl (.of_eq rfl)
  | disable =>
    simp only [Rx.step, Rx.disable, Except.ok.injEq] at h
    subst h
    split <;> exact .of_same rfl rfl (.of_eq rfl)
  | receive t r =>
    have f := (receive_frame e s hr.recvInv.room t r).out _ h
    obtain ⟨evs, h1, h2⟩ := f.adds.mono stores_of_quiet
    refine ⟨fun hs => ?_⟩
    rw [h1, mem_append_quiet _ _ _ h2]
    refine hs.of_bits rfl rfl rfl rfl rfl rfl f.cfg fun hp => ?_
    rcases C123_received e s s' t r hr h with h3 | ⟨bs, -, -, -, h3⟩
    · exact h3 ▸ hp
    · rw [h3] at hp; cases hp
  | execute now rand =>
    simp only [Rx.step, bind_eq_ok] at h
    obtain ⟨⟨s2, ret⟩, h, h2⟩ := h
    cases h2
    exact tracks_execute hm s s2 hr now rand ret h
  | datagram ds =>
    obtain ⟨q, b, rfl⟩ := datagram_eq e s s' ds h
    exact .of_same rfl rfl (.of_eq rfl)
  | biDiChannel1 =>
    simp only [Rx.step, Except.ok.injEq] at h
    obtain ⟨q, evs, h1, h2⟩ := channel1_adds s
    rw [← h, h1]
    exact .of_same rfl rfl ⟨evs, rfl, fun ev hev => stores_of_transmit ev (h2 ev hev)⟩
  | biDiChannel2 =>
    obtain ⟨q, evs, rfl, h2⟩ := (channel2_adds s).out _ h
    exact .of_same rfl rfl ⟨evs, rfl, fun ev hev => stores_of_transmit ev (h2 ev hev)⟩
  | callbackByte i v =>
    simp only [Rx.step] at h
    split at h
    · rw [callbackByte_eq] at h
      cases h
      exact tracks_answerByte ..
    · cases h; exact .refl m s
  | callbackBit i v =>
    simp only [Rx.step] at h
    split at h
    · rw [callbackBit_eq] at h
      cases h
      exact tracks_answerBit ..
    · cases h; exact .refl m s

theorem run_tracks {e : Env} {m : BitVec 32 → Byte} (hm : MemoryLike e m) (ops : List RxOp) (s s' : Rx)
    (hr : Reachable e s) (h : s.run e ops = .ok s') (hR : Switched (mem m s.trace) s ∨ .init ∈ ops) :
    Switched (mem m s'.trace) s' := by
  induction ops generalizing s with
  | nil =>
    cases h
    exact hR.resolve_right (by simp)
  | cons op ops ih =>
    rw [Rx.run, bind_eq_ok] at h
    obtain ⟨s1, h1, h2⟩ := h
    refine ih s1 (hr.step op h1) h2 ?_
    rcases hR with hR | hR
    · exact .inl ((step_tracks hm s s1 hr op h1).out hR)
    · rw [List.mem_cons] at hR
      rcases hR with rfl | hR
      · exact .inl (init_reflects hm h1).1.switched
      · exact .inr hR

/-- **C129** With a CV store that behaves like memory, after any calls among which `init()` was called: the speed step
mode, the lock and the BiDi switches are the ones in the CVs, and the decoder does not run the other way round unless CV29 says so, whatever addresses
automatic logon assigned or stored. -/
theorem C129_switches (e : Env) (m : BitVec 32 → Byte) (hm : MemoryLike e m) (ops : List RxOp) (s : Rx)
    (hi : .init ∈ ops) (h : ({} : Rx).run e ops = .ok s) : Switched (mem m s.trace) s :=
  run_tracks hm ops {} s .start h (.inr hi)

/-- A locomotive at the address 3 in consist 5, the other way round, and its CVs. -/
def backwardsCvs : BitVec 32 → Byte := fun cv =>
  if cv = 18#32 then 0x85#8
  else if cv = 27#32 then 0x83#8
  else if 249#32 ≤ cv ∧ cv ≤ 252#32 then (cv - 248#32).setWidth 8
  else exampleCvs cv

/-- It is assigned the address 1000 for the session, and hears a speed for that address, with which the assignment is
stored. -/
def backwardsLogon : List RxOp :=
  .init :: hears (checked [254#8, 0xE0#8, 145#8, 1#8, 2#8, 3#8, 4#8, 0xC3#8, 0xE8#8, 0#8]) ++
    hears [0xC3#8, 0xE8#8, 0x3F#8, 0x85#8, 0x91#8] ++ [.execute 0 0]

/-- Everybody is told to run forward. -/
def everybodyForward : List RxOp := hears [0#8, 0x3F#8, 0x85#8, 0xBA#8] ++ [.execute 0 0]

/-- **C129** fails for the consist: a locomotive that is in a consist the other way round is assigned an address.  That
takes it out of the consist, CV19 is 0, but the way round of the consist is kept.  Everybody is told to run forward, and
it runs backward, until `init()` is called. -/
theorem C129_consist_false :
    holdsAfter (({} : Rx).run (memEnv backwardsCvs) backwardsLogon) (fun s =>
      decide (mem backwardsCvs s.trace 18#32 = 0#8 ∧ s.addrs.consist.value = 0#16 ∧
        s.addrs.consist.reversed = true)) = true ∧
    directionsGiven (memEnv backwardsCvs) (backwardsLogon ++ everybodyForward) = some [true, false] ∧
    directionsGiven (memEnv backwardsCvs) (backwardsLogon ++ .init :: everybodyForward) = some [true, true] := by
  refine ⟨by decide +kernel, by decide +kernel, by decide +kernel⟩

/-- The hypotheses of `C129_switches` hold in a run with an assignment, which is stored. -/
example : MemoryLike (memEnv backwardsCvs) backwardsCvs ∧ .init ∈ backwardsLogon ∧
    holdsAfter (({} : Rx).run (memEnv backwardsCvs) backwardsLogon) (fun s =>
      decide (s.logon.assigned = true ∧ s.addrs.logon.value = 1000#16 ∧ s.cfg.logonEnabled = true ∧
        mem backwardsCvs s.trace 65300#32 = 0xE8#8)) = true :=
  ⟨⟨fun _ _ => rfl⟩, by decide +kernel, by decide +kernel⟩

end Dcc
