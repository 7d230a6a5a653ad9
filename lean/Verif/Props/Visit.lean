import Verif.Lemmas.RxVisit
import Verif.Props.Guest
import Verif.Props.Talk
import Verif.Props.Track
/-! C111: logging on over the track signal of a command station. -/
namespace Dcc
open Spec

/-- The packets of the items are valid. -/
theorem guest_valid {known : BitVec 16} {session : Byte} {i : GuestItem} (hi : i.Legal known session) {p : Packet}
    (hp : i.packet = .ok p) : ValidPacket p := by
  cases i with
  | enable group cid session =>
    obtain ⟨b, y, h1, rfl, h2, -⟩ := enable_packet group cid session
    have hp : makeLogonEnablePacket group cid session = _ := hp
    rw [h1] at hp
    cases hp; exact h2
  | select m u sub =>
    obtain ⟨b, c, y, z, h1, rfl, h2, -⟩ := select_packet m u sub
    have hp : makeLogonSelectPacket m u sub = _ := hp
    rw [h1] at hp
    cases hp; exact h2
  | assign m u n =>
    obtain ⟨b, c, y, z, h1, rfl, h2, -⟩ := assign_packet m u (BitVec.ofNat 16 (0xC000 + n))
    have hp : makeLogonAssignPacket m u (BitVec.ofNat 16 (0xC000 + n)) = _ := hp
    rw [h1] at hp
    cases hp; exact h2
  | idle =>
    have hp : Except.ok idleBytes = Except.ok p := hp
    cases hp
    exact ⟨by decide, by decide, by decide⟩
  | drive c => exact (built_packet c.addr (show c.Legal from hi).1 c.call p hp).2.2.1

/-- Idle packets in between do not matter for the order. -/
theorem first_sent {unsent : List GuestItem} : ∀ {sent : List (Option GuestItem)} {seen : List (BitVec 32)},
    SelectedFirst seen (sent.filterMap id ++ unsent) → SelectedFirst seen (sent.map (·.getD .idle)) := by
  intro sent
  induction sent with
  | nil => intro _ _; trivial
  | cons x xs ih =>
    intro seen h
    cases x with
    | none => exact ih (seen := seen) h
    | some i =>
      have h : SelectedFirst seen (i :: (xs.filterMap id ++ unsent)) := h
      show SelectedFirst seen (i :: _)
      cases i with
      | select m u sub => exact ih (seen := u :: seen) h
      | assign m u n => exact ⟨h.1, ih h.2⟩
      | enable => exact ih (seen := seen) h
      | idle => exact ih (seen := seen) h
      | drive => exact ih (seen := seen) h

/-- What a command station and a decoder that logs on have: the station accepted the packets of the items, the
decoder may log on, and its program attends to both channels at the times it measures. -/
structure LogsOnTrack (n : Nat) (cfg : TxConfig) (txOps : List TxOp) (h : TxHist) (items : List GuestItem) (e : Env)
    (ops0 : List RxOp) (s : Rx) (uid : BitVec 32) (off : Option Bool) (seen : Bool) (before : List Nat)
    (ops : List RxOp) : Prop where
  station : ({ s := {} } : TxHist).run n (.init cfg :: txOps) = .ok h
  invert : ∀ c, .init c ∈ txOps → c.invert = cfg.invert
  accepted : h.acc.map (fun a => Except.ok a.2) = items.map GuestItem.packet
  legal : ∀ i ∈ items, i.Legal s.logon.cidFront s.logon.sessionFront
  first : SelectedFirst [] items
  room : 2 ≤ e.rxDeque
  run : ({} : Rx).run e ops0 = .ok s
  mode : s.serviceMode = false
  deque : s.deque = []
  waiting : s.link.state = .preamble
  bits : s.link.bitCount ≤ 18
  may : MayLogOn s
  uid : s.cfg.did = uint32ToData uid
  visits : visits e 0 s ops = true
  times : Measured (crossings off seen before h.out) (recvTimes ops)

/-- **C111** Automatic logon over the track signal of a command station, with the times the decoder measures.  The
station has accepted logon packets, idle packets and commands in any order; the program of the decoder calls both
channels after each packet and executes each packet in time.  Then there is no fault, the decoder has heard the
packets sent with idle packets in between, in every cutout that is over the station heard what RCN-218 says, and the
locomotive did what the commands for the address it had then ask; at most the last packet is still to be answered or
executed. -/
theorem C111_logon (n : Nat) (cfg : TxConfig) (txOps : List TxOp) (h : TxHist) (items : List GuestItem) (e : Env)
    (ops0 : List RxOp) (s : Rx) (uid : BitVec 32) (off : Option Bool) (seen : Bool) (before : List Nat)
    (ops : List RxOp) (hl : LogsOnTrack n cfg txOps h items e ops0 s uid off seen before ops) :
    ∃ (sent : List (Option GuestItem)) (unsent : List GuestItem) (s' : Rx) (late : List Event)
      (rest : List (Option (Option Nat))),
      items = sent.filterMap id ++ unsent ∧
      (unsent.length = h.s.size n ∨ unsent.length = h.s.size n + 1 ∧ h.s.bidiCount = 0) ∧
      (drawnAt e s ops).length = sent.length ∧ s.run e ops = .ok s' ∧
      drivingCalls s s' ++ late = Guest.allCalls s { uid := uid, pause := logonPause e {} {} ops0 }
        ((drawnAt e s ops).zip (sent.map (·.getD .idle))) ∧
      (s'.deque = [] → late = []) ∧
      (cuts e [] s ops).map inCutout ++ rest =
        (Guest.replies { uid := uid, pause := logonPause e {} {} ops0 }
          ((drawnAt e s ops).zip (sent.map (·.getD .idle)))).map (fun r => some (r.map (Reply.word e s))) ∧
      rest.length ≤ 1 ∧ (s'.packetEnd = false → rest = []) := by
  have hr : Reachable e s := .of_run hl.run
  obtain ⟨sent, unsent, l, os, h1, h2, h3, h4⟩ := heard_sent GuestItem.packet n cfg txOps h hl.station hl.invert items
    (fun i hi p hp => guest_valid (hl.legal i hi) hp) hl.accepted off seen before _ hl.times s.link
    (hr.recvInv.link.synced hl.waiting) hl.bits
  have hpk : (sent.map (·.getD .idle)).map GuestItem.packet = (packetsOf os).map .ok := by
    rw [← h2, List.map_map]
    refine List.map_congr_left fun x _ => ?_
    cases x <;> rfl
  have hleg : ∀ i ∈ sent.map (·.getD .idle), i.Legal s.logon.cidFront s.logon.sessionFront := by
    intro i hi
    obtain ⟨x, hx, rfl⟩ := List.mem_map.mp hi
    cases x with
    | none => trivial
    | some i =>
      refine hl.legal i ?_
      rw [h3]
      exact List.mem_append_left _ (List.mem_filterMap.mpr ⟨_, hx, rfl⟩)
  have hg : GuestIs s { uid := uid, pause := logonPause e {} {} ops0 } s :=
    { cfg := rfl
      uid := hl.uid
      enabled := hl.may.enabled
      primary := rfl
      reversed := rfl
      selected := hl.may.selected
      assigned := hl.may.assigned
      pause := logonPause_run e ops0 {} s {} .start ⟨rfl, rfl⟩ hl.run
      order := fun hn => absurd rfl hn
      before := fun _ => ⟨rfl, rfl, hl.may.store, rfl, rfl, hl.may.unnamed⟩
      later := nofun
      station := nofun
      kept := nofun }
  obtain ⟨s', due', pend', reply', half', v1, v2, -, v4, v5, v6⟩ := visit_run s hl.room ops s _ 0 none none [] _ [] l os hr
    ⟨hg, hl.mode, hl.deque, nofun, by omega, fun h => absurd rfl h, fun _ => hl.may.silent, nofun, nofun,
      fun h => absurd rfl h⟩ hl.visits h1 hpk hleg (first_sent (by rw [← h3]; exact hl.first)) (fun hx => by cases hx)
  refine ⟨sent, unsent, s', _, _, h3, h4, by simpa using v4, v1, v5, ?_, v6, ?_, ?_⟩
  · intro hd
    obtain _ | x := pend'
    · rfl
    · rw [v2.deque] at hd; cases hd
  · unfold owed
    split <;> simp
  · intro hpe
    unfold owed
    rw [if_pos]
    refine Decidable.byContradiction fun h => ?_
    rw [v2.ends h] at hpe
    cases hpe

theorem hear_number (g : Guest) (r : Nat) (i : GuestItem) : (g.hear r i).1.number = numberAfter g.uid g.number i := by
  cases i <;> simp only [Guest.hear, numberAfter] <;> (repeat' split) <;> rfl

/-- The random numbers and the idle packets in between do not matter for the locomotive. -/
theorem allCalls_driven (s : Rx) : ∀ (sent : List (Option GuestItem)) (rs : List Nat) (g : Guest), rs.length = sent.length →
    g.allCalls s (rs.zip (sent.map (·.getD .idle))) = drivenBy s g.uid g.number (sent.filterMap id) := by
  intro sent
  induction sent with
  | nil => intro rs g _; cases rs <;> rfl
  | cons x xs ih =>
    intro rs g h
    obtain _ | ⟨r, rs⟩ := rs
    · cases h
    have h : rs.length = xs.length := by simpa using h
    have := ih rs (g.hear r (x.getD .idle)).1 h
    rw [hear_uid, hear_number] at this
    rw [List.map_cons, List.zip_cons_cons, Guest.allCalls, this]
    cases x with
    | none => rfl
    | some i => rfl

theorem driven_append (s : Rx) (uid : BitVec 32) (b : List GuestItem) : ∀ (a : List GuestItem) (k : Option Nat),
    drivenBy s uid k (a ++ b) = drivenBy s uid k a ++ drivenBy s uid (a.foldl (numberAfter uid) k) b := by
  intro a
  induction a with
  | nil => intro k; rfl
  | cons i a ih =>
    intro k
    rw [List.cons_append, drivenBy, ih, drivenBy, List.foldl_cons, List.append_assoc]

theorem assigned_number (uid : BitVec 32) (items : List GuestItem) :
    items.foldl (numberAfter uid) none = assignedLast uid items := by
  unfold assignedLast
  congr 1

theorem driven_commands (s : Rx) (uid : BitVec 32) (n : Nat) (cs : List Command) :
    drivenBy s uid (some n) (cs.map .drive) = cs.flatMap fun c =>
      if c.addr.value.toNat = 0 then c.calls s
      else if c.addr.value.toNat = n then
        AddressedCall.asks s.cfg.f0Exception s.addrs.primary.reversed s.addrs.primary.value c.call
      else [] := by
  induction cs with
  | nil => rfl
  | cons c cs ih =>
    rw [List.map_cons, drivenBy, List.flatMap_cons]
    show _ ++ drivenBy s uid (some n) _ = _
    rw [ih]
    rfl

/-- **C111** From the throttle to the locomotive with an address assigned over the track: what the locomotive does
depends only on the packets sent, and neither on the idle packets in between nor on the random numbers drawn.  At most
what the last packet asks for is still missing. -/
theorem C111_driven (n : Nat) (cfg : TxConfig) (txOps : List TxOp) (h : TxHist) (items : List GuestItem) (e : Env)
    (ops0 : List RxOp) (s : Rx) (uid : BitVec 32) (off : Option Bool) (seen : Bool) (before : List Nat)
    (ops : List RxOp) (hl : LogsOnTrack n cfg txOps h items e ops0 s uid off seen before ops) :
    ∃ (sent unsent : List GuestItem) (s' : Rx) (late : List Event), items = sent ++ unsent ∧
      (unsent.length = h.s.size n ∨ unsent.length = h.s.size n + 1 ∧ h.s.bidiCount = 0) ∧ s.run e ops = .ok s' ∧
      drivingCalls s s' ++ late = drivenBy s uid none sent ∧ (s'.deque = [] → late = []) := by
  obtain ⟨sent, unsent, s', late, -, h1, h2, h3, h4, h5, h6, -⟩ := C111_logon n cfg txOps h items e ops0 s uid off seen
    before ops hl
  refine ⟨sent.filterMap id, unsent, s', late, h1, h2, h4, ?_, h6⟩
  rw [h5, allCalls_driven s sent _ _ h3]

/-- **C111** Two decoders on one track, which may well have the same address, with different unique IDs; each measures
its own times and has its own program.  They have got two numbers.  When all packets are sent and executed, of the
commands given after that each locomotive has done exactly those to its number and those to all. -/
theorem C111_apart (n : Nat) (cfg : TxConfig) (txOps : List TxOp) (h : TxHist) (items : List GuestItem)
    (cs : List Command) (hsent : h.s.size n = 0) (hcut : h.s.bidiCount ≠ 0)
    (e e' : Env) (ops0 ops0' : List RxOp) (s s' : Rx) (uid uid' : BitVec 32) (off off' : Option Bool) (seen seen' : Bool)
    (before before' : List Nat) (ops ops' : List RxOp)
    (hl : LogsOnTrack n cfg txOps h (items ++ cs.map .drive) e ops0 s uid off seen before ops)
    (hl' : LogsOnTrack n cfg txOps h (items ++ cs.map .drive) e' ops0' s' uid' off' seen' before' ops')
    (k k' : Nat) (hk : assignedLast uid items = some k) (hk' : assignedLast uid' items = some k') :
    ∃ t t', s.run e ops = .ok t ∧ s'.run e' ops' = .ok t' ∧
      (t.deque = [] → drivingCalls s t = drivenBy s uid none items ++ cs.flatMap fun c =>
        if c.addr.value.toNat = 0 then c.calls s
        else if c.addr.value.toNat = k then
          AddressedCall.asks s.cfg.f0Exception s.addrs.primary.reversed s.addrs.primary.value c.call
        else []) ∧
      (t'.deque = [] → drivingCalls s' t' = drivenBy s' uid' none items ++ cs.flatMap fun c =>
        if c.addr.value.toNat = 0 then c.calls s'
        else if c.addr.value.toNat = k' then
          AddressedCall.asks s'.cfg.f0Exception s'.addrs.primary.reversed s'.addrs.primary.value c.call
        else []) := by
  have one : ∀ (e : Env) (ops0 : List RxOp) (s : Rx) (uid : BitVec 32) (off : Option Bool) (seen : Bool)
      (before : List Nat) (ops : List RxOp) (k : Nat),
      LogsOnTrack n cfg txOps h (items ++ cs.map .drive) e ops0 s uid off seen before ops →
      assignedLast uid items = some k →
      ∃ t, s.run e ops = .ok t ∧
      (t.deque = [] → drivingCalls s t = drivenBy s uid none items ++ cs.flatMap fun c =>
        if c.addr.value.toNat = 0 then c.calls s
        else if c.addr.value.toNat = k then
          AddressedCall.asks s.cfg.f0Exception s.addrs.primary.reversed s.addrs.primary.value c.call
        else []) := by
    intro e ops0 s uid off seen before ops k hl hk
    obtain ⟨sent, unsent, t, late, h1, h2, h3, h4, h5⟩ := C111_driven n cfg txOps h _ e ops0 s uid off seen before ops hl
    have hu : unsent = [] := by
      rcases h2 with h2 | ⟨-, h2⟩
      · exact List.length_eq_zero_iff.mp (h2.trans hsent)
      · exact absurd h2 hcut
    rw [hu, List.append_nil] at h1
    refine ⟨t, h3, fun hd => ?_⟩
    rw [h5 hd, List.append_nil, ← h1] at h4
    rw [h4, driven_append, assigned_number, hk, driven_commands]
  obtain ⟨t, t1, t2⟩ := one e ops0 s uid off seen before ops k hl hk
  obtain ⟨t', t3, t4⟩ := one e' ops0' s' uid' off' seen' before' ops' k' hl' hk'
  exact ⟨t, t', t1, t3, t2, t4⟩

/-- **C111** A program that attends to both channels: an interrupt per half bit that calls both in the cutout after a
packet, and a main loop that calls `execute` after each. -/
theorem C111_attending (e : Env) (hroom : 2 ≤ e.rxDeque) (s : Rx) (hr : Reachable e s) (hdq : s.deque = [])
    (xs : List (Nat × Nat × Int × Nat)) :
    visits e 0 s (attending e s xs) = true ∧ recvTimes (attending e s xs) = xs.map (·.1) :=
  ⟨attending_visits e xs s (attending_attended e hroom xs s hr (by simp [hdq]) fun _ => hdq), attending_times e xs s⟩

/-- Two decoders are selected and get the addresses 1000 and 1001. -/
def visitFirst : List GuestItem :=
  [.select 145#16 0x01020304#32 0xFF#8, .assign 145#16 0x01020304#32 1000,
    .select 13#16 0x05060708#32 0xFF#8, .assign 13#16 0x05060708#32 1001]

/-- After that there is a command to the first of them. -/
def visitItems : List GuestItem := visitFirst ++ [guestCommand].map .drive

/-- What can be computed of the hypotheses, and the end. -/
def visitCheck (e : Env) (uid : BitVec 32) (k : Nat) (off : Option Bool) (replies : List (Option (Option Nat)))
    (calls : List Event) : Bool :=
  match ({ s := {} } : TxHist).run 8 (stationOf (visitItems.map packetOf) k), ({} : Rx).run e [.init] with
  | .ok h, .ok s =>
    let ts := shaky (exactTimes off true [] h.out)
    let ops := attending e s (ts.map (·, 0, 0, 0))
    decide (h.acc.map (fun a => Except.ok a.2) = visitItems.map GuestItem.packet ∧ h.s.size 8 = 0 ∧ h.s.bidiCount ≠ 0 ∧
      s.link.bitCount ≤ 18 ∧ Measured (crossings off true [] h.out) ts) && logsOnCheck e uid &&
    holdsAfter (s.run e ops) (fun s' => decide (s'.deque = [] ∧ drivingCalls s s' = calls ∧
      (cuts e [] s ops).map inCutout = replies))
  | _, _ => false

/-- The first decoder answers with its short info and an acknowledgement, and its locomotive moves. -/
theorem visit_one : visitCheck logonEnv 0x01020304#32 1145 (some false)
    [some none, some (some 140750373257283), some (some 228698418577502), some none, some none, some none]
    (speed126Calls 3#16 false 0x85#8) = true := by decide +kernel

/-- The other one has the same address; it answers in its cutouts, and its locomotive does not move. -/
theorem visit_other : visitCheck otherGuestEnv 0x05060708#32 1145 (some false)
    [some none, some none, some none, some (some 140750373257283), some (some 228698418577502), some none] [] = true := by
  decide +kernel

theorem visit_example {h : TxHist} (hh : ({ s := {} } : TxHist).run 8 (stationOf (visitItems.map packetOf) 1145) = .ok h)
    {e : Env} {uid : BitVec 32} {off : Option Bool} {replies : List (Option (Option Nat))} {calls : List Event}
    (hroom : 2 ≤ e.rxDeque) (hc : visitCheck e uid 1145 off replies calls = true) :
    h.s.size 8 = 0 ∧ h.s.bidiCount ≠ 0 ∧ ∃ s s' ops,
      LogsOnTrack 8 {} (visitItems.map packetOf |>.map .bytes |>.append (List.replicate 1145 .transmit)) h visitItems e
        [.init] s uid off true [] ops ∧ s.run e ops = .ok s' ∧ s'.deque = [] ∧ drivingCalls s s' = calls := by
  unfold visitCheck at hc
  rw [hh] at hc
  split at hc
  · rename_i h' s hx hs
    cases hx
    rw [Bool.and_eq_true, Bool.and_eq_true, decide_eq_true_eq] at hc
    obtain ⟨⟨⟨h1, h2, h3, h4, h5⟩, h6⟩, h7⟩ := hc
    obtain ⟨s', h8, h9⟩ := holdsAfter_ok h7
    obtain ⟨h10, h11, -⟩ := of_decide_eq_true h9
    unfold logsOnCheck at h6
    rw [hs] at h6
    obtain ⟨g1, g2, g3, g4, g5, g6, g7, g8, g9, g10, g11, g12⟩ := of_decide_eq_true h6
    obtain ⟨a1, a2⟩ := C111_attending e hroom s (.of_run hs) g2 ((shaky (exactTimes off true [] h.out)).map (·, 0, 0, 0))
    refine ⟨h2, h3, s, s', _, ⟨hh, ?_, h1, ?_, ?_, hroom, hs, g1, g2, g3, h4, ⟨g4, g5, g6, g7, g8, g10⟩, g9, a1, ?_⟩, h8,
      h10, h11⟩
    · intro c hc
      rcases List.mem_append.mp hc with hc | hc
      · obtain ⟨p, -, hp⟩ := List.mem_map.mp hc
        cases hp
      · cases List.eq_of_mem_replicate hc
    · rw [g11, g12]
      intro i hi
      simp only [visitItems, visitFirst, List.map_cons, List.map_nil, List.cons_append, List.nil_append, List.mem_cons,
        List.not_mem_nil, or_false] at hi
      rcases hi with rfl | rfl | rfl | rfl | rfl
      · show (145#16).toNat < 4096; decide
      · show (145#16).toNat < 4096 ∧ 1 ≤ 1000 ∧ 1000 < 10240; decide
      · show (13#16).toNat < 4096; decide
      · show (13#16).toNat < 4096 ∧ 1 ≤ 1001 ∧ 1001 < 10240; decide
      · exact guestCommand_legal
    · simp [visitItems, visitFirst, SelectedFirst]
    · rw [a2, List.map_map]
      rw [show ((fun x : Nat × Nat × Int × Nat => x.1) ∘ fun t : Nat => (t, 0, 0, 0)) = id from rfl, List.map_id]
      exact h5
  · cases hc

/-- The hypotheses, for both decoders. -/
example : ∃ h, h.s.size 8 = 0 ∧ h.s.bidiCount ≠ 0 ∧
    (∃ txOps s s' ops, LogsOnTrack 8 {} txOps h visitItems logonEnv [.init] s 0x01020304#32 (some false) true [] ops ∧
      s.run logonEnv ops = .ok s' ∧ s'.deque = [] ∧ drivingCalls s s' = speed126Calls 3#16 false 0x85#8) ∧
    (∃ txOps s s' ops, LogsOnTrack 8 {} txOps h visitItems otherGuestEnv [.init] s 0x05060708#32 (some false) true [] ops ∧
      s.run otherGuestEnv ops = .ok s' ∧ s'.deque = [] ∧ drivingCalls s s' = []) ∧
    assignedLast 0x01020304#32 visitFirst = some 1000 ∧ assignedLast 0x05060708#32 visitFirst = some 1001 := by
  cases hh : ({ s := {} } : TxHist).run 8 (stationOf (visitItems.map packetOf) 1145) with
  | error f =>
    have := visit_one
    unfold visitCheck at this
    rw [hh] at this
    cases this
  | ok h =>
    obtain ⟨h1, h2, s, s', ops, h3⟩ := visit_example hh (by decide) visit_one
    obtain ⟨-, -, t, t', ops', h4⟩ := visit_example hh (by decide) visit_other
    exact ⟨h, h1, h2, ⟨_, s, s', ops, h3⟩, ⟨_, t, t', ops', h4⟩, by decide, by decide⟩

end Dcc
