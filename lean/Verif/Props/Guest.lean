import Verif.Lemmas.RxGuest
/-! C88: logging on to a command station and being driven by it. -/
namespace Dcc
open Spec

/-- The decoder when it begins to log on. -/
theorem logsOn_guest {e : Env} {ops : List RxOp} {s : Rx} {uid : BitVec 32} {rs : List Round}
    {items : List GuestItem} (h : LogsOn e ops s uid rs items) :
    GuestIs s { uid := uid, pause := logonPause e {} {} ops } s where
  cfg := rfl
  uid := h.uid
  enabled := h.may.enabled
  primary := rfl
  reversed := rfl
  selected := h.may.selected
  assigned := h.may.assigned
  pause := logonPause_run e ops {} s {} .start ⟨rfl, rfl⟩ h.run
  order hn := absurd rfl hn
  before _ := ⟨rfl, rfl, h.may.store, rfl, rfl, h.may.unnamed⟩
  later n hn := by cases hn
  station c k h := by cases h
  kept n c k h := by cases h

/-- **C88** A decoder hears logon packets, idle packets and commands in any order.  Nothing faults; in
every cutout after a logon packet it answers as RCN-218 says (with its ID, its short info, an
acknowledgement, or not at all), and its locomotive does exactly what the commands for its address ask,
that is for its own address first and for the address assigned afterwards. -/
theorem C88_guest (e : Env) (ops : List RxOp) (s : Rx) (uid : BitVec 32) (rs : List Round) (items : List GuestItem)
    (h : LogsOn e ops s uid rs items) :
    ∃ s', s.run e (rs.flatMap Round.ops) = .ok s' ∧
      drivingCalls s s' = Guest.allCalls s { uid := uid, pause := logonPause e {} {} ops }
        ((rs.map Round.drawn).zip items) ∧
      (heardRounds e s rs).map inCutout =
        (Guest.replies { uid := uid, pause := logonPause e {} {} ops } ((rs.map Round.drawn).zip items)).map
          (fun r => some (r.map (Reply.word e s))) := by
  obtain ⟨s', h1, -, -, -, -, h2, h3⟩ := guest_rounds e s rs items [] _ s (.of_run h.run) h.ready (logsOn_guest h) h.may.silent
    h.sent h.packets h.legal h.first (fun hx => absurd hx (by simp))
  exact ⟨s', h1, h2, h3⟩

theorem after_number (xs : List (Nat × GuestItem)) : ∀ (g : Guest), (g.after xs).uid = g.uid ∧
    (g.after xs).number = (xs.map (·.2)).foldl (fun k i => match i with
      | .assign _ u n => if u = g.uid then some n else k
      | _ => k) g.number := by
  induction xs with
  | nil => intro g; exact ⟨rfl, rfl⟩
  | cons x xs ih =>
    intro g
    obtain ⟨h1, h2⟩ := ih (g.hear x.1 x.2).1
    rw [hear_uid] at h1 h2
    refine ⟨h1, ?_⟩
    rw [Guest.after, h2, List.map_cons, List.foldl_cons]
    congr 1
    obtain ⟨k, i⟩ := x
    cases i <;> simp only [Guest.hear] <;> (repeat' split) <;> rfl

theorem allCalls_drive (s : Rx) (cs : List Command) : ∀ (ks : List Nat) (g : Guest), ks.length = cs.length →
    g.allCalls s (ks.zip (cs.map .drive)) = cs.flatMap (fun c => g.calls s (.drive c)) := by
  induction cs with
  | nil => intro ks g h; cases ks <;> first | rfl | cases h
  | cons c cs ih =>
    intro ks g h
    obtain _ | ⟨k, ks⟩ := ks
    · cases h
    simp only [List.map_cons, List.zip_cons_cons, Guest.allCalls, List.flatMap_cons]
    congr 1
    exact ih ks g (by simpa using h)

theorem first_left {seen : List (BitVec 32)} {xs ys : List GuestItem} (h : SelectedFirst seen (xs ++ ys)) :
    SelectedFirst seen xs := by
  induction xs generalizing seen with
  | nil => trivial
  | cons x xs ih =>
    cases x with
    | select m u sub => exact ih h
    | assign m u n => exact ⟨h.1, ih h.2⟩
    | enable => exact ih h
    | idle => exact ih h
    | drive => exact ih h

theorem first_drive (seen : List (BitVec 32)) (cs : List Command) : SelectedFirst seen (cs.map .drive) := by
  induction cs with
  | nil => trivial
  | cons c cs ih => exact ih

/-- **C88** Once a number has been assigned to a decoder, its locomotive does what commands to that
number ask, as it did with commands to its own address, and nothing else but what is asked of
everyone. -/
theorem C88_obeys (e : Env) (ops : List RxOp) (s : Rx) (uid : BitVec 32) (rs rs' : List Round)
    (items : List GuestItem) (cs : List Command) (hl : rs.length = items.length)
    (h : LogsOn e ops s uid (rs ++ rs') (items ++ cs.map .drive)) (n : Nat)
    (hn : assignedLast uid items = some n) :
    ∃ s1 s2, s.run e (rs.flatMap Round.ops) = .ok s1 ∧ s1.run e (rs'.flatMap Round.ops) = .ok s2 ∧
      drivingCalls s1 s2 = cs.flatMap fun c =>
        if c.addr.value.toNat = 0 then c.calls s
        else if c.addr.value.toNat = n then
          AddressedCall.asks s.cfg.f0Exception s.addrs.primary.reversed s.addrs.primary.value c.call
        else [] := by
  have hp := h.packets
  rw [List.map_append, List.map_append] at hp
  obtain ⟨hp1, hp2⟩ := List.append_inj hp (by simp [hl])
  obtain ⟨s1, h1, h2, h3, h4, -, -, -⟩ := guest_rounds e s rs items [] _ s (.of_run h.run) h.ready (logsOn_guest h)
    h.may.silent (fun r hr => h.sent r (List.mem_append_left _ hr)) hp1
    (fun i hi => h.legal i (List.mem_append_left _ hi)) (first_left h.first) (fun hx => absurd hx (by simp))
  obtain ⟨s2, k1, -, -, -, -, k2, -⟩ := guest_rounds e s rs' (cs.map .drive) [] _ s1
    (Reachable.run (.of_run h.run) _ h1) h2 h3 h4
    (fun r hr => h.sent r (List.mem_append_right _ hr)) hp2
    (fun i hi => h.legal i (List.mem_append_right _ hi)) (first_drive _ _) (fun hx => absurd hx (by simp))
  refine ⟨s1, s2, h1, k1, ?_⟩
  have hlen : (rs'.map Round.drawn).length = cs.length := by
    have := congrArg List.length hp2
    simpa using this.symm
  have hnum : (Guest.after { uid := uid, pause := logonPause e {} {} ops }
      ((rs.map Round.drawn).zip items)).number = some n := by
    rw [(after_number _ _).2, List.map_snd_zip (by simp [hl])]
    exact hn
  rw [k2, allCalls_drive s cs _ _ hlen]
  unfold Guest.calls
  simp only [hnum]

/-- **C88** Two decoders on one track with different unique IDs, which may well have the same address,
get two numbers.  A command to one of the numbers moves the one locomotive and not the other. -/
theorem C88_apart (e e' : Env) (ops ops' : List RxOp) (s s' : Rx) (uid uid' : BitVec 32) (rs rs' : List Round)
    (r r' : Round) (items : List GuestItem) (c : Command) (hl : rs.length = items.length)
    (hl' : rs'.length = items.length) (h : LogsOn e ops s uid (rs ++ [r]) (items ++ [.drive c]))
    (h' : LogsOn e' ops' s' uid' (rs' ++ [r']) (items ++ [.drive c])) (n n' : Nat)
    (hn : assignedLast uid items = some n) (hn' : assignedLast uid' items = some n') (hne : n ≠ n')
    (hpos : 1 ≤ n) (hc : c.addr.value.toNat = n) :
    (∃ s1 s2, s.run e (rs.flatMap Round.ops) = .ok s1 ∧ s1.run e r.ops = .ok s2 ∧
      drivingCalls s1 s2 =
        AddressedCall.asks s.cfg.f0Exception s.addrs.primary.reversed s.addrs.primary.value c.call) ∧
    ∃ s1 s2, s'.run e' (rs'.flatMap Round.ops) = .ok s1 ∧ s1.run e' r'.ops = .ok s2 ∧ drivingCalls s1 s2 = [] := by
  have h0 : ¬ c.addr.value.toNat = 0 := by omega
  obtain ⟨s1, s2, h1, h2, h3⟩ := C88_obeys e ops s uid rs [r] items [c] hl h n hn
  obtain ⟨t1, t2, k1, k2, k3⟩ := C88_obeys e' ops' s' uid' rs' [r'] items [c] hl' h' n' hn'
  simp only [List.flatMap_cons, List.flatMap_nil, List.append_nil] at h2 h3 k2 k3
  rw [if_neg h0, if_pos hc] at h3
  rw [if_neg h0, if_neg (by omega)] at k3
  exact ⟨⟨s1, s2, h1, h2, h3⟩, t1, t2, k1, k2, k3⟩

/-! ### Examples -/

/-- Like `logonEnv`, with the unique ID 5, 6, 7, 8 and another manufacturer. -/
def otherGuestEnv : Env := memEnv fun cv =>
  if cv = 27#32 then 0x83#8
  else if 249#32 ≤ cv ∧ cv ≤ 252#32 then (cv - 244#32).setWidth 8
  else if cv = 7#32 then 13#8
  else exampleCvs cv

/-- Two decoders log on and get the addresses 1000 and 1001. -/
def guestItems : List GuestItem :=
  [.enable .all 513#16 7#8, .idle, .select 145#16 0x01020304#32 0xFF#8, .assign 145#16 0x01020304#32 1000,
    .enable .all 513#16 7#8, .select 13#16 0x05060708#32 0xFF#8, .assign 13#16 0x05060708#32 1001]

/-- A command to the first of them. -/
def guestCommand : Command := ⟨⟨1000#16, .long, false⟩, .advancedSpeed 0x85#8⟩

/-- The packet. -/
def packetOf (i : GuestItem) : Packet := (i.packet.toOption).getD []

/-- Its round. -/
def guestRound (i : GuestItem) : Round :=
  ⟨packetOf i, (((bytes2timings (packetOf i) {}).toOption).getD []).map fun t => (t, 0), (58, 0), 0, 0⟩

/-- All that can be computed of the hypotheses. -/
def logsOnCheck (e : Env) (uid : BitVec 32) : Bool :=
  match ({} : Rx).run e [.init] with
  | .ok s => decide (s.serviceMode = false ∧ s.deque = [] ∧ s.link.state = .preamble ∧ s.cfg.logonEnabled = true ∧
      s.logon.selected = false ∧ s.logon.assigned = false ∧ s.logon.store = false ∧ s.q.logon = [] ∧
      s.cfg.did = uint32ToData uid ∧ s.addrs.logon.value = 0#16 ∧ s.logon.cidFront = 0#16 ∧
      s.logon.sessionFront = 0#8)
  | .error _ => false

example : logsOnCheck logonEnv 0x01020304#32 = true ∧ logsOnCheck otherGuestEnv 0x05060708#32 = true ∧
    0 < logonEnv.rxDeque ∧ 0 < otherGuestEnv.rxDeque := by decide +kernel

/-- The packets can be built and sent. -/
def buildable (items : List GuestItem) : Bool :=
  items.all fun i => decide (i.packet = .ok (packetOf i)) &&
    decide (bytes2timings (packetOf i) {} = .ok (((bytes2timings (packetOf i) {}).toOption).getD []))

theorem guest_example (e : Env) (uid : BitVec 32) (hroom : 0 < e.rxDeque) (h : logsOnCheck e uid = true)
    (items : List GuestItem) (hb : buildable items = true) (hleg : ∀ i ∈ items, i.Legal 0#16 0#8)
    (hfirst : SelectedFirst [] items) :
    ∃ s, LogsOn e [.init] s uid (items.map guestRound) items := by
  have hb : ∀ i ∈ items, i.packet = .ok (packetOf i) ∧
      bytes2timings (packetOf i) {} = .ok (((bytes2timings (packetOf i) {}).toOption).getD []) := by
    intro i hi
    have := List.all_eq_true.mp hb i hi
    rwa [Bool.and_eq_true, decide_eq_true_eq, decide_eq_true_eq] at this
  unfold logsOnCheck at h
  split at h
  · rename_i s hs
    obtain ⟨h1, h2, h3, h4, h5, h6, h7, h8, h9, h10, h11, h12⟩ := of_decide_eq_true h
    refine ⟨s, hs, ⟨h1, h2, hroom, h3⟩, ⟨h4, h5, h6, h7, h8, h10⟩, h9, ?_, ?_, by rw [h11, h12]; exact hleg, hfirst⟩
    · intro r hr
      obtain ⟨i, hi, rfl⟩ := List.mem_map.mp hr
      refine ⟨{}, by decide, ?_⟩
      show bytes2timings (packetOf i) {} = .ok (List.map _ (List.map _ _))
      rw [List.map_map]
      exact (hb i hi).2.trans
        (by rw [show ((fun x : Nat × Nat => x.1) ∘ fun t => (t, 0)) = id from rfl, List.map_id])
    · rw [List.map_map]
      exact List.map_congr_left fun i hi => (hb i hi).1
  · cases h

theorem guestCommand_legal : guestCommand.Legal := by
  refine ⟨?_, trivial⟩
  unfold LocoAddress guestCommand
  decide

/-- The hypotheses, for both decoders. -/
example : (∃ s, LogsOn logonEnv [.init] s 0x01020304#32 (guestItems.map guestRound ++ [guestRound (.drive guestCommand)])
      (guestItems ++ [.drive guestCommand])) ∧
    ∃ s, LogsOn otherGuestEnv [.init] s 0x05060708#32
      (guestItems.map guestRound ++ [guestRound (.drive guestCommand)]) (guestItems ++ [.drive guestCommand]) := by
  have hleg : ∀ i ∈ guestItems ++ [.drive guestCommand], i.Legal 0#16 0#8 := by
    intro i hi
    simp only [guestItems, List.cons_append, List.nil_append, List.mem_cons, List.not_mem_nil, or_false] at hi
    rcases hi with rfl | rfl | rfl | rfl | rfl | rfl | rfl | rfl
    · exact fun hx => absurd hx.1 (by decide)
    · trivial
    · show (145#16).toNat < 4096; decide
    · show (145#16).toNat < 4096 ∧ 1 ≤ 1000 ∧ 1000 < 10240; decide
    · exact fun hx => absurd hx.1 (by decide)
    · show (13#16).toNat < 4096; decide
    · show (13#16).toNat < 4096 ∧ 1 ≤ 1001 ∧ 1001 < 10240; decide
    · exact guestCommand_legal
  have hb : buildable (guestItems ++ [.drive guestCommand]) = true := by decide +kernel
  have hf : SelectedFirst [] (guestItems ++ [.drive guestCommand]) := by simp [guestItems, SelectedFirst]
  have h1 := guest_example logonEnv 0x01020304#32 (by decide) (by decide +kernel) _ hb hleg hf
  have h2 := guest_example otherGuestEnv 0x05060708#32 (by decide) (by decide +kernel) _ hb hleg hf
  rw [List.map_append] at h1 h2
  exact ⟨h1, h2⟩

example : assignedLast 0x01020304#32 guestItems = some 1000 ∧ assignedLast 0x05060708#32 guestItems = some 1001 := by
  decide

/-- The first decoder answers with ID, short info and acknowledgement and is silent otherwise. -/
example : (Guest.replies { uid := 0x01020304#32 } (guestItems.map fun i => (0, i))) =
    [some .id, none, some .info, some .ack, none, none, none] := by decide

/-- **C88** (false) A decoder is not selected by packets with the number of another manufacturer: only
the unique ID is compared, so a decoder of manufacturer 145 obeys the address assigned to one of
manufacturer 13. -/
theorem C88_manufacturer_false :
    ∃ (e : Env) (s : Rx) (rs rs' : List Round) (items : List GuestItem) (c : Command) (s1 s2 : Rx),
      e.manufacturerId = 145#8 ∧ (∀ m u sub, .select m u sub ∈ items → m = 13#16) ∧
      (∀ m u n, .assign m u n ∈ items → m = 13#16 ∧ n = 1000) ∧ c.addr.value = 1000#16 ∧
      LogsOn e [.init] s 0x01020304#32 (rs ++ rs') (items ++ [.drive c]) ∧
      s.run e (rs.flatMap Round.ops) = .ok s1 ∧ s1.run e (rs'.flatMap Round.ops) = .ok s2 ∧
      drivingCalls s1 s2 ≠ [] := by
  have hleg : ∀ i ∈ ([.select 13#16 0x01020304#32 0xFF#8, .assign 13#16 0x01020304#32 1000] ++
      [guestCommand].map GuestItem.drive : List GuestItem), i.Legal 0#16 0#8 := by
    intro i hi
    simp only [List.map_cons, List.map_nil, List.cons_append, List.nil_append, List.mem_cons, List.not_mem_nil,
      or_false] at hi
    rcases hi with rfl | rfl | rfl
    · show (13#16).toNat < 4096; decide
    · show (13#16).toNat < 4096 ∧ 1 ≤ 1000 ∧ 1000 < 10240; decide
    · exact guestCommand_legal
  obtain ⟨s, h⟩ := guest_example logonEnv 0x01020304#32 (by decide) (by decide +kernel) _ (by decide +kernel) hleg
    (by simp [SelectedFirst])
  rw [List.map_append] at h
  obtain ⟨s1, s2, h1, h2, h3⟩ := C88_obeys _ _ _ _ _ _ _ [guestCommand] rfl h 1000 (by decide)
  refine ⟨logonEnv, s, _, _, _, guestCommand, s1, s2, rfl, ?_, ?_, rfl, h, h1, h2, ?_⟩
  · intro m u sub hm
    simpa using (by simpa using hm : m = 13#16 ∧ _).1
  · intro m u n hm
    have : m = 13#16 ∧ u = 0x01020304#32 ∧ n = 1000 := by simpa using hm
    exact ⟨this.1, this.2.2⟩
  · rw [h3]
    simp [guestCommand, AddressedCall.asks, speed126Calls, driveCalls]

end Dcc
