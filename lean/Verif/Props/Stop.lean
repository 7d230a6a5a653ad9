import Verif.Lemmas.RxStop
import Verif.Props.Engine
import Verif.Props.Settle
/-! What makes a locomotive run and what stops it: C105. -/
namespace Dcc
open Spec

/-! ### C105 -/

/-- **C105** A speed command that is executed is obeyed: whatever the user's class does, exactly one speed is told,
for the address the command is for, and it is zero for stop, -1 for emergency stop and positive for everything
else. -/
theorem C105_obeyed (e : Env) (s s' : Rx) (hr : Reachable e s) (now : Int) (rand : Nat) (ret : Bool)
    (h : s.execute e now rand = .ok (s', ret)) (n : Nat) (bs : List Byte) (ho : Obeys s n bs) (c : Nat)
    (hc : speedCode bs = some c) : ∃ v, Meets c v ∧ toldBy (newCalls s s') = [(target s n, v)] := by
  rcases tells_execute e s s' hr now rand ret h with ⟨n', bs', c', v, h1, h2, h3, h4⟩ | ⟨-, h1⟩
  · obtain ⟨p, h5, -, h6, -, rfl⟩ := ho
    obtain ⟨q, h7, -, h8, -, rfl⟩ := h1
    rw [h5] at h7; cases h7
    rw [h6] at h8; cases h8
    rw [hc] at h2; cases h2
    exact ⟨v, h3, h4.calls⟩
  · rw [h1 n bs ho] at hc; cases hc

/-- **C105** Nothing else tells a speed: a call of any method of the decoder tells one only if it is `execute` and
obeys a speed command. -/
theorem C105_told (e : Env) (s s' : Rx) (hr : Reachable e s) (op : RxOp) (h : s.step e op = .ok s')
    (ht : toldBy (newCalls s s') ≠ []) :
    op.isExecute = true ∧ ∃ n bs c v, Obeys s n bs ∧ speedCode bs = some c ∧ Meets c v ∧
      toldBy (newCalls s s') = [(target s n, v)] := by
  cases hx : op.isExecute with
  | false => exact absurd (tells_other e s s' hr op hx h).calls ht
  | true =>
    cases op <;> try cases hx
    rename_i now rand
    simp only [Rx.step, bind_eq_ok, pure_eq_ok, Except.ok.injEq] at h
    obtain ⟨⟨z, ret⟩, h1, rfl⟩ := h
    rcases tells_execute e s z hr now rand ret h1 with ⟨n, bs, c, v, h2, h3, h4, h5⟩ | ⟨h2, -⟩
    · exact ⟨rfl, n, bs, c, v, h2, h3, h4, h5.calls⟩
    · exact absurd h2.calls ht

/-- **C105** A locomotive that stands starts only if it is told to: if it stands before and runs after any calls in
any order, one of them executed a command with a speed in it, for everyone or for a number the decoder listens to at
that time.  The command is taken as it is read, the check byte included (see `C105_check_byte_false`). -/
theorem C105_starts (e : Env) (ops : List RxOp) : ∀ (s s' : Rx), Reachable e s → s.run e ops = .ok s' →
    Standing s.trace → ¬ Standing s'.trace →
    ∃ before op after z n bs c, ops = before ++ op :: after ∧ s.run e before = .ok z ∧ op.isExecute = true ∧
      Obeys z n bs ∧ speedCode bs = some c ∧ 2 ≤ c := by
  induction ops with
  | nil => intro s s' _ h h1 h2; cases h; exact absurd h1 h2
  | cons op ops ih =>
    intro s s' hr h h1 h2
    rw [Rx.run, bind_eq_ok] at h
    obtain ⟨z, h3, h4⟩ := h
    by_cases hz : Standing z.trace
    · obtain ⟨before, op', after, y, n, bs, c, h5, h6, h7⟩ := ih z s' (hr.step op h3) h4 hz h2
      exact ⟨op :: before, op', after, y, n, bs, c, by rw [h5]; rfl, by rw [Rx.run, h3]; exact h6, h7⟩
    · rcases tells_step e s z hr op h3 with ⟨h5, n, bs, c, v, h6, h7, h8, h9⟩ | h5
      · refine ⟨[], op, ops, s, n, bs, c, rfl, rfl, h5, h6, h7, ?_⟩
        rcases h8 with ⟨-, rfl⟩ | ⟨-, rfl⟩ | ⟨h8, -⟩
        · obtain ⟨evs, h10, h11⟩ := h9
          exact absurd (by rw [h10]; exact standing_append h1 (by simp [h11])) hz
        · obtain ⟨evs, h10, h11⟩ := h9
          exact absurd (by rw [h10]; exact standing_append h1 (by simp [h11])) hz
        · exact h8
      · obtain ⟨evs, h10, h11⟩ := h5
        exact absurd (by rw [h10]; exact standing_append h1 (by simp [h11])) hz

/-- **C105** A stop to everyone stops every decoder in operations mode, whatever its address, its CVs and the state
of its logon: it is told speed zero, or -1 for an emergency stop.  So does a stop to a number it listens to. -/
theorem C105_stops (e : Env) (s s' : Rx) (hr : Reachable e s) (now : Int) (rand : Nat) (ret : Bool)
    (h : s.execute e now rand = .ok (s', ret)) (n : Nat) (bs : List Byte) (ho : Obeys s n bs) (c : Nat)
    (hc : speedCode bs = some c) (hs : c ≤ 1) :
    Standing s'.trace ∧ lastTold s'.trace = some (if c = 0 then 0 else -1) := by
  have key : lastTold s'.trace = some (if c = 0 then 0 else -1) := by
    rcases tells_execute e s s' hr now rand ret h with ⟨n', bs', c', v, h1, h2, h3, h4⟩ | ⟨-, h1⟩
    · obtain ⟨p, h5, -, h6, -, rfl⟩ := ho
      obtain ⟨q, h7, -, h8, -, rfl⟩ := h1
      rw [h5] at h7; cases h7
      rw [hc] at h2; cases h2
      unfold lastTold
      rw [h4.all]
      rcases h3 with ⟨rfl, rfl⟩ | ⟨rfl, rfl⟩ | ⟨h3, -⟩
      · simp
      · simp
      · omega
    · rw [h1 n bs ho] at hc; cases hc
  refine ⟨fun v hv => ?_, key⟩
  rw [key] at hv
  cases hv
  split <;> decide

theorem asks_told (f0 rev : Bool) (addr : BitVec 16) (c : AddressedCall) (hd : AddressedCall.Driving c) :
    match AddressedCall.speedCode c with
    | none => toldBy (AddressedCall.asks f0 rev addr c) = []
    | some k => ∃ v, Meets k v ∧ toldBy (AddressedCall.asks f0 rev addr c) = [(addr, v)] := by
  have h126 : ∀ b : Byte, ∃ v, Meets (b.toNat % 128) v ∧ toldBy (speed126Calls addr rev b) = [(addr, v)] := by
    intro b
    unfold speed126Calls estopCalls driveCalls
    dsimp only
    split
    · rename_i h
      exact ⟨-1, .inr (.inl ⟨h, rfl⟩), rfl⟩
    · rename_i h
      refine ⟨_, ?_, rfl⟩
      rcases Nat.lt_trichotomy (b.toNat % 128) 1 with h1 | h1 | h1
      · have h0 : b.toNat % 128 = 0 := by omega
        exact .inl ⟨h0, by clear h h1; revert h0; revert b; decide +kernel⟩
      · exact absurd h1 h
      · exact .inr (.inr ⟨h1, by clear h; revert h1; revert b; decide +kernel⟩)
  cases c <;> simp only [AddressedCall.speedCode, AddressedCall.asks] <;> try rfl
  case advancedSpeed b => exact h126 b
  case speedDirFunctions b f fs =>
    obtain ⟨v, h1, h2⟩ := h126 b
    refine ⟨v, h1, ?_⟩
    unfold toldBy at h2 ⊢
    rw [List.filterMap_append, h2]
    have : ∀ (l : List (Byte × Nat)), (l.map fun x => functionCall addr false ⟨8 * x.2, 8⟩ x.1.toNat).filterMap
        Event.told = [] := by
      intro l
      induction l with
      | nil => rfl
      | cons a l ih => rw [List.map_cons, List.filterMap_cons]; exact ih
    rw [this]; rfl
  case speedAndDirection b =>
    have hb : b.toNat < 64 := hd
    unfold speed14Calls speed28Calls estopCalls driveCalls
    dsimp only
    have h0 : b.toNat % 16 ≠ 1 → b.toNat % 16 = 0 ∨ 2 ≤ b.toNat % 16 := by omega
    split <;> split
    · rename_i h
      exact ⟨-1, .inr (.inl ⟨h, rfl⟩), rfl⟩
    · rename_i h
      refine ⟨_, ?_, rfl⟩
      rcases h0 h with h1 | h1
      · exact .inl ⟨h1, by clear h h0 hd; revert h1 hb; revert b; decide +kernel⟩
      · exact .inr (.inr ⟨h1, by clear h h0 hd; revert h1 hb; revert b; decide +kernel⟩)
    · rename_i h
      exact ⟨-1, .inr (.inl ⟨h, rfl⟩), rfl⟩
    · rename_i h
      refine ⟨_, ?_, rfl⟩
      rcases h0 h with h1 | h1
      · exact .inl ⟨h1, by clear h h0 hd; revert h1 hb; revert b; decide +kernel⟩
      · exact .inr (.inr ⟨h1, by clear h h0 hd; revert h1 hb; revert b; decide +kernel⟩)

/-- The speeds the commands tell a decoder. -/
theorem calls_told (s : Rx) (c : Command) (hc : c.Legal) :
    (∀ x ∈ toldBy (c.calls s), c.Runs s ∨ x.2 ≤ 0) ∧ (c.Stops s → toldBy (c.calls s) ≠ []) := by
  unfold Command.calls
  dsimp only
  by_cases ha : c.addr.value.toNat = 0 ∨ Active s c.addr.value.toNat
  · rw [if_pos ha]
    have h := asks_told s.cfg.f0Exception (reversedAt s (target s c.addr.value.toNat))
      (target s c.addr.value.toNat) c.call hc.2
    cases hk : AddressedCall.speedCode c.call with
    | none =>
      rw [hk] at h
      dsimp only at h
      rw [h]
      exact ⟨by simp, fun ⟨_, k, hk', _⟩ => by rw [hk] at hk'; cases hk'⟩
    | some k =>
      rw [hk] at h
      obtain ⟨v, h1, h2⟩ := h
      rw [h2]
      refine ⟨fun x hx => ?_, fun _ => by simp⟩
      rw [List.mem_singleton.mp hx]
      rcases h1 with ⟨-, rfl⟩ | ⟨-, rfl⟩ | ⟨h1, -⟩
      · exact .inr (show (0 : Int) ≤ 0 by decide)
      · exact .inr (show (-1 : Int) ≤ 0 by decide)
      · exact .inl ⟨ha, k, hk, h1⟩
  · rw [if_neg ha]
    exact ⟨by simp [toldBy], fun h => absurd h.1 ha⟩

theorem toldBy_drivingCalls (s s' : Rx) : toldBy (drivingCalls s s') = toldBy (newCalls s s') := by
  unfold drivingCalls toldBy
  induction newCalls s s' with
  | nil => rfl
  | cons ev evs ih =>
    rw [List.filter_cons, List.filterMap_cons]
    split
    · rw [List.filterMap_cons, ih]
    · rw [ih]
      cases ev <;> first | rfl | (rename_i h; exact absurd rfl h)

/-- **C105** Over the track: as in C83.  One of the commands the station accepted is a stop to everyone, or to a
number the decoder listens to, and none of the commands behind it is for the decoder and has a speed in it.  Then the
locomotive stands once the station has got no more commands for long enough.  For a stop to everyone this holds of
every decoder that hears the signal. -/
theorem C105_track (n w : Nat) (cfg : TxConfig) (txOps : List TxOp) (h0 h : TxHist)
    (ht : ({ s := {} } : TxHist).run n (.init cfg :: txOps) = .ok h0) (m spare : Nat)
    (hr0 : h0.run n (List.replicate m .transmit) = .ok h)
    (hm : (h0.s.size n + 1) * longest + (spare + 1) * idling < m)
    (hinv : ∀ c, .init c ∈ txOps → c.invert = cfg.invert) (hw : w ≤ shortest {})
    (hcfg : ∀ c, .init c ∈ .init cfg :: txOps → w ≤ shortest c) (cmds : List Command) (hc : ∀ c ∈ cmds, c.Legal)
    (hacc : h.acc.map (fun a => Except.ok a.2) = cmds.map Command.packet)
    (e : Env) (hroom : spare + 2 ≤ e.rxDeque) (s : Rx) (hr : Reachable e s) (hready : Ready e s)
    (hb : s.link.bitCount ≤ 18) (start edge period : Nat) (hp : period < w) (xs : List (Nat × RxOp))
    (off : Option Bool) (seen : Bool) (before : List Nat) (hsv : Attended period spare start start xs)
    (hl : Lasting edge ((crossings off seen before h.out).map List.sum) xs)
    (hops : ∀ op ∈ calls xs, op.isReceive = true ∨ op.isExecute = true)
    (htimes : Measured (crossings off seen before h.out) (recvTimes (calls xs)))
    (first later : List Command) (stop : Command) (hcmds : cmds = first ++ stop :: later) (hstop : stop.Stops s)
    (hlater : ∀ c ∈ later, ¬ c.Runs s) :
    ∃ s', s.run e (calls xs) = .ok s' ∧ Standing s'.trace := by
  obtain ⟨s', h1, h2⟩ := C83_all_done n w cfg txOps h0 h ht m spare hr0 hm hinv hw hcfg cmds hc hacc e hroom s hr
    hready hb start edge period hp xs off seen before hsv hl hops htimes
  refine ⟨s', h1, ?_⟩
  obtain ⟨evs, h3⟩ := run_prefix e _ s s' hr h1
  have h4 : toldBy evs = toldBy (first.flatMap (Command.calls s)) ++
      (toldBy (stop.calls s) ++ toldBy (later.flatMap (Command.calls s))) := by
    have := toldBy_drivingCalls s s'
    rw [h2, newCalls_append h3.symm, hcmds] at this
    rw [← this]
    simp [toldBy]
  have h5 : ∀ x ∈ toldBy (stop.calls s) ++ toldBy (later.flatMap (Command.calls s)), x.2 ≤ 0 := by
    intro x hx
    rcases List.mem_append.mp hx with hx | hx
    · rcases (calls_told s stop (hc stop (by simp [hcmds]))).1 x hx with ⟨-, k, h6, h7⟩ | h6
      · obtain ⟨-, k', h8, h9⟩ := hstop
        rw [h6] at h8; cases h8; omega
      · exact h6
    · obtain ⟨ev, h6, h7⟩ := List.mem_filterMap.mp hx
      obtain ⟨c, h8, h9⟩ := List.mem_flatMap.mp h6
      rcases (calls_told s c (hc c (by simp [hcmds, h8]))).1 x (List.mem_filterMap.mpr ⟨ev, h9, h7⟩) with h10 | h10
      · exact absurd h10 (hlater c h8)
      · exact h10
  have h6 := (calls_told s stop (hc stop (by simp [hcmds]))).2 hstop
  intro v hv
  unfold lastTold at hv
  have h7 : toldBy s'.trace = toldBy s.trace ++ toldBy evs := by rw [← h3]; simp [toldBy]
  rw [h7, h4, ← List.append_assoc, List.getLast?_append] at hv
  cases hg : (toldBy (stop.calls s) ++ toldBy (later.flatMap (Command.calls s))).getLast? with
  | none =>
    have := List.append_eq_nil_iff.mp (List.getLast?_eq_none_iff.mp hg)
    exact absurd this.1 h6
  | some x =>
    rw [hg] at hv
    simp only [Option.some_or, Option.map_some, Option.some.injEq] at hv
    rw [← hv]
    exact h5 x (List.mem_of_getLast? hg)

/-! ### What is not so -/

theorem single_execute {e : Env} {s s' : Rx} {now : Int} {rand : Nat} (h : s.run e [.execute now rand] = .ok s') :
    ∃ ret, s.execute e now rand = .ok (s', ret) := by
  simp only [Rx.run, Rx.step, bind_eq_ok, pure_eq_ok, Except.ok.injEq] at h
  obtain ⟨z, ⟨⟨y, ret⟩, h1, rfl⟩, rfl⟩ := h
  exact ⟨ret, h1⟩

/-- **C105** "A locomotive starts only if the data of a packet say so" is false: a packet with only the first byte of
a command for 126 speed steps, `03 3F` and check byte `3C`, makes locomotive 3 run, since the check byte is taken for
the speed. -/
theorem C105_check_byte_false : ¬ ∀ (e : Env) (s s' : Rx) (now : Int) (rand : Nat) (ret : Bool), Reachable e s →
    s.execute e now rand = .ok (s', ret) → Standing s.trace → ¬ Standing s'.trace →
    ∃ n bs c, Obeys s n bs ∧ speedCode bs.dropLast = some c ∧ 2 ≤ c := by
  intro h
  have key : holdsAfter (({} : Rx).run exampleEnv (.init :: hears [3#8, 0x3F#8, 0x3C#8])) (fun s =>
      decide (front s = some [3#8, 0x3F#8, 0x3C#8] ∧ Standing s.trace) &&
      holdsAfter (s.run exampleEnv [.execute 0 0]) (fun s' => decide (¬ Standing s'.trace))) = true := by
    decide +kernel
  obtain ⟨s, h1, h2⟩ := holdsAfter_ok key
  rw [Bool.and_eq_true] at h2
  obtain ⟨h3, h4⟩ := of_decide_eq_true h2.1
  obtain ⟨s', h5, h6⟩ := holdsAfter_ok h2.2
  obtain ⟨ret, h7⟩ := single_execute h5
  obtain ⟨n, bs, c, ⟨p, h8, -, -, -, rfl⟩, h9, -⟩ :=
    h exampleEnv s s' 0 0 ret (.of_run h1) h7 h4 (of_decide_eq_true h6)
  rw [h3] at h8
  cases h8
  have h10 : speedCode (afterAddress [3#8, 0x3F#8, 0x3C#8]).dropLast = none := by decide
  rw [h10] at h9
  cases h9

/-- **C105** "A stop to everyone stops every locomotive" is false in service mode: the packet is ignored and service
mode is not left.  A running locomotive gets there by a reset packet to everyone. -/
theorem C105_service_mode_false : ¬ ∀ (e : Env) (s s' : Rx) (p : Packet) (now : Int) (rand : Nat) (ret : Bool),
    Reachable e s → front s = some p → locoNumber p = some 0 → speedCode (afterAddress p).dropLast = some 0 →
    s.execute e now rand = .ok (s', ret) → Standing s'.trace := by
  intro h
  have key : holdsAfter (({} : Rx).run exampleEnv (.init :: (told [3#8, 0x3F#8, 0x86#8, 0xBA#8] ++
        told [0#8, 0#8, 0#8] ++ hears [0#8, 0x3F#8, 0x80#8, 0xBF#8]))) (fun s =>
      decide (front s = some [0#8, 0x3F#8, 0x80#8, 0xBF#8]) &&
      holdsAfter (s.run exampleEnv [.execute 0 0]) (fun s' => decide (¬ Standing s'.trace))) = true := by
    decide +kernel
  obtain ⟨s, h1, h2⟩ := holdsAfter_ok key
  rw [Bool.and_eq_true] at h2
  obtain ⟨s', h5, h6⟩ := holdsAfter_ok h2.2
  obtain ⟨ret, h7⟩ := single_execute h5
  exact of_decide_eq_true h6 (h exampleEnv s s' _ 0 0 ret (.of_run h1) (of_decide_eq_true h2.1) (by decide)
    (by decide) h7)

/-- **C105** "A reset packet to everyone stops every locomotive" is false: it tells no speed. -/
theorem C105_reset_false : ¬ ∀ (e : Env) (s s' : Rx) (now : Int) (rand : Nat) (ret : Bool), Reachable e s →
    front s = some [0#8, 0#8, 0#8] → s.serviceMode = false → s.execute e now rand = .ok (s', ret) →
    Standing s'.trace := by
  intro h
  have key : holdsAfter (({} : Rx).run exampleEnv (.init :: (told [3#8, 0x3F#8, 0x86#8, 0xBA#8] ++
        hears [0#8, 0#8, 0#8]))) (fun s =>
      decide (front s = some [0#8, 0#8, 0#8] ∧ s.serviceMode = false) &&
      holdsAfter (s.run exampleEnv [.execute 0 0]) (fun s' => decide (¬ Standing s'.trace))) = true := by
    decide +kernel
  obtain ⟨s, h1, h2⟩ := holdsAfter_ok key
  rw [Bool.and_eq_true] at h2
  obtain ⟨h3, h4⟩ := of_decide_eq_true h2.1
  obtain ⟨s', h5, h6⟩ := holdsAfter_ok h2.2
  obtain ⟨ret, h7⟩ := single_execute h5
  exact of_decide_eq_true h6 (h exampleEnv s s' 0 0 ret (.of_run h1) h3 h4 h7)

/-- CVs with 14 speed steps. -/
def steps14Cvs (cv : BitVec 32) : Byte := if cv = 28#32 then 0x08#8 else exampleCvs cv

/-- **C105** "A stop to everyone switches no functions" is false: with 14 speed steps it switches the light of every
locomotive. -/
theorem C105_light_false : ¬ ∀ (e : Env) (s s' : Rx) (bs : List Byte) (now : Int) (rand : Nat) (ret : Bool),
    Reachable e s → Obeys s 0 bs → speedCode bs = some 0 → s.execute e now rand = .ok (s', ret) →
    ∀ a mask state, Event.function a mask state ∉ newCalls s s' := by
  intro h
  have key : holdsAfter (({} : Rx).run (memEnv steps14Cvs) (.init :: (told [3#8, 0x72#8, 0x71#8] ++
        hears [0#8, 0x40#8, 0x40#8]))) (fun s =>
      decide (front s = some [0#8, 0x40#8, 0x40#8] ∧ s.serviceMode = false) &&
      holdsAfter (s.run (memEnv steps14Cvs) [.execute 0 0]) (fun s' =>
        decide (Event.function 0#16 1#32 0#32 ∈ newCalls s s'))) = true := by
    decide +kernel
  obtain ⟨s, h1, h2⟩ := holdsAfter_ok key
  rw [Bool.and_eq_true] at h2
  obtain ⟨h3, h4⟩ := of_decide_eq_true h2.1
  obtain ⟨s', h5, h6⟩ := holdsAfter_ok h2.2
  obtain ⟨ret, h7⟩ := single_execute h5
  exact h _ s s' _ 0 0 ret (.of_run h1) ⟨_, h3, h4, rfl, .inl rfl, rfl⟩ (by decide) h7 _ _ _
    (of_decide_eq_true h6)

/-! ### Examples -/

/-- Locomotive 3 runs and stops with a stop to everyone; the other two packets neither start nor stop it. -/
def startAndStop : List RxOp := .init :: (told [3#8, 0x3F#8, 0x86#8, 0xBA#8] ++ told [3#8, 0x91#8, 0x92#8])

example : holdsAfter (({} : Rx).run exampleEnv startAndStop) (fun s =>
      decide (¬ Standing s.trace ∧ lastTold s.trace = some 10) &&
      holdsAfter (s.run exampleEnv (hears [0#8, 0x3F#8, 0x80#8, 0xBF#8])) (fun z =>
        decide (front z = some [0#8, 0x3F#8, 0x80#8, 0xBF#8] ∧ z.serviceMode = false ∧
          speedCode (afterAddress [0#8, 0x3F#8, 0x80#8, 0xBF#8]) = some 0) &&
        holdsAfter (z.run exampleEnv [.execute 0 0]) (fun s' =>
          decide (Standing s'.trace ∧ toldBy (newCalls z s') = [(0#16, 0)])))) = true := by decide +kernel

example : holdsAfter (({} : Rx).run exampleEnv startAndStop) (fun s =>
      holdsAfter (s.run exampleEnv (told [0#8, 0x41#8, 0x41#8])) (fun s' =>
        decide (Standing s'.trace ∧ lastTold s'.trace = some (-1)))) = true := by decide +kernel

/-- The hypotheses of `C105_track`: the command is a stop to everyone, the decoder ran before. -/
example :
    (match ({ s := {} } : TxHist).run 4 (.init {} :: .bytes [0#8, 0x3F#8, 0x80#8, 0xBF#8] :: List.replicate 96 .transmit) with
    | .ok h0 =>
      (match h0.run 4 (List.replicate 487 .transmit),
          ({} : Rx).run exampleEnv (.init :: told [3#8, 0x3F#8, 0x86#8, 0xBA#8]) with
      | .ok h, .ok s =>
        let xs := exampleSchedule (exactTimes none true [] h.out)
        decide (h0.s.size 4 = 0 ∧ (h0.s.size 4 + 1) * longest + (0 + 1) * idling < 487 ∧
          s.deque = [] ∧ s.link.state = .preamble ∧ s.link.bitCount ≤ 18 ∧ s.serviceMode = false ∧
          ¬ Standing s.trace ∧ Attended 6085 0 0 0 xs) &&
        decide (Lasting 0 ((crossings none true [] h.out).map List.sum) xs) &&
        decide (Measured (crossings none true [] h.out) (recvTimes (calls xs))) &&
        holdsAfter (s.run exampleEnv (calls xs)) (fun s' => decide (Standing s'.trace))
      | _, _ => false)
    | _ => false) = true := by decide +kernel

example : (Command.mk { value := 0, type := .broadcast } (.advancedSpeed 0x80#8)).Legal ∧
    ∀ s, (Command.mk { value := 0, type := .broadcast } (.advancedSpeed 0x80#8)).Stops s :=
  ⟨⟨.inl ⟨rfl, rfl⟩, trivial⟩, fun _ => ⟨.inl rfl, 0, rfl, by decide⟩⟩

end Dcc
