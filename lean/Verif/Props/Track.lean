import Verif.Lemmas.RxHeard
import Verif.Props.Throttle
/-! A decoder that measures the signal on the track instead of being told the durations: C77. -/
namespace Dcc
open Spec

/-! ### C77 -/

/-- **C77** A command station never changes `invert`.  A decoder waiting for a preamble, with at most 18
half ones counted, has an input that sees the polarity (`off = none`) or one of the two wires, and
`receive` gets the time between two changes.  Each half bit may be measured as anything within the
limits of RCN-210; a time that includes (part of) a cutout or what was `before` may be anything.  Then
what arrives in the receive queue are exactly the packets sent, in order, without logon packets: all
those before the current packet `c`, and `c` itself as soon as its cutout has begun. -/
theorem C77_track_to_decoder (n : Nat) (cfg : TxConfig) (txOps : List TxOp) (h : TxHist)
    (ht : ({ s := {} } : TxHist).run n (.init cfg :: txOps) = .ok h)
    (hinv : ∀ c, .init c ∈ txOps → c.invert = cfg.invert) (hv : ∀ a ∈ h.acc, ValidPacket a.2)
    (e : Env) (s s' : Rx) (hr : Reachable e s) (hs : s.link.state = .preamble)
    (hb : s.link.bitCount ≤ 18) (ops : List RxOp) (ho : s.run e ops = .ok s') (hd : .disable ∉ ops)
    (hf : NeverFull e s ops) (off : Option Bool) (seen : Bool) (before : List Nat)
    (htimes : Measured (crossings off seen before h.out) (recvTimes ops)) :
    ∃ (sent : List (Spec.Segment × Packet)) (c : Spec.Segment × Packet) (rest : List Packet),
      h.out = (sent ++ [c]).flatMap (fun g => g.1.outs) ∧
      (∀ g ∈ sent ++ [c], g.1.Ok Spec.ValidConfig ∧
        ((g.1.frame = none ∧ g.2 = [0xFF#8, 0x00#8, 0xFF#8]) ∨
          ∃ c, (c, g.2) ∈ h.acc ∧ g.1.frame = some (Spec.packetWave c g.2))) ∧
      (∀ g ∈ sent, g.1.Complete Spec.ValidConfig) ∧
      h.acc.map (·.2) = ((sent ++ [c]).filter (·.1.frame.isSome)).map (·.2) ++ rest ∧
      arrivals e s ops =
        (sent.map (·.2) ++ if c.1.cut.isEmpty then [] else [c.2]).filter (fun p => !isLogon p) := by
  obtain ⟨gs, c, rest, l', os, h1, h2, h3, h4, _, _, h5, h6, -⟩ := station_heard n cfg txOps h ht hinv hv off seen
    before _ htimes s.link (hr.recvInv.link.synced hs) hb
  obtain ⟨os', h7, h8⟩ := run_interleaved e ops s s' ho hd hf
  rw [h5] at h7
  cases h7
  exact ⟨gs, c, rest, h1, h2, h3, h4, by rw [h8, h6]⟩

/-- The packets a measuring receiver gets from a station that only accepted packets of requests. -/
theorem heard_sent {C : Type} (pk : C → R Packet) (n : Nat) (cfg : TxConfig) (txOps : List TxOp) (h : TxHist)
    (ht : ({ s := {} } : TxHist).run n (.init cfg :: txOps) = .ok h)
    (hinv : ∀ c, .init c ∈ txOps → c.invert = cfg.invert) (cmds : List C)
    (hc : ∀ c ∈ cmds, ∀ p, pk c = .ok p → ValidPacket p)
    (hacc : h.acc.map (fun a => Except.ok a.2) = cmds.map pk)
    (off : Option Bool) (seen : Bool) (before ts : List Nat)
    (hm : Measured (crossings off seen before h.out) ts) (l : Link) (hl : l.Synced)
    (hb : l.bitCount ≤ 18) :
    ∃ (items : List (Option C)) (unsent : List C) (l' : Link) (os : List LinkOut),
      l.run ts = .ok (l', os) ∧ items.map (sentAs pk) = (packetsOf os).map .ok ∧
      cmds = items.filterMap id ++ unsent ∧
      (unsent.length = h.s.size n ∨ unsent.length = h.s.size n + 1 ∧ h.s.bidiCount = 0) := by
  obtain ⟨gs, c, rest, l', os, _, hok, _, h2, hrest, hcut, h4, h5, -⟩ := station_heard n cfg txOps h ht hinv
    (accepted_valid hc hacc) off seen before ts hm l hl hb
  obtain ⟨items, unsent, h6, h7, h8⟩ := track_items (n := n) hacc hok h2 hrest (!c.1.cut.isEmpty)
  refine ⟨items, unsent, l', os, h4, ?_, h7, ?_⟩
  · rw [h6, h5]
    cases c.1.cut <;> simp
  · rcases h8 with h8 | ⟨h8, h9⟩
    · exact .inl h8
    · refine .inr ⟨h8, ?_⟩
      rw [← hcut]
      cases hx : c.1.cut
      · rfl
      · rw [hx] at h9; cases h9

/-- The packets a measuring receiver gets from a station that only accepted commands. -/
theorem heard_items (n : Nat) (cfg : TxConfig) (txOps : List TxOp) (h : TxHist)
    (ht : ({ s := {} } : TxHist).run n (.init cfg :: txOps) = .ok h)
    (hinv : ∀ c, .init c ∈ txOps → c.invert = cfg.invert) (cmds : List Command)
    (hc : ∀ c ∈ cmds, c.Legal)
    (hacc : h.acc.map (fun a => Except.ok a.2) = cmds.map Command.packet)
    (off : Option Bool) (seen : Bool) (before ts : List Nat)
    (hm : Measured (crossings off seen before h.out) ts) (l : Link) (hl : l.Synced)
    (hb : l.bitCount ≤ 18) :
    ∃ (items : List Item) (unsent : List Command) (l' : Link) (os : List LinkOut),
      l.run ts = .ok (l', os) ∧ items.map Item.packet = (packetsOf os).map .ok ∧
      cmds = items.filterMap id ++ unsent ∧
      (unsent.length = h.s.size n ∨ unsent.length = h.s.size n + 1 ∧ h.s.bidiCount = 0) := by
  rw [Item.packet_sentAs]
  exact heard_sent Command.packet n cfg txOps h ht hinv cmds (fun c hm p hp => Command.valid (hc c hm) hp) hacc
    off seen before ts hm l hl hb

/-- **C77** From the throttle to the motor over the track signal: as C75, but `receive` gets measured
times.  Unsent are the commands in the station's queue and at most the one being sent; once its cutout
has begun that one has arrived, too. -/
theorem C77_throttle_to_motor (n : Nat) (cfg : TxConfig) (txOps : List TxOp) (h : TxHist)
    (ht : ({ s := {} } : TxHist).run n (.init cfg :: txOps) = .ok h)
    (hinv : ∀ c, .init c ∈ txOps → c.invert = cfg.invert) (cmds : List Command)
    (hc : ∀ c ∈ cmds, c.Legal)
    (hacc : h.acc.map (fun a => Except.ok a.2) = cmds.map Command.packet)
    (e : Env) (s s' : Rx) (hr : Reachable e s) (hready : Ready e s) (hb : s.link.bitCount ≤ 18)
    (ops : List RxOp) (ho : s.run e ops = .ok s') (hi : .init ∉ ops) (hd : .disable ∉ ops)
    (hf : NeverFull e s ops) (off : Option Bool) (seen : Bool) (before : List Nat)
    (htimes : Measured (crossings off seen before h.out) (recvTimes ops)) :
    ∃ done waiting unsent : List Command, cmds = done ++ waiting ++ unsent ∧
      drivingCalls s s' = done.flatMap (Command.calls s) ∧
      waiting.map Command.packet = (s'.deque.filter (· ≠ idleBytes)).map .ok ∧
      (unsent.length = h.s.size n ∨ unsent.length = h.s.size n + 1 ∧ h.s.bidiCount = 0) := by
  obtain ⟨items, unsent, l', os, h1, h2, rfl, h4⟩ := heard_items n cfg txOps h ht hinv cmds hc hacc off seen
    before _ htimes s.link (hr.recvInv.link.synced hready.waiting) hb
  obtain ⟨i1, i2, rfl, h5, h6⟩ := drive_items hr hready ho hi hd hf (by
    rintro i hm c rfl
    exact hc c (List.mem_append_left _ (List.mem_filterMap.mpr ⟨_, hm, rfl⟩))) h1 h2
  exact ⟨i1.filterMap id, i2.filterMap id, unsent, by simp, h5, h6, h4⟩

/-- **C77** Without a fault as a hypothesis, for a main loop that calls `execute` after every call of
`receive`: nothing faults, and all commands but those in the station, and one whose end was measured
last, are done. -/
theorem C77_main_loop (n : Nat) (cfg : TxConfig) (txOps : List TxOp) (h : TxHist)
    (ht : ({ s := {} } : TxHist).run n (.init cfg :: txOps) = .ok h)
    (hinv : ∀ c, .init c ∈ txOps → c.invert = cfg.invert) (cmds : List Command)
    (hc : ∀ c ∈ cmds, c.Legal)
    (hacc : h.acc.map (fun a => Except.ok a.2) = cmds.map Command.packet)
    (e : Env) (hroom : 2 ≤ e.rxDeque) (s : Rx) (hr : Reachable e s) (hready : Ready e s)
    (hb : s.link.bitCount ≤ 18) (xs : List (Nat × Nat × Int × Nat)) (off : Option Bool) (seen : Bool)
    (before : List Nat) (htimes : Measured (crossings off seen before h.out) (xs.map (·.1))) :
    ∃ s', s.run e (polled xs) = .ok s' ∧
      ∃ done waiting unsent : List Command, cmds = done ++ waiting ++ unsent ∧
        drivingCalls s s' = done.flatMap (Command.calls s) ∧
        waiting.length ≤ (if s'.packetEnd then 1 else 0) ∧
        (unsent.length = h.s.size n ∨ unsent.length = h.s.size n + 1 ∧ h.s.bidiCount = 0) := by
  obtain ⟨hf, hend⟩ := polled_neverFull e hroom xs s hr (by simp [hready.deque])
    (fun _ => hready.deque)
  have htm : recvTimes (polled xs) = xs.map (·.1) := by
    clear hf hend htimes
    induction xs with
    | nil => rfl
    | cons x xs ih =>
      have : recvTimes (polled (x :: xs)) = x.1 :: recvTimes (polled xs) := rfl
      rw [this, ih]; rfl
  have hops : ∀ op ∈ polled xs, op.isReceive = true ∨ op.isExecute = true := by
    intro op hop
    unfold polled at hop
    obtain ⟨x, _, hop⟩ := List.mem_flatMap.mp hop
    simp only [List.mem_cons, List.not_mem_nil, or_false] at hop
    rcases hop with rfl | rfl
    · exact .inl rfl
    · exact .inr rfl
  rw [← htm] at htimes
  obtain ⟨items, unsent, l', os, h1, h2, h3, _⟩ := heard_items n cfg txOps h ht hinv cmds hc hacc off seen
    before _ htimes s.link (hr.recvInv.link.synced hready.waiting) hb
  obtain ⟨s', ho⟩ := drive_total e (polled xs) s l' os hr hready.mode hops hf h1 (by
    intro p hp
    rw [hready.deque, List.nil_append] at hp
    have : (Except.ok p : R Packet) ∈ (packetsOf os).map .ok := List.mem_map_of_mem hp
    rw [← h2] at this
    obtain ⟨i, hm, hip⟩ := List.mem_map.mp this
    refine ⟨i, ?_, hip⟩
    rintro c rfl
    refine hc c ?_
    rw [h3]
    exact List.mem_append_left _ (List.mem_filterMap.mpr ⟨_, hm, rfl⟩))
  have hno : ∀ op, op.isReceive = false → op.isExecute = false → op ∉ polled xs := by
    intro op h5 h6 hm
    rcases hops op hm with h | h
    · rw [h5] at h; cases h
    · rw [h6] at h; cases h
  obtain ⟨done, waiting, uns, h4, h5, h6, h7⟩ := C77_throttle_to_motor n cfg txOps h ht hinv cmds hc hacc e s
    s' hr hready hb (polled xs) ho (hno _ rfl rfl) (hno _ rfl rfl) hf off seen before htimes
  refine ⟨s', ho, done, waiting, uns, h4, h5, ?_, h7⟩
  obtain ⟨h8, h9⟩ := hend s' ho
  have hlen : waiting.length ≤ s'.deque.length := by
    have := congrArg List.length h6
    simp only [List.length_map] at this
    rw [this]
    exact List.length_filter_le _ _
  cases hpe : s'.packetEnd
  · rw [h9 hpe] at hlen; simpa using hlen
  · simp only [if_true]; omega

/-- **C77** Times measured with an error of at most 4 µs are good enough. -/
theorem C77_error_4us (off : Option Bool) (seen : Bool) (before ts : List Nat) (outs : List TxOut)
    (h : Within 4 (crossings off seen before outs) ts) : Measured (crossings off seen before outs) ts :=
  within_measured _ ts h

/-- Measured without any error. -/
def exactTimes (off : Option Bool) (seen : Bool) (before : List Nat) (outs : List TxOut) : List Nat :=
  (crossings off seen before outs).map List.sum

/-- The cutout and the half bit after it, for each kind of input. -/
example : crossings none true [] (wholeOuts {} none ++ wholeOuts {} none) =
      List.map ([·]) (idleWave) ++ [29, 51, 113, 261, 17, 58] :: List.map ([·]) idleWave.tail ∧
    crossings (some false) true [] (wholeOuts {} none ++ wholeOuts {} none) =
      List.map ([·]) (idleWave) ++ [29] :: [51, 113, 261, 17] :: List.map ([·]) idleWave ++ [[29]] ∧
    crossings (some true) true [] (wholeOuts {} none ++ wholeOuts {} none) =
      List.map ([·]) (idleWave) ++ [29, 51, 113, 261, 17, 58] :: List.map ([·]) idleWave.tail := by
  decide +kernel

/-- The times are measured with errors of -4 to 4 µs in turn. -/
def shaky (ts : List Nat) : List Nat := ts.zipIdx.map fun x => x.1 + x.2 % 9 - 4

/-- The station and the commands of C75, for each kind of input. -/
example : ∀ off ∈ [none, some false, some true], ∀ seen ∈ [false, true],
    (match ({ s := {} } : TxHist).run 4 exampleStation, ({} : Rx).run exampleEnv [.init] with
    | .ok h, .ok s =>
      decide (s.serviceMode = false ∧ s.deque = [] ∧ s.link.state = .preamble ∧ s.link.bitCount ≤ 18 ∧
        Measured (crossings off seen [1000, 1000] h.out) (shaky (exactTimes off seen [1000, 1000] h.out))) &&
      (match s.run exampleEnv (polled ((shaky (exactTimes off seen [1000, 1000] h.out)).map (·, 0, 0, 0))) with
      | .ok s' => decide (drivingCalls s s' = exampleCommands.flatMap (Command.calls s))
      | .error _ => false)
    | _, _ => false) = true := by decide +kernel

example : Within 4 (crossings none true [] (packetOuts {} [58, 58, 100, 100])) [54, 62, 104] :=
  ⟨⟨by decide, by decide⟩, ⟨by decide, by decide⟩, ⟨by decide, by decide⟩, trivial⟩

/-- Executable check of a witness: the station accepts one packet, transmits all of it, and a decoder
measuring `ts` gets idle packets only. -/
def missed (txOps : List TxOp) (ts : List TxOut → List Nat) : Bool :=
  match ({ s := {} } : TxHist).run 4 txOps, ({} : Rx).run exampleEnv [.init] with
  | .ok h, .ok s =>
    decide (h.acc.map (·.2) = [[3#8, 0x3F#8, 0x86#8, 0xBA#8]] ∧ h.s.size 4 = 0 ∧ h.s.packet = none ∧
      s.serviceMode = false ∧ s.deque = [] ∧ s.link.state = .preamble ∧ s.link.bitCount = 0) &&
    (match s.run exampleEnv (recvOps ((ts h.out).map (·, 0))) with
    | .ok s' => decide (s'.deque ≠ [] ∧ ∀ p ∈ s'.deque, p = idleBytes)
    | .error _ => false)
  | _, _ => false

theorem missed_spec {txOps : List TxOp} {ts : List TxOut → List Nat} (h : missed txOps ts = true) :
    ∃ (t : TxHist) (s s' : Rx), ({ s := {} } : TxHist).run 4 txOps = .ok t ∧
      t.acc.map (·.2) = [[3#8, 0x3F#8, 0x86#8, 0xBA#8]] ∧ t.s.size 4 = 0 ∧ t.s.packet = none ∧
      Reachable exampleEnv s ∧ Ready exampleEnv s ∧ s.link.bitCount = 0 ∧
      s.run exampleEnv (recvOps ((ts t.out).map (·, 0))) = .ok s' ∧ ∀ p ∈ s'.deque, p = idleBytes := by
  unfold missed at h
  split at h
  · rename_i t s h1 h2
    rw [Bool.and_eq_true] at h
    obtain ⟨k1, k2⟩ := h
    split at k2
    · rename_i s' h3
      have k1 := of_decide_eq_true k1
      have k2 := of_decide_eq_true k2
      exact ⟨t, s, s', h1, k1.1, k1.2.1, k1.2.2.1, Reachable.run .start [.init] h2,
        ⟨k1.2.2.2.1, k1.2.2.2.2.1, by decide, k1.2.2.2.2.2.1⟩, k1.2.2.2.2.2.2, h3, k2.2⟩
    · cases k2
  · cases h

theorem within_add (err : Nat) (gs : List (List Nat)) : Within err gs (gs.map fun g => g.sum + err) := by
  induction gs with
  | nil => trivial
  | cons g gs ih => exact ⟨⟨by simp only; omega, Nat.le_refl _⟩, ih⟩

/-- **C77** An error of 5 µs is too much: with half ones of 60 µs measured as 65 µs a packet the
station accepted and sent does not arrive. -/
theorem C77_error_5us_false : ∃ (txOps : List TxOp) (h : TxHist) (ts : List Nat) (s s' : Rx),
    ({ s := {} } : TxHist).run 4 txOps = .ok h ∧ (∀ c, .init c ∈ txOps → c.invert = false) ∧
    h.acc.map (·.2) = [[3#8, 0x3F#8, 0x86#8, 0xBA#8]] ∧ h.s.size 4 = 0 ∧ h.s.packet = none ∧
    Within 5 (crossings none true [] h.out) ts ∧ Reachable exampleEnv s ∧ Ready exampleEnv s ∧
    s.link.bitCount = 0 ∧ s.run exampleEnv (recvOps (ts.map (·, 0))) = .ok s' ∧
    ∀ p ∈ s'.deque, p = idleBytes := by
  obtain ⟨h, s, s', h1, h2, h3, h4, h5, h6, h7, h8, h9⟩ := missed_spec
    (txOps := .init { bit1 := 60#8 } :: .bytes [3#8, 0x3F#8, 0x86#8, 0xBA#8] :: List.replicate 320 .transmit)
    (ts := fun outs => (crossings none true [] outs).map fun g => g.sum + 5) (by decide +kernel)
  refine ⟨_, h, _, s, s', h1, ?_, h2, h3, h4, within_add 5 _, h5, h6, h7, h8, h9⟩
  intro c hc
  simp only [List.mem_cons, TxOp.init.injEq, reduceCtorEq, List.mem_replicate, and_false, or_false] at hc
  rw [hc]

/-- **C77** `invert` has to stay as it is: changed in the middle of a packet, two half bits of the same
polarity follow each other, and a packet the station accepted and sent does not arrive, even if the
times are measured exactly. -/
theorem C77_invert_false : ∃ (txOps : List TxOp) (h : TxHist) (ts : List Nat) (s s' : Rx),
    ({ s := {} } : TxHist).run 4 txOps = .ok h ∧
    h.acc.map (·.2) = [[3#8, 0x3F#8, 0x86#8, 0xBA#8]] ∧ h.s.size 4 = 0 ∧ h.s.packet = none ∧
    ts = exactTimes none true [] h.out ∧ Reachable exampleEnv s ∧ Ready exampleEnv s ∧
    s.link.bitCount = 0 ∧ s.run exampleEnv (recvOps (ts.map (·, 0))) = .ok s' ∧
    ∀ p ∈ s'.deque, p = idleBytes := by
  obtain ⟨h, s, s', h1, h2, h3, h4, h5, h6, h7, h8, h9⟩ := missed_spec
    (txOps := .init {} :: .bytes [3#8, 0x3F#8, 0x86#8, 0xBA#8] :: List.replicate 150 .transmit ++
      .init { invert := true } :: List.replicate 170 .transmit)
    (ts := exactTimes none true []) (by decide +kernel)
  exact ⟨_, h, _, s, s', h1, h2, h3, h4, rfl, h5, h6, h7, h8, h9⟩

end Dcc
