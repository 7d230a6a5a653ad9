import Verif.Lemmas.TxDelay
import Verif.Props.Settle
/-! No command waits longer than the packets in front of it: C109. -/
namespace Dcc
open Spec

/-! ### C109 -/

/-- Commands among items and packets that are no idle packets. -/
theorem items_count (items : List Item) : ∀ ps : List Packet, (∀ i ∈ items, Item.Legal i) →
    items.map Item.packet = ps.map .ok → (items.filterMap id).length = (ps.filter (· ≠ idleBytes)).length := by
  induction items with
  | nil => intro ps _ h; cases ps with
    | nil => rfl
    | cons p ps => simp at h
  | cons i is ih =>
    intro ps hl h
    cases ps with
    | nil => simp at h
    | cons p ps =>
      simp only [List.map_cons, List.cons.injEq] at h
      have := ih ps (fun i hm => hl i (by simp [hm])) h.2
      cases i with
      | none =>
        have hp : p = idleBytes := by
          have : (Except.ok idleBytes : R Packet) = .ok p := h.1
          cases this; rfl
        rw [List.filter_cons_of_neg (by simp [hp])]
        simpa using this
      | some c =>
        have hp : p ≠ idleBytes := Command.not_idle (hl (some c) (by simp) c rfl) h.1
        rw [List.filter_cons_of_pos (by simpa using hp), List.filterMap_cons_some (f := id) rfl, List.length_cons,
          List.length_cons, this]

/-- The packets a measuring receiver gets: those the station had accepted in `h1` are among them, and `k` packets
come after them. -/
theorem heard_in_time (n : Nat) (cfg : TxConfig) (txOps more : List TxOp) (h1 h : TxHist)
    (ht1 : ({ s := {} } : TxHist).run n (.init cfg :: txOps) = .ok h1) (ht : h1.run n more = .ok h)
    (hinv : ∀ c, .init c ∈ txOps ++ more → c.invert = cfg.invert) (long k : Nat) (hi : idleWave.sum + 471 ≤ long)
    (hlong : ∀ a ∈ h.acc, (packetWave a.1 a.2).sum + 471 ≤ long)
    (hk : (h1.s.size n + k + 1) * long < lasting (h.out.drop h1.out.length)) (cmds : List Command)
    (hc : ∀ c ∈ cmds, c.Legal) (hacc : h.acc.map (fun a => Except.ok a.2) = cmds.map Command.packet)
    (off : Option Bool) (seen : Bool) (before ts : List Nat)
    (hts : Measured (crossings off seen before h.out) ts) (l : Link) (hl : l.Synced) (hb : l.bitCount ≤ 18) :
    ∃ (items : List Item) (unsent : List Command) (l' : Link) (os : List LinkOut) (front back : List Packet),
      l.run ts = .ok (l', os) ∧ items.map Item.packet = (packetsOf os).map .ok ∧
      cmds = items.filterMap id ++ unsent ∧ packetsOf os = front ++ back ∧ k ≤ back.length ∧
      h1.acc.length ≤ (front.filter (· ≠ idleBytes)).length := by
  obtain ⟨⟨done1, cur1, i1⟩, -⟩ := station_inv n cfg txOps h1 ht1 fun c hx => hinv c (List.mem_append_left _ hx)
  have hall := TxHist.run_append (.init cfg :: txOps) more ht1
  rw [ht, List.cons_append] at hall
  have hvc := run_init_valid _ hall
  have hops : OpsConfig (fun c => ValidConfig c ∧ c.invert = cfg.invert) more :=
    fun c hx => ⟨hvc c (by simp [hx]), hinv c (List.mem_append_right _ hx)⟩
  obtain ⟨-, hstart⟩ := station_inv n cfg (txOps ++ more) h hall hinv
  obtain ⟨done, cur, sent, after, i, hdone, hafter, hsent⟩ := i1.in_time more hops ht long k hi hlong hk
  have hvp : ∀ c ∈ cmds, ∀ p, c.packet = .ok p → ValidPacket p := fun c hm p hp => Command.valid (hc c hm) hp
  obtain ⟨gs, c, rest, l', os, hgs, hcur, -, hok, -, h2, hrest, -, h4, h5, -⟩ := inv_heard i hstart
    (accepted_valid hvp hacc) off seen before ts hts l hl hb
  obtain ⟨items, unsent, h6, h7, -⟩ := track_items (n := n) hacc hok h2 hrest (!c.1.cut.isEmpty)
  have h5' : packetsOf os = gs.map (·.2) ++ if (!c.1.cut.isEmpty) = true then [c.2] else [] := by
    rw [h5]
    cases c.1.cut.isEmpty <;> rfl
  rw [← h5', ← Item.packet_sentAs] at h6
  rw [hdone] at hgs
  obtain ⟨g1, g2, rfl, hg1, hg2⟩ := List.map_eq_append_iff.mp hgs
  refine ⟨items, unsent, l', os, g1.map (·.2), g2.map (·.2) ++ (if c.1.cut.isEmpty then [] else [c.2]), h4, h6, h7,
    by rw [h5]; simp, ?_, ?_⟩
  · rw [List.length_append, List.length_map, ← List.length_map (as := g2) (f := (·.1)), hg2]
    omega
  · refine Nat.le_trans hsent ?_
    rw [← hg1]
    have hg : ∀ g ∈ g1, g.1.frame.isSome → g.2 ≠ idleBytes := by
      intro g hm hs
      rcases (hok g (by simp [hm])).2 with ⟨hn, _⟩ | ⟨c', hm', _⟩
      · rw [hn] at hs; cases hs
      · have : (Except.ok g.2 : R Packet) ∈ cmds.map Command.packet := by
          rw [← hacc]; exact List.mem_map.mpr ⟨_, hm', rfl⟩
        obtain ⟨cm, hcm, hp⟩ := List.mem_map.mp this
        exact Command.not_idle (hc cm hcm) hp
    clear hg1 hgs h5 h5' h2 hok
    induction g1 with
    | nil => simp
    | cons g g1 ih =>
      have h8 := ih fun x hx => hg x (by simp [hx])
      have h9 := hg g (by simp)
      simp only [List.map_cons]
      cases hf : g.1.frame with
      | none =>
        rw [List.filterMap_cons_none hf]
        refine Nat.le_trans h8 ?_
        rw [List.filter_cons]
        split <;> simp
      | some v =>
        rw [List.filterMap_cons_some hf, List.filter_cons_of_pos (by simpa using h9 (by simp [hf]))]
        simpa using h8

/-- **C109** Whatever a command station is asked for afterwards, the packets it has accepted until `h1` have all been
sent whole once the time of as many packets as there were in the queue and one more is over.  `long` is the time
in µs of the longest packet with its cutout. -/
theorem C109_sent (n : Nat) (txOps more : List TxOp) (cfg : TxConfig) (h1 h : TxHist)
    (ht1 : ({ s := {} } : TxHist).run n (.init cfg :: txOps) = .ok h1) (ht : h1.run n more = .ok h) (long : Nat)
    (hi : idleWave.sum + 471 ≤ long) (hlong : ∀ a ∈ h.acc, (packetWave a.1 a.2).sum + 471 ≤ long)
    (hk : (h1.s.size n + 1) * long < lasting (h.out.drop h1.out.length)) :
    ∃ done cur waiting, Describes ValidConfig h done cur waiting ∧
      h1.acc.length ≤ (done.filterMap Segment.frame).length := by
  have hall := TxHist.run_append (.init cfg :: txOps) more ht1
  rw [ht, List.cons_append] at hall
  have hvc := run_init_valid _ hall
  obtain ⟨done1, cur1, i1⟩ := TxInv.reachable_init cfg (hvc cfg (by simp)) txOps (fun c hm => hvc c (by simp [hm])) h1 ht1
  obtain ⟨done, cur, sent, after, i, rfl, _, hsent⟩ := i1.in_time more (fun c hm => hvc c (by simp [hm])) ht long 0 hi
    hlong (by simpa using hk)
  refine ⟨_, cur, _, ⟨i.out_eq, i.done_ok, i.cur_ok, i.acc_eq⟩, Nat.le_trans hsent ?_⟩
  rw [List.filterMap_append, List.length_append]
  omega

/-- **C109** The longest time: 30 preamble bits of 60 µs, 18 bytes of zeros of 114 µs, the end bit and the cutout take
41.1 ms.  A packet of at most `len` bytes takes at most `2 * (30 * 60 + 9 * len * 114 + 60) + 471` µs. -/
theorem C109_longest (c : TxConfig) (hc : ValidConfig c) (p : Packet) :
    (packetWave c p).sum + 471 ≤ 2 * (c.numPreamble.toNat * 60 + 9 * p.length * c.bit0.toNat + 60) + 471 ∧
    (packetWave c p).sum + 471 ≤ 2 * (30 * 60 + 9 * p.length * 114 + 60) + 471 := by
  obtain ⟨_, h2, _, h4, h5, h6⟩ := hc
  have hw : ∀ bits : List Bool, (wave c bits).sum ≤ 2 * bits.length * c.bit0.toNat := by
    intro bits
    induction bits with
    | nil => simp [wave]
    | cons b bits ih =>
      rw [wave] at ih ⊢
      rw [List.flatMap_cons, List.sum_append, List.length_cons, Nat.mul_add, Nat.add_mul]
      cases b <;> simp <;> omega
  have h1 : ∀ k, (wave c (List.replicate k true)).sum ≤ 2 * (k * 60) := by
    intro k
    induction k with
    | zero => simp [wave]
    | succ k ih =>
      rw [wave] at ih ⊢
      rw [List.replicate_succ, List.flatMap_cons, List.sum_append]
      simp
      omega
  have hb : (p.flatMap (fun b => false :: byteBits b)).length = 9 * p.length := by
    induction p with
    | nil => rfl
    | cons b p ih => rw [List.flatMap_cons, List.length_append, ih, List.length_cons]; simp [byteBits]; omega
  have hsum : (packetWave c p).sum ≤ 2 * (c.numPreamble.toNat * 60 + 9 * p.length * c.bit0.toNat + 60) := by
    have e : packetWave c p = wave c (List.replicate c.numPreamble.toNat true) ++
        wave c (p.flatMap (fun b => false :: byteBits b)) ++ wave c [true] := by
      simp [packetWave, frameBits, wave, List.flatMap_append]
    have a1 := h1 c.numPreamble.toNat
    have a2 := hw (p.flatMap (fun b => false :: byteBits b))
    have a3 := h1 1
    rw [hb, Nat.mul_assoc] at a2
    rw [e, List.sum_append, List.sum_append]
    simp only [List.replicate_one] at a3
    omega
  have hle : 9 * p.length * c.bit0.toNat ≤ 9 * p.length * 114 := Nat.mul_le_mul_left _ h6
  omega

example : ValidConfig { numPreamble := 30#8, bit1 := 60#8, bit0 := 114#8 } ∧
    (packetWave { numPreamble := 30#8, bit1 := 60#8, bit0 := 114#8 } (List.replicate 18 0x00#8)).sum + 471 = 41127 :=
  ⟨by unfold ValidConfig; decide, by decide +kernel⟩

/-- **C109** The decoder has done what a command asks for in time, whatever the station is asked for afterwards: as in
C83, with measured times and `execute` called often enough except for `spare` calls left out.  The commands accepted
until `h1` are done once the time of as many packets as there were in the queue and `spare + 2` more is over. -/
theorem C109_in_time (n w : Nat) (cfg : TxConfig) (txOps more : List TxOp) (h1 h : TxHist)
    (ht1 : ({ s := {} } : TxHist).run n (.init cfg :: txOps) = .ok h1) (ht : h1.run n more = .ok h)
    (hinv : ∀ c, .init c ∈ txOps ++ more → c.invert = cfg.invert) (long spare : Nat)
    (hi : idleWave.sum + 471 ≤ long) (hlong : ∀ a ∈ h.acc, (packetWave a.1 a.2).sum + 471 ≤ long)
    (hk : (h1.s.size n + spare + 2) * long < lasting (h.out.drop h1.out.length)) (hw : w ≤ shortest {})
    (hcfg : ∀ c, .init c ∈ .init cfg :: (txOps ++ more) → w ≤ shortest c) (cmds : List Command)
    (hc : ∀ c ∈ cmds, c.Legal) (hacc : h.acc.map (fun a => Except.ok a.2) = cmds.map Command.packet)
    (e : Env) (hroom : spare + 2 ≤ e.rxDeque) (s : Rx) (hr : Reachable e s) (hready : Ready e s)
    (hb : s.link.bitCount ≤ 18) (start edge period : Nat) (hp : period < w) (xs : List (Nat × RxOp))
    (off : Option Bool) (seen : Bool) (before : List Nat) (hsv : Attended period spare start start xs)
    (hl : Lasting edge ((crossings off seen before h.out).map List.sum) xs)
    (hops : ∀ op ∈ calls xs, op.isReceive = true ∨ op.isExecute = true)
    (htimes : Measured (crossings off seen before h.out) (recvTimes (calls xs))) :
    ∃ s' done rest, s.run e (calls xs) = .ok s' ∧ cmds = done ++ rest ∧
      drivingCalls s s' = done.flatMap (Command.calls s) ∧ h1.acc.length ≤ done.length := by
  have hall := TxHist.run_append (.init cfg :: txOps) more ht1
  rw [ht, List.cons_append] at hall
  have hno := only_calls hops
  have hsync := hr.recvInv.link.synced hready.waiting
  have hv : ∀ a ∈ h.acc, ValidPacket a.2 :=
    accepted_valid (fun c hm p hp => Command.valid (hc c hm) hp) hacc
  obtain ⟨hf, hlen⟩ := serving e w period hp xs s (some w) _ start start edge spare 0 (by omega) hr hsv hl
    (hno _ rfl rfl)
    (heard_spaced n w cfg _ h hall hinv hw hcfg hv off seen before _ htimes _ hsync hb _)
    (by simp [hready.deque]) (Nat.le_refl _) nofun (fun _ => .inr (by simp [hready.deque]))
    (.inl (by simp [hready.deque]))
  obtain ⟨items, unsent, l', os, front, back, h2, h3, h4, h5, h6, h7⟩ := heard_in_time n cfg txOps more h1 h ht1 ht hinv
    long (spare + 1) hi hlong hk cmds hc hacc off seen before _ htimes s.link hsync hb
  have hleg : ∀ i ∈ items, Item.Legal i := by
    rintro i hm c rfl
    exact hc c (h4 ▸ List.mem_append_left _ (List.mem_filterMap.mpr ⟨_, hm, rfl⟩))
  have hpk : ∀ p ∈ packetsOf os, ∃ i : Item, i.Legal ∧ i.packet = .ok p := by
    intro p hp
    have : (Except.ok p : R Packet) ∈ (packetsOf os).map .ok := List.mem_map_of_mem hp
    rw [← h3] at this
    obtain ⟨i, hm, hip⟩ := List.mem_map.mp this
    exact ⟨i, hleg i hm, hip⟩
  obtain ⟨s', ho⟩ := drive_total e (calls xs) s l' os hr hready.mode hops hf h2 (by
    intro p hp
    rw [hready.deque, List.nil_append] at hp
    exact hpk p hp)
  obtain ⟨i1, i2, rfl, h8, h9⟩ := drive_items hr hready ho (hno _ rfl rfl) (hno _ rfl rfl) hf hleg h2 h3
  obtain ⟨ex, hex⟩ := waiting_last hr hready ho (hno _ rfl rfl) hf h2 fun p hp =>
    let ⟨i, h5, h6⟩ := hpk p hp
    i.not_logon h5 h6
  have hcount := items_count _ _ hleg h3
  have hlen := hlen s' ho
  -- what waits came after the packets in question
  have hpre : front <+: ex := by
    have a1 : front <+: packetsOf os := ⟨back, h5.symm⟩
    have a2 : ex <+: packetsOf os := ⟨s'.deque, hex.symm⟩
    refine List.prefix_of_prefix_length_le a1 a2 ?_
    have a3 := congrArg List.length (hex.symm.trans h5)
    rw [List.length_append, List.length_append] at a3
    omega
  have h10 := congrArg List.length h9
  rw [List.length_map, List.length_map] at h10
  rw [List.filterMap_append, List.length_append, hex, List.filter_append, List.length_append, h10] at hcount
  refine ⟨s', i1.filterMap id, i2.filterMap id ++ unsent, ho, by rw [h4]; simp, h8, ?_⟩
  have h11 : (front.filter (· ≠ idleBytes)).length ≤ (ex.filter (· ≠ idleBytes)).length :=
    (hpre.sublist.filter _).length_le
  omega

example :
    (match ({ s := {} } : TxHist).run 4 [.init {}, .bytes [3#8, 0x3F#8, 0x86#8, 0xBA#8]] with
    | .ok h1 =>
      (match h1.run 4 (List.replicate 50 .transmit ++ [.bytes [3#8, 0x3F#8, 0x87#8, 0xBB#8]] ++
          List.replicate 400 .transmit), ({} : Rx).run exampleEnv [.init] with
      | .ok h, .ok s =>
        let xs := exampleSchedule (exactTimes none true [] h.out)
        decide (h1.s.size 4 = 1 ∧ h1.acc.length = 1 ∧ idleWave.sum + 471 ≤ 8415 ∧
          h.acc.map (fun a => (packetWave a.1 a.2).sum + 471) = [8415, 8247] ∧
          (h1.s.size 4 + 0 + 2) * 8415 < lasting (h.out.drop h1.out.length) ∧ Attended 6085 0 0 0 xs) &&
        decide (Lasting 0 ((crossings none true [] h.out).map List.sum) xs) &&
        decide (Measured (crossings none true [] h.out) (recvTimes (calls xs))) &&
        (match s.run exampleEnv (calls xs) with
        | .ok s' => decide (drivingCalls s s' = [.direction 3#16 true, .speed 3#16 10, .direction 3#16 true, .speed 3#16 12])
        | .error _ => false)
      | _, _ => false)
    | _ => false) = true := by decide +kernel

end Dcc
