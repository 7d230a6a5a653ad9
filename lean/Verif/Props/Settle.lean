import Verif.Lemmas.TxIdle
import Verif.Props.Polling
/-! Every command is done in the end: C83. -/
namespace Dcc
open Spec

/-! ### C83 -/

/-- A packet the decoder has not executed yet is one of those received last. -/
theorem waiting_last {e : Env} {s s' : Rx} (hr : Reachable e s) (hready : Ready e s) {ops : List RxOp}
    (ho : s.run e ops = .ok s') (hd : .disable ∉ ops) (hf : NeverFull e s ops)
    {l' : Link} {os : List LinkOut} (h1 : s.link.run (recvTimes ops) = .ok (l', os))
    (hnl : ∀ p ∈ packetsOf os, isLogon p = false) : ∃ ex, packetsOf os = ex ++ s'.deque := by
  obtain ⟨os', h5, h6⟩ := run_interleaved e ops s s' ho hd hf
  rw [h1] at h5
  simp only [Except.ok.injEq, Prod.mk.injEq] at h5
  obtain ⟨-, rfl⟩ := h5
  have hfifo := C27_fifo e ops s s' hr ho
  rw [hready.deque, List.nil_append, h6, List.filter_eq_self.mpr (by
    intro p hp; simp [hnl p hp])] at hfifo
  exact ⟨_, hfifo⟩

/-- The packets a measuring receiver gets from a station that has sent nothing but idle packets for a while. -/
theorem heard_settled {C : Type} (pk : C → R Packet) (n : Nat) (cfg : TxConfig) (txOps : List TxOp) (h0 h : TxHist)
    (ht : ({ s := {} } : TxHist).run n (.init cfg :: txOps) = .ok h0) (m k : Nat)
    (hr : h0.run n (List.replicate m .transmit) = .ok h)
    (hm : (h0.s.size n + 1) * longest + k * idling < m)
    (hinv : ∀ c, .init c ∈ txOps → c.invert = cfg.invert) (cmds : List C)
    (hc : ∀ c ∈ cmds, ∀ p, pk c = .ok p → ValidPacket p)
    (hacc : h.acc.map (fun a => Except.ok a.2) = cmds.map pk)
    (off : Option Bool) (seen : Bool) (before ts : List Nat)
    (hts : Measured (crossings off seen before h.out) ts) (l : Link) (hl : l.Synced)
    (hb : l.bitCount ≤ 18) :
    ∃ (items : List (Option C)) (l' : Link) (os : List LinkOut) (front back : List Packet),
      l.run ts = .ok (l', os) ∧ items.map (sentAs pk) = (packetsOf os).map .ok ∧
      items.filterMap id = cmds ∧ packetsOf os = front ++ back ∧ k ≤ back.length ∧ ∀ p ∈ back, p = idleBytes := by
  obtain ⟨⟨done0, cur0, i0⟩, _⟩ := station_inv n cfg txOps h0 ht hinv
  obtain ⟨done, cur, fr, bk, i, hdone, hk, hnone, hq, _⟩ := i0.settled (fun _ h => h.1) m k hr hm
  have hall := TxHist.run_append (.init cfg :: txOps) (List.replicate m .transmit) ht
  rw [hr] at hall
  have hinv' : ∀ c, .init c ∈ txOps ++ List.replicate m .transmit → c.invert = cfg.invert := by
    intro c hm
    rcases List.mem_append.mp hm with hm | hm
    · exact hinv c hm
    · cases List.eq_of_mem_replicate hm
  obtain ⟨_, hstart⟩ := station_inv n cfg _ h hall hinv'
  obtain ⟨gs, c, rest, l', os, hgs, hcur, _, hok, _, h2, hrest, _, h4, h5, -⟩ := inv_heard i hstart
    (accepted_valid hc hacc) off seen before ts hts l hl hb
  have hidle : ∀ g ∈ gs ++ [c], g.1.frame = none → g.2 = idleBytes := by
    intro g hg hn
    rcases (hok g hg).2 with ⟨_, hi⟩ | ⟨_, _, hs⟩
    · exact hi
    · rw [hn] at hs; cases hs
  have hcn : c.1.frame = none := by rw [hcur]; exact hnone cur (by simp)
  have hrest : rest = [] := by
    rw [← Tx.queue_length, hq] at hrest
    exact List.length_eq_zero_iff.mp hrest
  rw [hrest, List.append_nil, List.filter_append, List.filter_cons_of_neg (by simp [hcn]), List.filter_nil,
    List.append_nil] at h2
  obtain ⟨items, h6, h7⟩ := name_items pk gs cmds (by
    rw [← hacc]
    have := congrArg (List.map (Except.ok : Packet → R Packet)) h2
    simpa [List.map_map, Function.comp_def] using this) fun g hg => hidle g (by simp [hg])
  rw [hdone] at hgs
  obtain ⟨g1, g2, rfl, hg1, hg2⟩ := List.map_eq_append_iff.mp hgs
  have hlen : g2.length = k := by rw [← hk, ← hg2, List.length_map]
  have hback : ∀ p ∈ g2.map (·.2), p = idleBytes := by
    intro p hp
    obtain ⟨g, hg, rfl⟩ := List.mem_map.mp hp
    refine hidle g (by simp [hg]) (hnone _ ?_)
    rw [← hg2]
    exact List.mem_append_left _ (List.mem_map_of_mem hg)
  have hci : c.2 = idleBytes := hidle c (by simp) hcn
  refine ⟨items ++ (if c.1.cut.isEmpty then [] else [none]), l', os, g1.map (·.2),
    g2.map (·.2) ++ (if c.1.cut.isEmpty then [] else [c.2]), h4, ?_, ?_, ?_, ?_, ?_⟩
  · rw [h5, List.map_append, List.map_append, h6]
    split
    · simp [List.map_map, Function.comp_def]
    · simp [List.map_map, Function.comp_def, sentAs, hci]
  · rw [List.filterMap_append, h7]
    split <;> simp
  · rw [h5]; simp
  · rw [List.length_append, List.length_map, hlen]
    omega
  · intro p hp
    rcases List.mem_append.mp hp with hp | hp
    · exact hback p hp
    · split at hp
      · cases hp
      · rw [List.mem_singleton.mp hp, hci]

/-- **C83** Every command is done: as in C76, with measured times and `execute` called often enough except for
`spare` calls left out.  Once the station has got no more commands for long enough - the time the longest packet
takes for each packet in its queue and the one being sent, and `spare + 2` idle packets - the decoder has made
exactly the calls all the commands accepted ask for, in order. -/
theorem C83_all_done (n w : Nat) (cfg : TxConfig) (txOps : List TxOp) (h0 h : TxHist)
    (ht : ({ s := {} } : TxHist).run n (.init cfg :: txOps) = .ok h0) (m spare : Nat)
    (hr0 : h0.run n (List.replicate m .transmit) = .ok h)
    (hm : (h0.s.size n + 1) * longest + (spare + 1) * idling < m)
    (hinv : ∀ c, .init c ∈ txOps → c.invert = cfg.invert) (hw : w ≤ shortest {})
    (hcfg : ∀ c, .init c ∈ .init cfg :: txOps → w ≤ shortest c) (cmds : List Command) (hc : ∀ c ∈ cmds, c.Legal)
    (hacc : h.acc.map (fun a => Except.ok a.2) = cmds.map Command.packet)
    (e : Env) (hroom : spare + 2 ≤ e.rxDeque) (s : Rx) (hr : Reachable e s) (hready : Ready e s)
    (hb : s.link.bitCount ≤ 18) (start edge period : Nat) (hp : period < w) (xs : List (Nat × RxOp))
    (off : Option Bool) (seen : Bool) (before : List Nat) (hsv : Attended period spare start start xs)
    (hl : Lasting edge ((crossings off seen before h.out).map List.sum) xs)
    (hops : ∀ op ∈ calls xs, op.isReceive = true ∨ op.isExecute = true)
    (htimes : Measured (crossings off seen before h.out) (recvTimes (calls xs))) :
    ∃ s', s.run e (calls xs) = .ok s' ∧ drivingCalls s s' = cmds.flatMap (Command.calls s) := by
  have hall := TxHist.run_append (.init cfg :: txOps) (List.replicate m .transmit) ht
  rw [hr0, List.cons_append] at hall
  have hno := only_calls hops
  have hsync := hr.recvInv.link.synced hready.waiting
  have hv : ∀ a ∈ h.acc, ValidPacket a.2 :=
    accepted_valid (fun c hm p hp => Command.valid (hc c hm) hp) hacc
  have hrep : ∀ c, .init c ∉ List.replicate m TxOp.transmit := fun c hm => by
    cases List.eq_of_mem_replicate hm
  obtain ⟨hf, hlen⟩ := serving e w period hp xs s (some w) _ start start edge spare 0 (by omega) hr hsv hl
    (hno _ rfl rfl)
    (heard_spaced n w cfg _ h hall (fun c hm => (List.mem_append.mp hm).elim (hinv c) fun hm => absurd hm (hrep c))
      hw (fun c hm => hcfg c (by
        rw [← List.cons_append] at hm
        exact (List.mem_append.mp hm).elim id fun hm => absurd hm (hrep c))) hv off seen before _ htimes _ hsync hb _)
    (by simp [hready.deque]) (Nat.le_refl _) nofun (fun _ => .inr (by simp [hready.deque]))
    (.inl (by simp [hready.deque]))
  obtain ⟨items, l', os, front, back, h1, h2, h3, h4, h5, h6⟩ := heard_settled Command.packet n cfg txOps h0 h ht m
    (spare + 1) hr0 hm hinv cmds (fun c hm p hp => Command.valid (hc c hm) hp) hacc off seen before _ htimes s.link
    hsync hb
  rw [← Item.packet_sentAs] at h2
  have hleg : ∀ i ∈ items, Item.Legal i := by
    rintro i hm c rfl
    exact hc c (h3 ▸ List.mem_filterMap.mpr ⟨_, hm, rfl⟩)
  have hpk : ∀ p ∈ packetsOf os, ∃ i : Item, i.Legal ∧ i.packet = .ok p := by
    intro p hp
    have : (Except.ok p : R Packet) ∈ (packetsOf os).map .ok := List.mem_map_of_mem hp
    rw [← h2] at this
    obtain ⟨i, hm, hip⟩ := List.mem_map.mp this
    exact ⟨i, hleg i hm, hip⟩
  obtain ⟨s', ho⟩ := drive_total e (calls xs) s l' os hr hready.mode hops hf h1 (by
    intro p hp
    rw [hready.deque, List.nil_append] at hp
    exact hpk p hp)
  obtain ⟨i1, i2, rfl, h7, h8⟩ := drive_items hr hready ho (hno _ rfl rfl) (hno _ rfl rfl) hf hleg h1 h2
  refine ⟨s', ho, ?_⟩
  obtain ⟨ex, hex⟩ := waiting_last hr hready ho (hno _ rfl rfl) hf h1 fun p hp =>
    let ⟨i, h5, h6⟩ := hpk p hp
    i.not_logon h5 h6
  -- what waits is idle packets
  have hlen := hlen s' ho
  have hidle : s'.deque.filter (· ≠ idleBytes) = [] := by
    refine List.filter_eq_nil_iff.mpr fun p hp => ?_
    have hsuf : s'.deque <:+ back := by
      have h9 : s'.deque <:+ packetsOf os := ⟨ex, hex.symm⟩
      have h10 : back <:+ packetsOf os := ⟨front, h4.symm⟩
      exact List.suffix_of_suffix_length_le h9 h10 (by omega)
    simp [h6 p (hsuf.subset hp)]
  rw [hidle] at h8
  have h9 : i2.filterMap id = [] := by simpa using h8
  rw [h7, ← h3, List.filterMap_append, h9, List.append_nil]

example :
    (match ({ s := {} } : TxHist).run 4 (.init {} :: .bytes [3#8, 0x3F#8, 0x86#8, 0xBA#8] :: List.replicate 96 .transmit) with
    | .ok h0 =>
      (match h0.run 4 (List.replicate 487 .transmit), ({} : Rx).run exampleEnv [.init] with
      | .ok h, .ok s =>
        let xs := exampleSchedule (exactTimes none true [] h.out)
        decide (h0.s.size 4 = 0 ∧ (h0.s.size 4 + 1) * longest + (0 + 1) * idling < 487 ∧ h0.s.packet = some 0 ∧
          h0.s.packetCount = 1 ∧ Attended 6085 0 0 0 xs) &&
        decide (Lasting 0 ((crossings none true [] h.out).map List.sum) xs) &&
        decide (Measured (crossings none true [] h.out) (recvTimes (calls xs))) &&
        (match s.run exampleEnv (calls xs) with
        | .ok s' => decide (drivingCalls s s' = [.direction 3#16 true, .speed 3#16 10])
        | .error _ => false)
      | _, _ => false)
    | _ => false) = true := by decide +kernel

end Dcc
