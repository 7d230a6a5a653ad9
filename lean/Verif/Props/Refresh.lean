import Verif.Props.Final
import Verif.Props.Recover
/-! What a locomotive ends up with behind a disturbance: C115. -/
namespace Dcc
open Spec

/-- Packets that are commands but for idle packets. -/
theorem items_of_arrived (cs : List Command) (hc : ∀ c ∈ cs, c.Legal) (ps : List Packet)
    (h : cs.map Command.packet = (ps.filter (· ≠ idleBytes)).map .ok) :
    ∃ items : List Item, items.map Item.packet = ps.map .ok ∧ items.filterMap id = cs ∧ ∀ i ∈ items, i.Legal := by
  induction ps generalizing cs with
  | nil =>
    have : cs = [] := by simpa using h
    exact ⟨[], rfl, by rw [this]; rfl, by simp⟩
  | cons p ps ih =>
    by_cases hp : p = idleBytes
    · rw [List.filter_cons_of_neg (by simp [hp])] at h
      obtain ⟨items, h1, h2, h3⟩ := ih cs hc h
      refine ⟨none :: items, by rw [List.map_cons, h1, hp]; rfl, by simpa using h2, ?_⟩
      intro i hi
      rcases List.mem_cons.mp hi with rfl | hi
      · exact fun c hc => by cases hc
      · exact h3 i hi
    · rw [List.filter_cons_of_pos (by simp [hp]), List.map_cons] at h
      match cs, h, hc with
      | c :: cs, h, hc =>
        rw [List.map_cons, List.cons.injEq] at h
        obtain ⟨items, h1, h2, h3⟩ := ih cs (fun c hx => hc c (List.mem_cons_of_mem _ hx)) h.2
        refine ⟨some c :: items, by rw [List.map_cons, h1, List.map_cons, ← h.1]; rfl, by simpa using h2, ?_⟩
        intro i hi
        rcases List.mem_cons.mp hi with rfl | hi
        · intro d hd; cases hd; exact hc c (List.mem_cons_self ..)
        · exact h3 i hi

/-- Packets each of which is an item. -/
theorem items_of_each (ps : List Packet) (h : ∀ p ∈ ps, ∃ i : Item, i.Legal ∧ i.packet = .ok p) :
    ∃ items : List Item, items.map Item.packet = ps.map .ok ∧ ∀ i ∈ items, i.Legal := by
  induction ps with
  | nil => exact ⟨[], rfl, by simp⟩
  | cons p ps ih =>
    obtain ⟨i, h1, h2⟩ := h p (by simp)
    obtain ⟨items, h3, h4⟩ := ih fun q hq => h q (List.mem_cons_of_mem _ hq)
    refine ⟨i :: items, by rw [List.map_cons, List.map_cons, h2, h3], ?_⟩
    intro j hj
    rcases List.mem_cons.mp hj with rfl | hj
    · exact h1
    · exact h4 j hj

/-- **C115** A decoder in operations mode, in whatever state a disturbance left it, hears the signal of a station that
has accepted driving commands only, and has executed everything in the end.  What was put together from the disturbance
and what was waiting is, if anything, a driving command as well.  Then the commands fall into those missed (the ones that
had begun when the signal was heard again and at most one more), those heard and those unsent, and whatever is set by one
of those heard is as the last of them set it. -/
theorem C115_heard (n : Nat) (cfg : TxConfig) (txOps more : List TxOp) (h1 h : TxHist)
    (ht1 : ({ s := {} } : TxHist).run n (.init cfg :: txOps) = .ok h1) (ht : h1.run n more = .ok h)
    (hinv : ∀ c, .init c ∈ txOps ++ more → c.invert = cfg.invert) (cmds : List Command) (hc : ∀ c ∈ cmds, c.Legal)
    (hacc : h.acc.map (fun a => Except.ok a.2) = cmds.map Command.packet)
    (e : Env) (s s' : Rx) (hr : Reachable e s) (hmode : s.serviceMode = false)
    (ops : List RxOp) (ho : s.run e ops = .ok s') (hi : .init ∉ ops) (hd : .disable ∉ ops) (hf : NeverFull e s ops)
    (hdone : s'.deque = []) (hq : ∀ p ∈ s.deque, ∃ i : Item, i.Legal ∧ i.packet = .ok p)
    (hodd : ∀ l os, s.link.run (recvTimes ops) = .ok (l, os) → ∀ p ∈ packetsOf os,
      ∃ i : Item, i.Legal ∧ i.packet = .ok p)
    (seen : Bool) (before : List Nat)
    (htimes : Measured (crossings none seen before (h.out.drop h1.out.length)) (recvTimes ops)) :
    ∃ missed heard unsent : List Command, cmds = missed ++ heard ++ unsent ∧
      missed.length + h1.s.size n ≤ h1.acc.length + 1 ∧ unsent.length ≤ h.s.size n + 1 ∧
      ∀ x v, lastSet (Command.sets s) heard x = some v → finalOf s'.trace x = some v := by
  obtain ⟨missed, heard, unsent, odd, arrived, k1, k2, k3, -, k5, k6⟩ := C110_requests n cfg txOps more h1 h ht1 ht hinv
    (accepted_valid (fun c hm p hp => Command.valid (hc c hm) hp) hacc) e s s' hr ops ho hd hf seen before htimes
  have hsplit : cmds.map Command.packet = missed.map .ok ++ heard.map .ok ++ unsent.map .ok := by
    rw [← hacc, ← List.map_append, ← List.map_append, ← k1, List.map_map]
    rfl
  obtain ⟨mh, u, rfl, hmh, hu⟩ := List.map_eq_append_iff.mp hsplit
  obtain ⟨m, hd', rfl, hm', hh⟩ := List.map_eq_append_iff.mp hmh
  refine ⟨m, hd', u, rfl, ?_, ?_, fun x v hx => ?_⟩
  · have := congrArg List.length hm'
    rw [List.length_map, List.length_map] at this
    omega
  · have := congrArg List.length hu
    rw [List.length_map, List.length_map] at this
    omega
  · have hleg : ∀ c ∈ hd', c.Legal := fun c hx => hc c (by simp [hx])
    have hni : heard.filter (· ≠ idleBytes) = heard := by
      rw [List.filter_eq_self]
      intro p hp
      have : Except.ok p ∈ hd'.map Command.packet := by rw [hh]; exact List.mem_map.mpr ⟨p, hp, rfl⟩
      obtain ⟨c, hc1, hc2⟩ := List.mem_map.mp this
      exact decide_eq_true (Command.not_idle (hleg c hc1) hc2)
    rw [hni] at k6
    obtain ⟨items, i1, i2, i3⟩ := items_of_arrived hd' hleg arrived (by rw [hh, k6])
    obtain ⟨os, h2, h3⟩ := run_interleaved e ops s s' ho hd hf
    have hnl : ∀ p ∈ packetsOf os, isLogon p = false := fun p hp => by
      obtain ⟨i, j1, j2⟩ := hodd _ os h2 p hp
      exact i.not_logon j1 j2
    have harr : arrived.filter (fun p => !isLogon p) = arrived := by
      rw [List.filter_eq_self]
      intro p hp
      have : Except.ok p ∈ items.map Item.packet := by rw [i1]; exact List.mem_map.mpr ⟨p, hp, rfl⟩
      obtain ⟨i, hi1, hi2⟩ := List.mem_map.mp this
      simp [i.not_logon (i3 i hi1) hi2]
    rw [List.filter_append, harr] at k5
    obtain ⟨a, a1, a2⟩ := items_of_each s.deque hq
    obtain ⟨b, b1, b2⟩ := items_of_each (odd.filter fun p => !isLogon p) fun p hp => by
      refine hodd _ os h2 p ?_
      have : p ∈ arrivals e s ops := by rw [k5]; exact List.mem_append_left _ hp
      rw [h3] at this
      exact (List.mem_filter.mp this).1
    have hfifo := C27_fifo e ops s s' hr ho
    rw [hdone, List.append_nil, k5] at hfifo
    rw [C107_executed e s s' hr hmode ops hi hd hf ho (fun l os' hl => by rw [h2] at hl; cases hl; exact hnl)
      (a ++ (b ++ items)) (by
        intro i hi
        rcases List.mem_append.mp hi with h | h
        · exact a2 i h
        rcases List.mem_append.mp h with h | h
        · exact b2 i h
        · exact i3 i h) (by rw [← hfifo, List.map_append, List.map_append, List.map_append, List.map_append, a1, b1, i1]) x,
      List.filterMap_append, List.filterMap_append, i2, lastSet_append, lastSet_append, hx]
    rfl

/-- **C115** A command the station accepts twice after the signal is heard again - it may be any two times, with anything
in between - is done: if no later command sets the same thing, it is as that command set it, as soon as the station has
begun another command behind it. -/
theorem C115_repeated (n : Nat) (cfg : TxConfig) (txOps more : List TxOp) (h1 h : TxHist)
    (ht1 : ({ s := {} } : TxHist).run n (.init cfg :: txOps) = .ok h1) (ht : h1.run n more = .ok h)
    (hinv : ∀ c, .init c ∈ txOps ++ more → c.invert = cfg.invert) (before' between after : List Command) (c : Command)
    (hc : ∀ d ∈ before' ++ c :: between ++ c :: after, d.Legal)
    (hacc : h.acc.map (fun a => Except.ok a.2) = (before' ++ c :: between ++ c :: after).map Command.packet)
    (hbefore : h1.acc.length ≤ before'.length + h1.s.size n) (hafter : h.s.size n < after.length)
    (e : Env) (s s' : Rx) (hr : Reachable e s) (hmode : s.serviceMode = false)
    (ops : List RxOp) (ho : s.run e ops = .ok s') (hi : .init ∉ ops) (hd : .disable ∉ ops) (hf : NeverFull e s ops)
    (hdone : s'.deque = []) (hq : ∀ p ∈ s.deque, ∃ i : Item, i.Legal ∧ i.packet = .ok p)
    (hodd : ∀ l os, s.link.run (recvTimes ops) = .ok (l, os) → ∀ p ∈ packetsOf os,
      ∃ i : Item, i.Legal ∧ i.packet = .ok p)
    (seen : Bool) (before : List Nat)
    (htimes : Measured (crossings none seen before (h.out.drop h1.out.length)) (recvTimes ops))
    (x : Setting) (v : Int) (hx : c.sets s x = some v) (hlast : ∀ d ∈ after, d.sets s x = none) :
    finalOf s'.trace x = some v := by
  obtain ⟨missed, heard, unsent, k1, k2, k3, k4⟩ := C115_heard n cfg txOps more h1 h ht1 ht hinv _ hc hacc e s s' hr hmode
    ops ho hi hd hf hdone hq hodd seen before htimes
  refine k4 x v ?_
  have hlen := congrArg List.length k1
  simp only [List.length_append, List.length_cons] at hlen
  have hh : heard = (before' ++ c :: between).drop missed.length ++
      c :: after.take (after.length - unsent.length) := by
    have h2 : heard = ((missed ++ heard ++ unsent).drop missed.length).take heard.length := by
      rw [List.append_assoc, List.drop_left, List.take_left]
    rw [h2, ← k1, List.drop_append_of_le_length (by simp; omega), List.take_append,
      List.take_of_length_le (by simp; omega)]
    congr 1
    have h3 : heard.length - ((before' ++ c :: between).drop missed.length).length =
        after.length - unsent.length + 1 := by
      simp only [List.length_drop, List.length_append, List.length_cons]; omega
    rw [h3, List.take_succ_cons]
  rw [hh]
  exact lastSet_split hx fun d hd => hlast d (List.mem_of_mem_take hd)

/-! ### Examples -/

def refreshCommands : List Command :=
  [loco3 (.advancedSpeed 0x86#8), loco3 (.advancedSpeed 0x86#8), loco3 (.f4f0 0x09#8)]

example : ∀ c ∈ refreshCommands, c.Legal := by
  intro c hc
  simp only [refreshCommands, List.mem_cons, List.not_mem_nil, or_false] at hc
  rcases hc with rfl | rfl | rfl <;> exact ⟨.inr (.inl ⟨rfl, by decide, by decide⟩), trivial⟩

/-- The decoder of C110 that heard two bytes and the zero behind them hears the signal again while a speed for
locomotive 3 is waiting; the station gets the speed once more, and functions. -/
def refreshed (k : Nat) (p : TxHist → TxHist → Rx → Rx → List Packet → Bool) : Bool :=
  match ({ s := {} } : TxHist).run 4 (lateStation k), lostTrack 72 with
  | .ok h1, .ok s =>
    (match h1.run 4 (.bytes [3#8, 0x3F#8, 0x86#8, 0xBA#8] :: lateMore (360 - k)) with
    | .ok h =>
      let ts := exactTimes none true [1000] (h.out.drop h1.out.length)
      let ops := polled (ts.map (·, 0, 0, 0))
      decide (Measured (crossings none true [1000] (h.out.drop h1.out.length)) ts) &&
      decide (NeverFull exampleEnv s ops) &&
      decide (h.acc.map (fun a => Except.ok a.2) = refreshCommands.map Command.packet) &&
      (match s.run exampleEnv ops, s.link.run (recvTimes ops) with
      | .ok s', .ok r => decide (packetsOf r.2 = arrivals exampleEnv s ops) && p h1 h s s' (packetsOf r.2)
      | _, _ => false)
    | _ => false)
  | _, _ => false

/-- The first of the two packets for the speed is lost, the second one heard; the packet for the functions is being
sent. -/
example : refreshed 94 (fun h1 h s s' ps => decide (h1.acc.length = 1 ∧ h1.s.size 4 = 1 ∧ h.s.size 4 = 0 ∧
    s.serviceMode = false ∧ s.deque = [] ∧ s'.deque = [] ∧ ps = [[3#8, 0x3F#8, 0x86#8, 0xBA#8]] ∧
    finalOf s.trace .speed = none ∧ (loco3 (.advancedSpeed 0x86#8)).sets s .speed = finalOf s'.trace .speed ∧
    (loco3 (.f4f0 0x09#8)).sets s .speed = none ∧ finalOf s'.trace .speed ≠ none)) = true := by decide +kernel

end Dcc
