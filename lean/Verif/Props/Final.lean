import Verif.Props.Stop
import Verif.Spec.Final
/-! What a locomotive ends up with: C107. -/
namespace Dcc
open Spec

theorem lastSet_append {α} (sets : α → Setting → Option Int) (xs ys : List α) (x : Setting) :
    lastSet sets (xs ++ ys) x = (lastSet sets ys x).or (lastSet sets xs x) := by
  unfold lastSet
  rw [List.reverse_append, List.findSome?_append]

theorem lastSet_nil {α} (sets : α → Setting → Option Int) (x : Setting) : lastSet sets [] x = none := rfl

theorem lastSet_one {α} (sets : α → Setting → Option Int) (a : α) (x : Setting) : lastSet sets [a] x = sets a x := by
  unfold lastSet
  simp

theorem lastSet_cons {α} (sets : α → Setting → Option Int) (a : α) (ys : List α) (x : Setting) :
    lastSet sets (a :: ys) x = (lastSet sets ys x).or (sets a x) := by
  rw [← lastSet_one sets a x, ← lastSet_append]; rfl

theorem lastSet_none {α} {sets : α → Setting → Option Int} {ys : List α} {x : Setting}
    (h : ∀ a ∈ ys, sets a x = none) : lastSet sets ys x = none := by
  unfold lastSet
  rw [List.findSome?_eq_none_iff]
  intro a ha
  exact h a (by simpa using ha)

/-- What a call for a function group sets. -/
theorem group_sets (addr : BitVec 16) (f0 : Bool) (first count : Nat) (state : Byte) (i : Nat)
    (hg : (first, count) ∈ [(0, 5), (5, 4), (9, 4), (13, 8), (21, 8), (0, 8), (8, 8), (16, 8)]) :
    Event.sets (functionCall addr f0 ⟨first, count⟩ state.toNat) (.function i) =
      if f0 ∧ first = 0 ∧ i = 0 then none else groupSets first count state i := by
  unfold functionCall Event.sets groupSets
  dsimp only
  by_cases hi : 32 ≤ i
  · rw [BitVec.getLsbD_of_ge _ _ hi, if_neg Bool.false_ne_true, if_neg (by omega), if_neg]
    simp only [List.mem_cons, Prod.mk.injEq, List.not_mem_nil, or_false] at hg
    omega
  · replace hi : i < 32 := by omega
    simp only [List.mem_cons, Prod.mk.injEq, List.not_mem_nil, or_false] at hg
    rcases hg with ⟨rfl, rfl⟩ | ⟨rfl, rfl⟩ | ⟨rfl, rfl⟩ | ⟨rfl, rfl⟩ | ⟨rfl, rfl⟩ | ⟨rfl, rfl⟩ | ⟨rfl, rfl⟩ | ⟨rfl, rfl⟩ <;>
      cases f0 <;> revert i <;> revert state <;> decide +kernel

theorem speed126_sets (addr : BitVec 16) (rev : Bool) (b : Byte) (x : Setting) :
    lastSet Event.sets (speed126Calls addr rev b) x = sets126 rev b x := by
  have hd : decide (128 ≤ b.toNat) = b.toNat.testBit 7 := by revert b; decide +kernel
  unfold speed126Calls estopCalls driveCalls sets126
  dsimp only
  rw [hd]
  by_cases h1 : b.toNat % 128 = 1
  · rw [if_pos h1, lastSet_one]
    cases x <;> simp [Event.sets, h1]
  · rw [if_neg h1, lastSet_cons, lastSet_one]
    cases x <;> simp [Event.sets, h1]

/-- What the calls a command asks for set is what the command sets. -/
theorem asks_sets (f0 rev : Bool) (addr : BitVec 16) (c : AddressedCall) (hd : AddressedCall.Driving c)
    (x : Setting) : lastSet Event.sets (AddressedCall.asks f0 rev addr c) x = AddressedCall.sets f0 rev c x := by
  have group : ∀ (first count : Nat) (state : Byte),
      (first, count) ∈ [(0, 5), (5, 4), (9, 4), (13, 8), (21, 8), (0, 8), (8, 8), (16, 8)] →
      lastSet Event.sets [functionCall addr f0 ⟨first, count⟩ state.toNat] x =
        match x with
        | .function i => if f0 ∧ first = 0 ∧ i = 0 then none else groupSets first count state i
        | _ => none := by
    intro first count state hm
    rw [lastSet_one]
    cases x with
    | function i => exact group_sets addr f0 first count state i hm
    | direction => rfl
    | speed => rfl
  cases c with
  | advancedSpeed b => exact speed126_sets addr rev b x
  | f4f0 s =>
    rw [AddressedCall.asks, group 0 5 s (by decide)]
    cases x <;> simp [AddressedCall.sets]
  | f8f5 s =>
    rw [AddressedCall.asks, group 5 4 s (by decide)]
    cases x <;> simp [AddressedCall.sets]
  | f12f9 s =>
    rw [AddressedCall.asks, group 9 4 s (by decide)]
    cases x <;> simp [AddressedCall.sets]
  | f20f13 s =>
    rw [AddressedCall.asks, group 13 8 s (by decide)]
    cases x <;> simp [AddressedCall.sets]
  | f28f21 s =>
    rw [AddressedCall.asks, group 21 8 s (by decide)]
    cases x <;> simp [AddressedCall.sets]
  | speedAndDirection b =>
    have h5 : b.getLsbD 5 = b.toNat.testBit 5 := rfl
    have h4 : b.getLsbD 4 = b.toNat.testBit 4 := rfl
    have h4' : b.toNat / 16 % 2 = if b.toNat.testBit 4 then 1 else 0 := by
      clear hd h5 h4 group; revert b; decide +kernel
    unfold AddressedCall.asks speed14Calls speed28Calls estopCalls driveCalls
    dsimp only
    rw [h4, h5]
    cases f0
    · rw [if_neg Bool.false_ne_true]
      by_cases h1 : b.toNat % 16 = 1
      · rw [if_pos h1, lastSet_one]
        cases x <;> simp [Event.sets, AddressedCall.sets, h1]
      · rw [if_neg h1, lastSet_cons, lastSet_one]
        cases x <;> simp [Event.sets, AddressedCall.sets, h1, h4']
    · rw [if_pos rfl]
      by_cases h1 : b.toNat % 16 = 1
      · rw [if_pos h1, lastSet_one]
        cases x <;> simp [Event.sets, AddressedCall.sets, h1]
      · rw [if_neg h1, lastSet_cons, lastSet_cons, lastSet_one]
        cases x with
        | direction => simp [Event.sets, AddressedCall.sets, h1]
        | speed => simp [Event.sets, AddressedCall.sets, h1]
        | function i =>
          cases i with
          | zero => cases h : b.toNat.testBit 4 <;> simp [Event.sets, AddressedCall.sets, h1, h]
          | succ i =>
            have : (1#32).getLsbD (i + 1) = false := by simp
            simp [Event.sets, AddressedCall.sets, h1, this]
  | speedDirFunctions b f fs =>
    unfold AddressedCall.asks
    rw [lastSet_append, speed126_sets]
    cases x with
    | direction =>
      rw [lastSet_none (ys := List.map _ _)]
      · simp [AddressedCall.sets]
      · intro a ha
        obtain ⟨y, -, rfl⟩ := List.mem_map.mp ha
        rfl
    | speed =>
      rw [lastSet_none (ys := List.map _ _)]
      · simp [AddressedCall.sets]
      · intro a ha
        obtain ⟨y, -, rfl⟩ := List.mem_map.mp ha
        rfl
    | function i =>
      have g0 := group_sets addr false 0 8
      have g1 := group_sets addr false 8 8
      have g2 := group_sets addr false 16 8
      have hl : fs.length ≤ 2 := hd
      have eq8 : ∀ (k : Nat) (st : Byte), groupSets (8 * k) 8 st i =
          if i / 8 = k then some (asInt (st.toNat.testBit (i % 8))) else none := by
        intro k st
        unfold groupSets
        by_cases hk : i / 8 = k
        · rw [if_pos hk, if_pos (by omega)]
          have : i - 8 * k = i % 8 := by omega
          rw [this]
        · rw [if_neg hk, if_neg (by omega)]
      have lt8 : i < 8 ↔ i / 8 = 0 := by omega
      have e0 := eq8 0
      have e1 := eq8 1
      have e2 := eq8 2
      rcases fs with _ | ⟨f1, _ | ⟨f2, _ | ⟨f3, fs⟩⟩⟩
      · simp [lastSet_one, sets126, AddressedCall.sets, g0, e0]
        simp only [lt8]
        generalize i / 8 = k
        rcases k with _ | k <;> simp
      · simp [lastSet_cons, lastSet_nil, sets126, AddressedCall.sets, g0, e0, g1, e1]
        simp only [lt8]
        generalize i / 8 = k
        rcases k with _ | _ | k <;> simp
      · simp [lastSet_cons, lastSet_nil, sets126, AddressedCall.sets, g0, e0, g1, e1, g2, e2]
        simp only [lt8]
        generalize i / 8 = k
        rcases k with _ | _ | _ | k <;> simp
      · simp at hl
  | binaryStateShort => exact hd.elim
  | binaryStateLong => exact hd.elim
  | cvVerify => exact hd.elim
  | cvWrite => exact hd.elim
  | cvVerifyBit => exact hd.elim
  | cvWriteBit => exact hd.elim

theorem calls_sets (s : Rx) (c : Command) (hc : c.Legal) (x : Setting) :
    lastSet Event.sets (c.calls s) x = c.sets s x := by
  unfold Command.calls Command.sets
  dsimp only
  split
  · exact asks_sets _ _ _ _ hc.2 x
  · rfl

theorem all_calls_sets (s : Rx) (cs : List Command) (hc : ∀ c ∈ cs, c.Legal) (x : Setting) :
    lastSet Event.sets (cs.flatMap (Command.calls s)) x = lastSet (Command.sets s) cs x := by
  induction cs with
  | nil => rfl
  | cons c cs ih =>
    rw [List.flatMap_cons, lastSet_append, lastSet_cons, ih fun d hd => hc d (by simp [hd]),
      calls_sets s c (hc c (by simp)) x]

/-- Calls that do not move the locomotive set nothing. -/
theorem finalOf_driving (evs : List Event) (x : Setting) :
    lastSet Event.sets (evs.filter Event.isDriving) x = lastSet Event.sets evs x := by
  induction evs with
  | nil => rfl
  | cons ev evs ih =>
    rw [List.filter_cons, lastSet_cons]
    split
    · rw [lastSet_cons, ih]
    · rename_i h
      rw [ih]
      have : Event.sets ev x = none := by
        cases ev <;> first | (cases x <;> rfl) | exact absurd rfl h
      rw [this, Option.or_none]

theorem final_of_calls {e : Env} {s s' : Rx} {ops : List RxOp} (hr : Reachable e s) (h : s.run e ops = .ok s')
    {evs : List Event} (hd : drivingCalls s s' = evs) (x : Setting) :
    finalOf s'.trace x = (lastSet Event.sets evs x).or (finalOf s.trace x) := by
  obtain ⟨new, h1⟩ := run_prefix e ops s s' hr h
  rw [← hd]
  unfold drivingCalls finalOf
  rw [newCalls_append h1.symm, finalOf_driving, ← h1, lastSet_append]

theorem lastSet_split {α} {sets : α → Setting → Option Int} {a : α} {xs ys : List α} {x : Setting} {v : Int}
    (ha : sets a x = some v) (hy : ∀ c ∈ ys, sets c x = none) : lastSet sets (xs ++ a :: ys) x = some v := by
  rw [lastSet_append, lastSet_cons, lastSet_none hy, ha]
  rfl

/-! ### C107 -/

/-- **C107** A decoder that executes commands ends up as it was asked last: for its direction, its speed and each of
its functions, what the user's class was told last is what the last command set that sets it, and what it was before
if none does. -/
theorem C107_executed (e : Env) (s s' : Rx) (hr : Reachable e s) (hm : s.serviceMode = false) (ops : List RxOp)
    (hi : .init ∉ ops) (hd : .disable ∉ ops) (hf : NeverFull e s ops) (h : s.run e ops = .ok s')
    (hl : ∀ l os, s.link.run (recvTimes ops) = .ok (l, os) → ∀ p ∈ packetsOf os, isLogon p = false)
    (items : List Item) (hleg : ∀ i ∈ items, i.Legal)
    (hx : items.map Item.packet = (executed e s ops).map .ok) (x : Setting) :
    finalOf s'.trace x = (lastSet (Command.sets s) (items.filterMap id) x).or (finalOf s.trace x) := by
  have h1 := (drive_run e ops s s' items hr hm hi hd hf h hl hleg hx).2.1
  have h2 : items.flatMap (Item.calls s) = (items.filterMap id).flatMap (Command.calls s) := by
    clear h1 hx hleg
    induction items with
    | nil => rfl
    | cons i items ih =>
      cases i with
      | none => rw [List.flatMap_cons, ih]; rfl
      | some c => rw [List.flatMap_cons, ih]; rfl
  rw [final_of_calls hr h (h1.trans h2) x, all_calls_sets]
  intro c hc
  obtain ⟨i, h3, h4⟩ := List.mem_filterMap.mp hc
  exact hleg i h3 c h4

/-- **C107** Losing packets does no harm as long as the last command that matters is repeated: two decoders that hear
different parts of what a command station sends end up with the same, for each thing that a command sets that both
execute and that neither is told about afterwards. -/
theorem C107_repeated (e : Env) (s : Rx) (hr : Reachable e s) (hm : s.serviceMode = false) (ops : List RxOp)
    (s' : Rx) (hi : .init ∉ ops) (hd : .disable ∉ ops) (hf : NeverFull e s ops) (h : s.run e ops = .ok s')
    (hl : ∀ l os, s.link.run (recvTimes ops) = .ok (l, os) → ∀ p ∈ packetsOf os, isLogon p = false)
    (first later : List Item) (c : Command) (hleg : ∀ i ∈ first ++ some c :: later, i.Legal)
    (hx : (first ++ some c :: later).map Item.packet = (executed e s ops).map .ok) (x : Setting) (v : Int)
    (hc : c.sets s x = some v) (hlater : ∀ d, some d ∈ later → d.sets s x = none) :
    finalOf s'.trace x = some v := by
  rw [C107_executed e s s' hr hm ops hi hd hf h hl _ hleg hx x]
  have h1 : (first ++ some c :: later).filterMap id = first.filterMap id ++ c :: later.filterMap id := by simp
  rw [h1, lastSet_split hc]
  · rfl
  · intro d hd
    obtain ⟨i, h2, h3⟩ := List.mem_filterMap.mp hd
    cases h3
    exact hlater d h2

/-- **C107** Over the track: as in C83.  Once the station has got no more commands for long enough, every decoder that
hears the signal has its direction, its speed and each of its functions as the last command accepted for it set
them. -/
theorem C107_track (n w : Nat) (cfg : TxConfig) (txOps : List TxOp) (h0 h : TxHist)
    (ht : ({ s := {} } : TxHist).run n (.init cfg :: txOps) = .ok h0) (m spare : Nat)
    (hr0 : h0.run n (List.replicate m .transmit) = .ok h)
    (hm : (h0.s.size n + 1) * longest + (spare + 1) * idling < m)
    (hinv : ∀ c, .init c ∈ txOps → c.invert = cfg.invert) (hw : w ≤ shortest {})
    (hcfg : ∀ c, .init c ∈ .init cfg :: txOps → w ≤ shortest c) (cmds : List Command) (hc : ∀ c ∈ cmds, c.Legal)
    (hacc : h.acc.map (fun a => Except.ok a.2) = cmds.map Command.packet)
    (e : Env) (hroom : spare + 2 ≤ e.rxDeque) (s : Rx) (hr : Reachable e s) (hready : Ready e s)
    (hb : s.link.bitCount ≤ 18) (start edge period : Nat) (hp : period < w) (xs : List (Nat × RxOp))
    (off : Option Bool) (seen : Bool) (before : List Nat) (hsv : Attended period spare start start xs)
    (hl : Lasting edge ((crossings off seen before h.out).map List.sum) xs)
    (hops : ∀ op ∈ calls xs, op.isReceive = true ∨ op.isExecute = true)
    (htimes : Measured (crossings off seen before h.out) (recvTimes (calls xs))) :
    ∃ s', s.run e (calls xs) = .ok s' ∧
      ∀ x, finalOf s'.trace x = (lastSet (Command.sets s) cmds x).or (finalOf s.trace x) := by
  obtain ⟨s', h1, h2⟩ := C83_all_done n w cfg txOps h0 h ht m spare hr0 hm hinv hw hcfg cmds hc hacc e hroom s hr
    hready hb start edge period hp xs off seen before hsv hl hops htimes
  refine ⟨s', h1, fun x => ?_⟩
  rw [final_of_calls hr h1 h2 x, all_calls_sets s cmds hc]

/-- **C107** "A command for the functions F0 to F4 decides about F0" is false with 14 speed steps: F0 is left as it
is. -/
theorem C107_light_false : ¬ ∀ (s : Rx) (c : Command) (state : Byte), c.call = .f4f0 state →
    (c.addr.value.toNat = 0 ∨ Active s c.addr.value.toNat) → (c.sets s (.function 0)).isSome = true := by
  intro h
  have := h { cfg := { f0Exception := true } } ⟨{ value := 0, type := .broadcast }, .f4f0 1#8⟩ 1#8 rfl (.inl rfl)
  revert this
  decide +kernel

/-! ### Examples -/

def loco3 (c : AddressedCall) : Command := ⟨{ value := 3, type := .short }, c⟩

/-- Locomotive 3: a speed, F0 and F3, another speed, F0 off by a command for F0 to F7, emergency stop. -/
def finalItems : List Item :=
  [some (loco3 (.advancedSpeed 0x86#8)), none, some (loco3 (.f4f0 0x09#8)), some (loco3 (.advancedSpeed 0x0A#8)),
   some (loco3 (.speedDirFunctions 0x0B#8 0x10#8 [])), some (loco3 (.advancedSpeed 0x81#8))]

def finalOps : List RxOp :=
  told [3#8, 0x3F#8, 0x86#8, 0xBA#8] ++ told idleBytes ++ told [3#8, 0x94#8, 0x97#8] ++
    told [3#8, 0x3F#8, 0x0A#8, 0x36#8] ++ told [3#8, 0x3C#8, 0x0B#8, 0x10#8, 0x24#8] ++
    told [3#8, 0x3F#8, 0x81#8, 0xBD#8]

example : finalItems.map Item.packet =
    [[3#8, 0x3F#8, 0x86#8, 0xBA#8], idleBytes, [3#8, 0x94#8, 0x97#8], [3#8, 0x3F#8, 0x0A#8, 0x36#8],
      [3#8, 0x3C#8, 0x0B#8, 0x10#8, 0x24#8], [3#8, 0x3F#8, 0x81#8, 0xBD#8]].map .ok := by decide +kernel

example : ∀ i ∈ finalItems, i.Legal := by
  intro i hi c hc
  subst hc
  simp only [finalItems, List.mem_cons, List.not_mem_nil, or_false, Option.some.injEq, reduceCtorEq, false_or] at hi
  rcases hi with rfl | rfl | rfl | rfl | rfl
  · exact ⟨.inr (.inl ⟨rfl, by decide, by decide⟩), trivial⟩
  · exact ⟨.inr (.inl ⟨rfl, by decide, by decide⟩), trivial⟩
  · exact ⟨.inr (.inl ⟨rfl, by decide, by decide⟩), trivial⟩
  · exact ⟨.inr (.inl ⟨rfl, by decide, by decide⟩), show [].length ≤ 2 by decide⟩
  · exact ⟨.inr (.inl ⟨rfl, by decide, by decide⟩), trivial⟩

/-- The hypotheses of `C107_executed`, and what locomotive 3 ends up with: backward, emergency stop, F0 off, F3 off,
F4 on, nothing said about F8. -/
example : holdsAfter (({} : Rx).run exampleEnv [.init]) (fun s =>
      decide (s.serviceMode = false ∧ .init ∉ finalOps ∧ .disable ∉ finalOps ∧ NeverFull exampleEnv s finalOps) &&
      decide (finalItems.map Item.packet = (executed exampleEnv s finalOps).map .ok) &&
      (match s.link.run (recvTimes finalOps) with
      | .ok r => decide (∀ p ∈ packetsOf r.2, isLogon p = false)
      | .error _ => false) &&
      holdsAfter (s.run exampleEnv finalOps) (fun s' =>
        decide (finalOf s'.trace .direction = some 0 ∧ finalOf s'.trace .speed = some (-1) ∧
          finalOf s'.trace (.function 0) = some 0 ∧ finalOf s'.trace (.function 3) = some 0 ∧
          finalOf s'.trace (.function 4) = some 1 ∧ finalOf s'.trace (.function 8) = none) &&
        decide (∀ x ∈ [Setting.direction, .speed, .function 0, .function 3, .function 4, .function 8],
          finalOf s'.trace x = lastSet (Command.sets s) (finalItems.filterMap id) x))) = true := by decide +kernel

end Dcc
