import Verif.Props.Stop
import Verif.Spec.Whole
/-! The check byte is no data: C106. -/
namespace Dcc
open Spec

/-! ### C106 -/

theorem byteAt_snoc {ds : List Byte} {i : Nat} (h : i < ds.length) (x : Byte) :
    byteAt (ds ++ [x]) i = .ok ds[i] := by
  unfold byteAt
  rw [List.getElem?_append_left h, List.getElem?_eq_getElem h]

/-- **C106** The check byte is no data: what an instruction with all its bytes does to the decoder and to the
user's class does not depend on the byte behind it. -/
theorem C106_instruction_partial (e : Env) (s : Rx) (a : BitVec 16) (p : Packet) (ds : List Byte) (x y : Byte)
    (rand : Nat) (hw : Whole ds) :
    s.executeInstruction e a p (ds ++ [x]) rand = s.executeInstruction e a p (ds ++ [y]) rand := by
  obtain ⟨b, hb, hl⟩ := hw
  obtain _ | ⟨b', rest⟩ := ds
  · cases hb
  obtain rfl : b' = b := by simpa using hb
  clear hb
  have h0 : ∀ z, byteAt (b' :: rest ++ [z]) 0 = .ok b' := fun z => rfl
  have opt : ∀ (t : Rx) (i : Nat) (m : BitVec 32) (sh : Nat), t.optFunctions a (b' :: rest ++ [x]) i m sh =
      t.optFunctions a (b' :: rest ++ [y]) i m sh := by
    intro t i m sh
    unfold Rx.optFunctions
    by_cases hi : i + 1 < (b' :: rest ++ [x]).length
    · have hi' : i + 1 < (b' :: rest ++ [y]).length := by simpa using hi
      have hi2 : i < (b' :: rest).length := by simp at hi ⊢; omega
      rw [if_pos hi, if_pos hi', byteAt_snoc hi2, byteAt_snoc hi2]
    · have hi' : ¬ i + 1 < (b' :: rest ++ [y]).length := by simpa using hi
      rw [if_neg hi, if_neg hi']
  have one : 2 ≤ wholeLength b' → byteAt (b' :: rest ++ [x]) 1 = byteAt (b' :: rest ++ [y]) 1 := by
    intro h
    rw [byteAt_snoc (Nat.lt_of_lt_of_le (by omega) hl), byteAt_snoc (Nat.lt_of_lt_of_le (by omega) hl)]
  have two : 3 ≤ wholeLength b' → byteAt (b' :: rest ++ [x]) 2 = byteAt (b' :: rest ++ [y]) 2 := by
    intro h
    rw [byteAt_snoc (Nat.lt_of_lt_of_le (by omega) hl), byteAt_snoc (Nat.lt_of_lt_of_le (by omega) hl)]
  unfold Rx.executeInstruction decodeInstruction
  rw [h0, h0]
  simp only [ok_bind, pure_eq_ok]
  cases hc : decodeInstructionByte b' <;> dsimp only
  case consistControl =>
    unfold Rx.consistControl
    rw [h0, h0, one (by clear hl h0 opt one two; revert b'; decide +kernel)]
  case advancedOperations =>
    unfold Rx.advancedOperations Rx.speedDirFunctions
    rw [h0, h0, one (by clear hl h0 opt one two; revert b'; decide +kernel)]
    simp only [opt]
  case speedDirection =>
    unfold Rx.speedAndDirection
    rw [h0, h0]
  case functionGroup =>
    unfold Rx.functionGroup
    rw [h0, h0]
  case featureExpansion =>
    unfold Rx.featureExpansion
    rw [h0, h0, one (by clear hl h0 opt one two; revert b'; decide +kernel)]
    simp only [ok_bind]
    split
    · rename_i h
      rw [two (by rw [h]; decide)]
    · rfl
  case cvLong =>
    unfold Rx.cvLong Rx.cvLongBody
    rw [h0, h0, one (by clear hl h0 opt one two; revert b'; decide +kernel),
      two (by clear hl h0 opt one two; revert b'; decide +kernel)]
  case cvShort =>
    unfold Rx.cvShort Rx.cvShortBody
    rw [h0, h0, one (by clear hl h0 opt one two; revert b'; decide +kernel)]
    by_cases h4 : b'.toNat < 244
    · have k : b' &&& 0x0F#8 ≠ 4#8 ∧ b' &&& 0x0F#8 ≠ 5#8 := by
        clear hl h0 opt one two; revert b'; decide +kernel
      simp only [ok_bind, if_neg k.1, if_neg k.2]
    · rw [two (by clear hl h0 opt one two; revert b'; decide +kernel)]

/-- **C106** Executing a packet for the decoder in operations mode whose instruction has all its bytes: the check
byte might be any byte, apart from the packet being counted as it came. -/
theorem C106_execute_partial (e : Env) (s : Rx) (now : Int) (rand n : Nat) (p : Packet) (hf : front s = some p)
    (hm : s.serviceMode = false) (hn : locoNumber p = some n) (ha : n = 0 ∨ Active s n)
    (hw : Whole (instructionOf p)) (x : Byte) :
    s.execute e now rand = (do
      let s' ← (s.prepared e now).executeInstruction e (target s n) p (instructionOf p ++ [x]) rand
      return (s'.popFront, true)) := by
  obtain ⟨hp, rest, hd⟩ := front_some hf
  rw [execute_for e s now rand n p rest hp hd hm hn ha]
  have hne : afterAddress p ≠ [] := by
    intro h0
    obtain ⟨b, hb, -⟩ := hw
    unfold instructionOf at hb
    rw [h0] at hb
    cases hb
  have : afterAddress p = instructionOf p ++ [(afterAddress p).getLast hne] :=
    (List.dropLast_concat_getLast hne).symm
  rw [this, C106_instruction_partial e _ _ p (instructionOf p) _ x rand hw]

/-- **C106** In service mode the same: packets in direct mode have three bytes and the check byte, packets in register
mode two and the check byte. -/
theorem C106_service (e : Env) (s : Rx) (p : Packet) (a b c x y : Byte) :
    s.registerMode e [a, b, x] = s.registerMode e [a, b, y] ∧
    s.cvLong e 0#16 p [a, b, c, x] = s.cvLong e 0#16 p [a, b, c, y] := ⟨rfl, rfl⟩

/-- The calls made when a packet is heard a number of times. -/
def callsFor (p : Packet) (times : Nat) (want : List Event) : Bool :=
  holdsAfter (({} : Rx).run exampleEnv [.init]) fun s =>
    holdsAfter (s.run exampleEnv (List.replicate times (told p)).flatten) fun s' =>
      decide ((newCalls s s').filter (fun ev => !ev.isQuiet) = want)

/-- **C106** "The check byte is no data" is false for packets with a byte too few; their checksum is right.  `03 3F`
with check byte `3C` is a speed command, `03 12` with check byte `11` makes locomotive 3 part of consist 17, `03 EC 02`
with check byte `ED` writes `ED` to CV3 when it comes a second time, `03 DE` with check byte `DD` switches F13 to F20,
and `03 F2` with check byte `F1` writes `F1` to CV23 at once. -/
theorem C106_short_packets_false :
    callsFor [3#8, 0x3F#8, 0x3C#8] 1 [.direction 3#16 false, .speed 3#16 119] = true ∧
    callsFor [3#8, 0x12#8, 0x11#8] 1 [.writeCvByte 18#32 0x11#8 0x11#8] = true ∧
    callsFor [3#8, 0xEC#8, 0x02#8, 0xED#8] 2 [.writeCvByte 2#32 0xED#8 0xED#8] = true ∧
    callsFor [3#8, 0xDE#8, 0xDD#8] 1 [.function 3#16 0x1FE000#32 (0xDD#32 <<< 13)] = true ∧
    callsFor [3#8, 0xF2#8, 0xF1#8] 1 [.writeCvByte 22#32 0xF1#8 0xF1#8] = true := by decide +kernel

/-! ### Examples -/

example : Whole (instructionOf [3#8, 0x3F#8, 0x86#8, 0xBA#8]) ∧ Whole (instructionOf [3#8, 0xEC#8, 2#8, 7#8, 0xEA#8]) ∧
    Whole (instructionOf [3#8, 0x91#8, 0x92#8]) ∧ ¬ Whole (instructionOf [3#8, 0x3F#8, 0x3C#8]) := by decide

example : holdsAfter (({} : Rx).run exampleEnv (.init :: hears [3#8, 0x3F#8, 0x86#8, 0xBA#8])) (fun s =>
    decide (front s = some [3#8, 0x3F#8, 0x86#8, 0xBA#8] ∧ s.serviceMode = false ∧
      locoNumber [3#8, 0x3F#8, 0x86#8, 0xBA#8] = some 3 ∧ s.addrs.primary.value = 3#16)) = true := by decide +kernel

end Dcc
