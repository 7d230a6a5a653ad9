import Verif.Props.ShortPacket
/-! Exactly which packets make `execute` read out of bounds, CV accesses included: C29. -/
namespace Dcc
open Spec

variable {e : Env} {s : Rx} {p : Packet} {now : Int} {rand : Nat}

/-- How many bytes of an instruction that begins with `b` are read.  `consist` says that it is for the number of the
consist, `n` how often in a row the packet has been received, if it is a CV access. -/
def Spec.bytesRead (consist : Bool) (n : Nat) (b : Byte) : Nat :=
  if b.toNat / 16 = 14 then
    if consist then 1
    else if b.toNat / 4 % 4 = 0 ∨ (b.toNat / 4 % 4 = 3 ∧ n < 2) then 2
    else 3
  else if b.toNat / 16 = 15 then
    if consist then 1
    else if n ≠ 2 ∧ (b = 0xF4#8 ∨ b = 0xF5#8) then 1
    else instrLength b
  else instrLength b

/-- How often in a row the decoder has received the packet among those for CV access. -/
def Spec.cvTimes (s : Rx) (p : Packet) : Nat := if s.lastOwnCvPacket = p then s.ownEqualCvPackets + 1 else 1

/-- The number is that of the consist. -/
def Spec.toConsist (s : Rx) (a : BitVec 16) : Bool := decide (a ≠ 0#16 ∧ a = s.addrs.consist.value)

private theorem count_times (s : Rx) (p : Packet) : (s.countOwnEqualCvPackets p).ownEqualCvPackets = cvTimes s p := by
  unfold Rx.countOwnEqualCvPackets cvTimes
  split <;> rfl

private theorem count_mode (s : Rx) (p : Packet) : (s.countOwnEqualCvPackets p).serviceMode = s.serviceMode := by
  unfold Rx.countOwnEqualCvPackets
  split <;> rfl

private theorem longKinds : ∀ b : Byte, b.toNat / 16 = 14 → decodeInstructionByte b = .cvLong ∧ instrLength b = 3 ∧
    ((b.toNat / 4 % 4 = 0 ∧ (b >>> 2) &&& 3#8 = 0#8) ∨ (b.toNat / 4 % 4 = 1 ∧ (b >>> 2) &&& 3#8 = 1#8) ∨
      (b.toNat / 4 % 4 = 2 ∧ (b >>> 2) &&& 3#8 = 2#8) ∨ (b.toNat / 4 % 4 = 3 ∧ (b >>> 2) &&& 3#8 = 3#8)) := by
  decide +kernel

private theorem shortKinds : ∀ b : Byte, b.toNat / 16 = 15 → decodeInstructionByte b = .cvShort ∧
    (b = 0xF2#8 ∨ b = 0xF3#8 ∨ b = 0xF4#8 ∨ b = 0xF5#8 ∨ instrLength b = 1) := by decide +kernel

theorem bytesRead_le (c : Bool) (n : Nat) (b : Byte) : bytesRead c n b ≤ instrLength b := by
  have h1 : ∀ b : Byte, 1 ≤ instrLength b := by decide +kernel
  have := h1 b
  unfold bytesRead
  split
  next h => have := (longKinds b h).2.1; split <;> (try split) <;> omega
  · split <;> (try split) <;> (try split) <;> omega

/-- A body that reads another byte than there are does not return normally. -/
private theorem bind_oob {α β : Type} (x : R α) (f : α → R β) (hf : ∀ a, ∃ g, f a = .error g) : ∃ g, (x >>= f) = .error g := by
  cases x with
  | error g => exact ⟨g, rfl⟩
  | ok a => exact hf a

private theorem long_short {b : Byte} {rest : List Byte} (hb : b.toNat / 16 = 14)
    (h : (b :: rest).length < 3) :
    if (b :: rest).length < bytesRead false s.ownEqualCvPackets b then ∃ f, s.cvLongBody e (b :: rest) = .error f
    else ∃ s', s.cvLongBody e (b :: rest) = .ok s' := by
  obtain ⟨-, -, hk⟩ := longKinds b hb
  unfold bytesRead
  rw [if_pos hb, if_neg Bool.false_ne_true]
  unfold Rx.cvLongBody
  rw [byteAt_zero, ok_bind]
  obtain _ | ⟨x, _ | ⟨y, r⟩⟩ := rest
  · rw [if_pos (by simp only [List.length_cons, List.length_nil]; split <;> omega)]
    exact ⟨_, rfl⟩
  · rw [show byteAt [b, x] 1 = .ok x from rfl, ok_bind]
    dsimp only
    rcases hk with ⟨h1, h2⟩ | ⟨h1, h2⟩ | ⟨h1, h2⟩ | ⟨h1, h2⟩ <;> rw [h1, h2]
    · exact ⟨_, rfl⟩
    · exact ⟨_, rfl⟩
    · exact ⟨_, rfl⟩
    · by_cases hn : s.ownEqualCvPackets < 2
      · rw [if_pos (Or.inr ⟨rfl, hn⟩), if_neg (c := [b, x].length < 2) (by simp), if_neg (c := 3#8 = 0#8) (by decide),
          if_neg (c := 3#8 = 1#8) (by decide), if_pos rfl, if_pos hn]
        exact ⟨_, rfl⟩
      · rw [if_neg (c := _ ∨ _) (by omega), if_pos (c := [b, x].length < 3) (by simp), if_neg (c := 3#8 = 0#8) (by decide),
          if_neg (c := 3#8 = 1#8) (by decide), if_pos rfl, if_neg hn]
        by_cases h2 : s.ownEqualCvPackets = 2
        · rw [if_pos h2]
          exact ⟨_, rfl⟩
        · rw [if_neg h2]
          exact ⟨_, rfl⟩
  · simp only [List.length_cons] at h
    omega

private theorem short_short {b : Byte} {rest : List Byte} (hb : b.toNat / 16 = 15)
    (h : (b :: rest).length < instrLength b) :
    if (b :: rest).length < bytesRead false s.ownEqualCvPackets b then ∃ f, s.cvShortBody e (b :: rest) = .error f
    else ∃ s', s.cvShortBody e (b :: rest) = .ok s' := by
  obtain ⟨-, hk⟩ := shortKinds b hb
  unfold bytesRead
  rw [if_neg (c := b.toNat / 16 = 14) (by omega), if_pos hb, if_neg Bool.false_ne_true]
  unfold Rx.cvShortBody
  rw [byteAt_zero, ok_bind]
  have h2 : instrLength 0xF2#8 = 2 := by decide
  have h3 : instrLength 0xF3#8 = 2 := by decide
  have h4 : instrLength 0xF4#8 = 3 := by decide
  have h5 : instrLength 0xF5#8 = 3 := by decide
  simp only [List.length_cons] at h ⊢
  rcases hk with rfl | rfl | rfl | rfl | h1
  · have : rest = [] := List.eq_nil_of_length_eq_zero (by omega)
    subst this
    rw [if_neg (c := _ ∧ _) (fun hx => absurd hx.2 (by decide)), if_pos (by decide)]
    exact ⟨_, rfl⟩
  · have : rest = [] := List.eq_nil_of_length_eq_zero (by omega)
    subst this
    rw [if_neg (c := _ ∧ _) (fun hx => absurd hx.2 (by decide)), if_pos (by decide)]
    exact ⟨_, rfl⟩
  · by_cases hn : s.ownEqualCvPackets = 2
    · rw [if_neg (c := _ ∧ _) (fun hx => absurd hn hx.1), if_pos (by omega)]
      rw [if_neg (by decide), if_neg (by decide), if_pos (by decide), if_neg (not_not_intro hn)]
      obtain _ | ⟨x, _ | ⟨y, r⟩⟩ := rest
      · exact ⟨_, rfl⟩
      · exact bind_oob _ _ fun _ => bind_oob _ _ fun _ => ⟨_, rfl⟩
      · simp only [List.length_cons] at h
        omega
    · rw [if_pos (c := _ ∧ _) ⟨hn, .inl rfl⟩, if_neg (by omega)]
      rw [if_neg (by decide), if_neg (by decide), if_pos (by decide), if_pos hn]
      exact ⟨_, rfl⟩
  · by_cases hn : s.ownEqualCvPackets = 2
    · rw [if_neg (c := _ ∧ _) (fun hx => absurd hn hx.1), if_pos (by omega)]
      rw [if_neg (by decide), if_neg (by decide), if_neg (by decide), if_pos (by decide), if_neg (not_not_intro hn)]
      obtain _ | ⟨x, _ | ⟨y, r⟩⟩ := rest
      · exact ⟨_, rfl⟩
      · exact bind_oob _ _ fun _ => bind_oob _ _ fun _ => ⟨_, rfl⟩
      · simp only [List.length_cons] at h
        omega
    · rw [if_pos (c := _ ∧ _) ⟨hn, .inr rfl⟩, if_neg (by omega)]
      rw [if_neg (by decide), if_neg (by decide), if_neg (by decide), if_pos (by decide), if_pos hn]
      exact ⟨_, rfl⟩
  · omega

/-- An instruction too short for its format is executed exactly if the missing bytes are not read. -/
theorem instruction_reads {a : BitVec 16} {b : Byte} {rest : List Byte} (hm : s.serviceMode = false)
    (h : (b :: rest).length < instrLength b) :
    if (b :: rest).length < bytesRead (toConsist s a) (cvTimes s p) b then
      ∃ f, s.executeInstruction e a p (b :: rest) rand = .error f
    else ∃ s', s.executeInstruction e a p (b :: rest) rand = .ok s' := by
  by_cases h14 : b.toNat / 16 = 14
  · obtain ⟨h1, h3, -⟩ := longKinds b h14
    unfold Rx.executeInstruction decodeInstruction
    rw [byteAt_zero, ok_bind, pure_eq_ok, ok_bind, h1]
    dsimp only
    unfold Rx.cvLong
    by_cases hc : a ≠ 0#16 ∧ a = s.addrs.consist.value
    · rw [if_pos hc, if_neg]
      · exact ⟨_, rfl⟩
      · unfold bytesRead toConsist
        rw [if_pos h14, if_pos (decide_eq_true hc)]
        simp
    · rw [if_neg hc, show toConsist s a = false from decide_eq_false hc, ← count_times]
      dsimp only
      rw [if_neg (c := _ ∧ _) (by rw [count_mode, hm]; exact fun hx => Bool.false_ne_true hx.1)]
      exact long_short h14 (by omega)
  · by_cases h15 : b.toNat / 16 = 15
    · obtain ⟨h1, -⟩ := shortKinds b h15
      unfold Rx.executeInstruction decodeInstruction
      rw [byteAt_zero, ok_bind, pure_eq_ok, ok_bind, h1]
      dsimp only
      unfold Rx.cvShort
      by_cases hc : a ≠ 0#16 ∧ a = s.addrs.consist.value
      · rw [if_pos hc, if_neg]
        · exact ⟨_, rfl⟩
        · unfold bytesRead toConsist
          rw [if_neg h14, if_pos h15, if_pos (decide_eq_true hc)]
          simp
      · rw [if_neg hc, show toConsist s a = false from decide_eq_false hc, ← count_times]
        exact short_short h15 h
    · rw [if_pos (by unfold bytesRead; rw [if_neg h14, if_neg h15]; exact h), instruction_too_short h14 h15 h]
      exact ⟨_, rfl⟩

/-- **C29** `execute` in operations mode returns normally for a packet for the decoder, whatever it contains, exactly
if the packet has the bytes that are read: those of the format of its instruction, but in a CV access fewer if it is
for the consist or has not been received as often as a write needs.  (CV1 does not hold the first byte of a long
address, and the clock has not gone back by a second.) -/
theorem C29_exact (hr : Reachable e s) (hp : front s = some p) (hm : s.serviceMode = false) {n : Nat}
    (hn : locoNumber p = some n) (hf : n = 0 ∨ Active s n) (hodd : ¬ OddCv1 e) (hclock : s.tosTp < now + 1000000000) :
    (∃ s', s.step e (.execute now rand) = .ok s') ↔
      ∃ b rest, afterAddress p = b :: rest ∧
        bytesRead (toConsist s (target s n)) (cvTimes s p) b ≤ (b :: rest).length := by
  have hpe : s.packetEnd = false := by
    unfold front at hp
    split at hp
    · cases hp
    next h => simpa using h
  obtain ⟨rest, hq⟩ : ∃ rest, s.deque = p :: rest := by
    unfold front at hp
    split at hp
    · cases hp
    · cases hq : s.deque with
      | nil => rw [hq] at hp; cases hp
      | cons q r => rw [hq] at hp; cases hp; exact ⟨r, rfl⟩
  have h3 : 3 ≤ p.length := (hr.recvInv.valid p (by simp [hq])).1.1
  obtain ⟨b, r, hb⟩ : ∃ b r, afterAddress p = b :: r := by
    match p, h3 with
    | x :: y :: z :: r, _ =>
      by_cases hx : x.toNat ≤ 127
      · exact ⟨y, z :: r, if_pos hx⟩
      · exact ⟨z, r, if_neg hx⟩
  by_cases hl : instrLength b ≤ (b :: r).length
  · refine ⟨fun _ => ⟨b, r, hb, Nat.le_trans (bytesRead_le _ _ _) hl⟩, fun _ => ?_⟩
    refine C29_execute_total_partial e s hr now rand (fun h => absurd h hodd) (fun q hq => ?_) hclock
    rw [hp] at hq
    cases hq
    exact ⟨b, r, hb, hl⟩
  · have f := (prepare_total e s now).2
    have key := instruction_reads (e := e) (s := s.prepared e now) (p := p) (rand := rand) (a := target s n)
      (by unfold Rx.serviceMode at hm ⊢; rw [f.mode]; exact hm) (Nat.lt_of_not_le hl)
    rw [show toConsist (s.prepared e now) (target s n) = toConsist s (target s n) by unfold toConsist; rw [f.addrs],
      show cvTimes (s.prepared e now) p = cvTimes s p by
        unfold cvTimes; rw [f.lastOwnCvPacket, f.ownEqualCvPackets]] at key
    rw [Rx.step, execute_for e s now rand n p rest hpe hq hm hn hf, hb]
    split at key
    next h =>
      obtain ⟨g, hg⟩ := key
      rw [hg]
      refine ⟨fun ⟨s', hs⟩ => (by cases hs), fun ⟨b', r', h1, h2⟩ => ?_⟩
      cases h1
      omega
    next h =>
      obtain ⟨s', hs⟩ := key
      rw [hs]
      exact ⟨fun _ => ⟨b, r, rfl, Nat.le_of_not_lt h⟩, fun _ => ⟨_, rfl⟩⟩

/-- Write a byte of CV240, without the byte: the checksum is taken for the CV number. -/
def shortWrite : Packet := [3#8, 0xEC#8, 0xEF#8]

example : locoNumber shortWrite = some 3 ∧ ∃ b rest, afterAddress shortWrite = b :: rest ∧
    bytesRead false 1 b ≤ (b :: rest).length ∧ ¬ bytesRead false 2 b ≤ (b :: rest).length :=
  ⟨by decide +kernel, 0xEC#8, [0xEF#8], by decide +kernel, by decide +kernel, by decide +kernel⟩

/-- Received once it does nothing, received twice it makes `execute` read out of bounds. -/
example : holdsAfter (({} : Rx).run shortAddressEnv (.init :: hears shortWrite)) (fun s =>
    decide (front s = some shortWrite ∧ s.serviceMode = false ∧ Active s 3 ∧ s.tosTp < 0 + 1000000000 ∧
      cvTimes s shortWrite = 1 ∧ toConsist s (target s 3) = false) &&
    holdsAfter (s.run shortAddressEnv (.execute 0 0 :: hears shortWrite)) (fun s =>
      decide (front s = some shortWrite ∧ cvTimes s shortWrite = 2 ∧
        s.step shortAddressEnv (.execute 0 0) = .error .oob))) = true := by decide +kernel

end Dcc
