import Verif.Props.RxFaults
import Verif.Props.RxBidi
import Verif.Props.RxLogon
/-!
C70: the decoder is silent in the cutout after an invalid packet.

include/dcc/rx/crtp_base.hpp:168-172 means to forget the received address when a packet is invalid,
but the assignment from `{}` only sets its value to 0 and keeps its type.
-/
namespace Dcc
open Spec

/-- The call receives the last half bit of a packet that is invalid: its bytes do not cancel out, or
there are fewer than three. -/
structure EndsInvalid (e : Env) (s : Rx) (op : RxOp) : Prop where
  half : ∃ t r, op = .receive t r ∧ time2bit t = .b1
  atEnd : s.link.state = .endbit
  second : s.link.isHalfbit = true
  room : s.deque.length < e.rxDeque
  invalid : exor s.link.packet ≠ 0#8 ∨ s.link.packet.length < 3

/-- What the decoder remembers of an invalid packet. -/
def forgotten (s : Rx) : Rx :=
  { s with
    link := { s.link with
      packet := [], packetEnd := false, isHalfbit := false, bitCount := 0, byte := 0#8,
      checksum := 0#8, state := .preamble }
    addrs := { s.addrs with received := { s.addrs.received with value := 0#16 } } }

/-- **C70** An invalid packet is dropped.  Of the address received before only the value is cleared;
nothing else changes. -/
theorem C70_dropped (e : Env) (s : Rx) (op : RxOp) (hr : Reachable e s) (h : EndsInvalid e s op) :
    s.step e op = .ok (forgotten s) := by
  obtain ⟨⟨t, r, rfl, ht⟩, hst, hh, hroom, hbad⟩ := h
  have hsum : s.link.checksum = exor s.link.packet :=
    hr.recvInv.link.sum (by rw [hst]; rfl)
  have hc : ¬ (s.link.checksum = 0#8 ∧ 3 ≤ s.link.packet.length) := by
    rw [hsum]; rintro ⟨h1, h2⟩; rcases hbad with h | h
    · exact h h1
    · omega
  have hhalf : LinkState.endbit.halves = true := rfl
  show s.receive e t r = _
  unfold Rx.receive
  dsimp only
  rw [ht]
  dsimp only
  rw [hst, hh, hhalf]
  simp only [Bool.true_and, Bool.not_true, Bool.false_eq_true, if_false, if_true, decide_true]
  rw [if_neg (by omega)]
  unfold Rx.receiveBit
  dsimp only
  rw [if_neg (by simp), endOfPacket_bad]
  · rfl
  · exact hc

/-- The received address only changes with the end of a packet. -/
private theorem between_received (e : Env) (s s' : Rx) (op : RxOp)
    (h0 : s.link.state.halves = false) (h : s.step e op = .ok s') :
    s'.addrs.received = s.addrs.received := by
  cases op with
  | init => exact ((frame_init e s).out _ h).received
  | enable =>
    simp only [Rx.step, Rx.enable, Except.ok.injEq] at h
    subst h
    split <;> rfl
  | disable =>
    simp only [Rx.step, Rx.disable, Except.ok.injEq] at h
    subst h
    split <;> rfl
  | receive t r =>
    have h : s.receive e t r = .ok s' := h
    unfold Rx.receive at h
    simp only [h0, Bool.false_and, Bool.false_eq_true, if_false] at h
    have bit : ∀ b, Rx.receiveBit e { s with link := { s.link with packetEnd := false } } b r = .ok s' →
        s'.addrs.received = s.addrs.received := by
      intro b h
      unfold Rx.receiveBit at h
      dsimp only at h
      cases hst : s.link.state <;> rw [hst] at h h0 <;> dsimp only at h
      · repeat' split at h
        all_goals cases h; rfl
      · cases h; rfl
      · cases h0
      · cases h0
    repeat' split at h
    all_goals first | (cases h; rfl) | exact bit _ h
  | execute now rand =>
    simp only [Rx.step, bind_eq_ok, pure_eq_ok, Except.ok.injEq] at h
    obtain ⟨⟨s1, ret⟩, h1, rfl⟩ := h
    rcases execute_cases e s s1 now rand ret h1 with ⟨-, rfl, -⟩ | ⟨p, rest, s2, s3, -, -, -, f1, -, f2, rfl⟩
    · rfl
    · exact f2.received.trans (by rw [f1.addrs])
  | datagram ds =>
    obtain ⟨q, b, rfl⟩ := datagram_eq e s s' ds h
    rfl
  | biDiChannel1 =>
    simp only [Rx.step, Except.ok.injEq] at h
    obtain ⟨q, evs, h1⟩ := channel1_eq s
    subst h
    rw [h1]
  | biDiChannel2 =>
    obtain ⟨q, evs, rfl, _⟩ := channel2_eq s s' h
    rfl
  | callbackByte i v =>
    simp only [Rx.step] at h
    split at h
    · exact ((frame_callbackByte s _ v).out _ h).received
    · cases h; rfl
  | callbackBit i v =>
    simp only [Rx.step] at h
    split at h
    · exact ((frame_callbackBit s _ v).out _ h).received
    · cases h; rfl

/-- **C70** Until the decoder takes the start bit of the next packet the received address keeps its
type and has the value 0, and there is no packet, whatever calls there are. -/
theorem C70_until_start (e : Env) (s s1 s2 : Rx) (op : RxOp) (ops : List RxOp) (hr : Reachable e s)
    (h : EndsInvalid e s op) (h1 : s.step e op = .ok s1) (hb : betweenPackets e s1 ops = true)
    (h2 : s1.run e ops = .ok s2) :
    s2.addrs.received = { s.addrs.received with value := 0#16 } ∧ s2.link.packet = [] := by
  rw [C70_dropped e s op hr h] at h1
  cases h1
  refine ⟨?_, betweenPackets_packet e _ s2 ops hb h2⟩
  have key : ∀ (ops : List RxOp) (s : Rx), betweenPackets e s ops = true → s.run e ops = .ok s2 →
      s2.addrs.received = s.addrs.received := by
    intro ops
    induction ops with
    | nil => intro s _ h; cases h; rfl
    | cons op ops ih =>
      intro s hb h
      rw [Rx.run, bind_eq_ok] at h
      obtain ⟨s1, h1, h2⟩ := h
      rw [betweenPackets, h1] at hb
      simp only [Bool.and_eq_true, Bool.not_eq_true'] at hb
      exact (ih s1 hb.2 h2).trans (between_received e s s1 op hb.1 h1)
  exact key ops _ hb h2

/-- The decoder, or the consist it is in, has a locomotive address of value 0.  `init` gives every
decoder without a consist the consist address 0. -/
def answersToZero (s : Rx) : Bool :=
  ((ownAddress s).type.isLoco && (ownAddress s).value == 0#16) ||
    (s.cfg.ch2ConsistEnabled && s.addrs.consist.type.isLoco && s.addrs.consist.value == 0#16)

/-- **C70** (partial) The decoder is silent in both channels after an invalid packet if the packet
before it was neither a broadcast, nor for a locomotive, nor for automatic logon.  Channel 2 is
also silent if that packet was for a locomotive, unless the decoder answers to the address 0. -/
theorem C70_silent_partial (e : Env) (s s1 s2 : Rx) (op : RxOp) (ops : List RxOp) (hr : Reachable e s)
    (h : EndsInvalid e s op) (h1 : s.step e op = .ok s1) (hb : betweenPackets e s1 ops = true)
    (h2 : s1.run e ops = .ok s2)
    (ht : s.addrs.received.type ≠ .broadcast ∧ s.addrs.received.type ≠ .automaticLogon) :
    (s.addrs.received.type.isLoco = false →
      s2.step e .biDiChannel1 = .ok s2 ∧ s2.step e .biDiChannel2 = .ok s2) ∧
    (answersToZero s2 = false → s2.step e .biDiChannel2 = .ok s2) := by
  obtain ⟨ha, hp⟩ := C70_until_start e s s1 s2 op ops hr h h1 hb h2
  simp only [Rx.step, Rx.biDiChannel1, Rx.biDiChannel2, ha]
  refine ⟨fun hl => ?_, fun hz => ?_⟩
  · cases hty : s.addrs.received.type <;> simp_all [AddrType.isLoco]
  · simp only [answersToZero, Bool.or_eq_false_iff] at hz
    have zero : ∀ a b : Address, a.type.isLoco = true → a.value = 0#16 →
        (b.type.isLoco && b.value == 0#16) = false → a.eq b = false := by
      intro a b h1 h2 h3
      cases h4 : b.type.isLoco
      · have : (a.type == b.type) = false := by
          rw [beq_eq_false_iff_ne]
          intro h5; rw [h5, h4] at h1; cases h1
        simp [Address.eq, h4, this]
      · rw [h4] at h3
        simp only [Bool.true_and, beq_eq_false_iff_ne] at h3
        simp only [Address.eq, h1, h4, h2, Bool.and_self, if_true, beq_eq_false_iff_ne]
        exact fun h => h3 h.symm
    have own : ∀ hl : s.addrs.received.type.isLoco = true,
        ({ s.addrs.received with value := 0#16 } : Address).eq
          (if s2.logon.assigned then s2.addrs.logon else s2.addrs.primary) = false :=
      fun hl => zero _ _ hl rfl hz.1
    have con : ∀ hl : s.addrs.received.type.isLoco = true,
        (({ s.addrs.received with value := 0#16 } : Address).eq s2.addrs.consist &&
          s2.cfg.ch2ConsistEnabled) = false := by
      intro hl
      cases hc : s2.cfg.ch2ConsistEnabled
      · simp
      · rw [Bool.and_true]
        exact zero _ _ hl rfl (by simpa [hc] using hz.2)
    cases hty : s.addrs.received.type <;> simp only [hty] at ht own con ⊢
    case broadcast => exact absurd rfl ht.1
    case automaticLogon => exact absurd rfl ht.2
    all_goals (rw [own rfl, con rfl]; rfl)

/-- A packet for address 3 with a wrong checksum. -/
def wrongSum : Packet := [3#8, 0x3F#8, 0x80#8, 0xBD#8]

/-- The next half bit ends an invalid packet. -/
def endsInvalidNow (e : Env) (s : Rx) : Bool :=
  s.link.state = .endbit && s.link.isHalfbit && decide (s.deque.length < e.rxDeque) &&
    decide (exor s.link.packet ≠ 0#8 ∨ s.link.packet.length < 3)

private theorem endsInvalid_of {e : Env} {s : Rx} (h : endsInvalidNow e s = true) :
    EndsInvalid e s (.receive 58 0) := by
  simp only [endsInvalidNow, Bool.and_eq_true, decide_eq_true_eq] at h
  exact ⟨⟨58, 0, rfl, rfl⟩, h.1.1.1, h.1.1.2, h.1.2, h.2⟩

/-- A decoder that has executed a packet and receives an invalid one. -/
def thenInvalid (p : Packet) : List RxOp :=
  .init :: hears p ++ [.execute 0 0] ++ lastHalf wrongSum

/-- The messages transmitted by one call after the end of the invalid packet. -/
def messagesAfter (e : Env) (s : Rx) (op : RxOp) : List (List Byte) :=
  match s.step e (.receive 58 0) with
  | .error _ => []
  | .ok s1 => sent (fun _ _ => true) e s1 [op]

private theorem not_silent (e : Env) (ops : List RxOp) (op : RxOp)
    (hw : holdsAfter (({} : Rx).run e ops) (fun s => endsInvalidNow e s &&
      decide (messagesAfter e s op ≠ [])) = true) :
    ¬ ∀ (e : Env) (s s1 : Rx) (last : RxOp), Reachable e s → EndsInvalid e s last →
      s.step e last = .ok s1 → sent (fun _ _ => true) e s1 [op] = [] := by
  intro h
  obtain ⟨s, h1, h2⟩ := holdsAfter_ok hw
  simp only [Bool.and_eq_true, decide_eq_true_eq] at h2
  obtain ⟨h2, h3⟩ := h2
  have hr := Reachable.of_run h1
  have hi := endsInvalid_of h2
  have hd := C70_dropped e s _ hr hi
  rw [messagesAfter, hd] at h3
  exact h3 (h e s _ _ hr hi hd)

/-- **C70** is false: after a packet for any locomotive and an invalid packet the decoder transmits
its address in channel 1. -/
theorem C70_silent_false : ¬ ∀ (e : Env) (s s1 : Rx) (last : RxOp), Reachable e s →
    EndsInvalid e s last → s.step e last = .ok s1 →
    sent (fun _ _ => true) e s1 [.biDiChannel1] = [] :=
  not_silent exampleEnv (thenInvalid [4#8, 0x3F#8, 0x80#8, 0xBB#8]) _ (by decide +kernel)

/-- A decoder without consist that may report in channel 2 for its consist (CV20 bit 7). -/
def consistChannelEnv : Env := memEnv fun cv => if cv = 19#32 then 0x80#8 else exampleCvs cv

/-- **C70** is false in channel 2: a decoder without consist whose CV20 lets it report for its consist
transmits dynamic data after a packet for another decoder and an invalid packet. -/
theorem C70_channel2_false : ¬ ∀ (e : Env) (s s1 : Rx) (last : RxOp), Reachable e s →
    EndsInvalid e s last → s.step e last = .ok s1 →
    sent (fun _ _ => true) e s1 [.biDiChannel2] = [] :=
  not_silent consistChannelEnv
    (.init :: hears [4#8, 0x3F#8, 0x80#8, 0xBB#8] ++ [.execute 0 0, .datagram [.kmh 50#16]] ++
      lastHalf wrongSum) _ (by decide +kernel)

/-- A decoder with the long address 0. -/
def longZeroEnv : Env := memEnv fun cv =>
  if cv = 16#32 then 0xC0#8 else if cv = 28#32 then 0x2A#8 else exampleCvs cv

/-- **C70** is false: a decoder with the long address 0 reads behind the end of the packet it has
dropped when its channel 2 is used. -/
theorem C70_fault_false : ¬ ∀ (e : Env) (s s1 : Rx) (last : RxOp), Reachable e s →
    EndsInvalid e s last → s.step e last = .ok s1 → s1.step e .biDiChannel2 ≠ .error .oob := by
  intro h
  obtain ⟨s, h1, h2⟩ := holdsAfter_ok (r := ({} : Rx).run longZeroEnv
      (thenInvalid [4#8, 0x3F#8, 0x80#8, 0xBB#8])) (p := fun s => endsInvalidNow longZeroEnv s &&
    (match s.step longZeroEnv (.receive 58 0) with
      | .error _ => false
      | .ok s1 => decide (s1.step longZeroEnv .biDiChannel2 = .error .oob))) (by decide +kernel)
  simp only [Bool.and_eq_true] at h2
  obtain ⟨h2, h3⟩ := h2
  have hr := Reachable.of_run h1
  have hi := endsInvalid_of h2
  have hd := C70_dropped _ s _ hr hi
  rw [hd] at h3
  exact h _ s _ _ hr hi hd (by simpa using h3)

/-- The hypotheses of `C70_silent_partial`: an invalid packet after one for an accessory decoder, or
for a locomotive, and calls up to the next start bit. -/
example : holdsAfter (({} : Rx).run exampleEnv (thenInvalid [0x81#8, 0xF8#8, 0x79#8])) (fun s =>
      endsInvalidNow exampleEnv s && decide (s.addrs.received.type = .accessory) &&
      holdsAfter (s.step exampleEnv (.receive 58 0)) (fun s1 => betweenPackets exampleEnv s1
        [.receive 5000 0, .execute 0 0, .receive 58 0] && !answersToZero s1)) = true ∧
    holdsAfter (({} : Rx).run exampleEnv (thenInvalid [4#8, 0x3F#8, 0x80#8, 0xBB#8])) (fun s =>
      endsInvalidNow exampleEnv s && decide (s.addrs.received.type = .short) &&
      holdsAfter (s.step exampleEnv (.receive 58 0)) (fun s1 => betweenPackets exampleEnv s1
        [.receive 5000 0, .execute 0 0, .receive 58 0] && !answersToZero s1)) = true := by
  decide +kernel

end Dcc
