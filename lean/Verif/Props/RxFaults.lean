import Verif.Lemmas.RxFaultExec
import Verif.Props.RxWire
import Verif.Props.RxLink
import Verif.Props.RxBidi
/-! C29: what can go wrong in a call, and when nothing does. -/
namespace Dcc
open Spec

private theorem decode_fault (p : Packet) (f : Fault) :
    decodeInstructionPacket p = .error f ↔ f = .oob ∧ instructionByte p = none := by
  have hat : ∀ (bs : List Byte) (i : Nat) (f : Fault), byteAt bs i = .error f ↔ f = .oob ∧ bs[i]? = none := by
    intro bs i f
    unfold byteAt
    cases hx : bs[i]? <;> simp [eq_comm]
  cases p with
  | nil =>
    rw [decodeInstructionPacket, bind_eq_error, hat]
    simp [instructionByte, byteAt]
  | cons a rest =>
    unfold decodeInstructionPacket instructionByte
    rw [byteAt_zero, ok_bind]
    dsimp only
    rw [bind_eq_error, hat]
    have key : ∀ a : Byte, (128#8 ≤ a ∧ a ≤ 252#8) ↔ (128 ≤ a.toNat ∧ a.toNat ≤ 252) := fun _ => Iff.rfl
    by_cases h : 128 ≤ a.toNat ∧ a.toNat ≤ 252
    · rw [if_pos ((key a).mpr h), if_pos h]
      simp
    · rw [if_neg (fun h' => h ((key a).mp h')), if_neg h]
      simp

/-- **C29** Channel 2 faults exactly if the packet last received counts as one for the decoder itself
and the packet buffer lacks an instruction byte. -/
theorem C29_channel2_exact (s : Rx) (f : Fault) :
    s.biDiChannel2 = .error f ↔ f = .oob ∧ LacksInstruction s := by
  have body : (if s.addrs.received.eq (if s.logon.assigned then s.addrs.logon else s.addrs.primary) then do
        let i ← decodeInstructionPacket s.link.packet
        return if i = Instruction.cvLong then s.appPom else s.appDyn
      else if s.addrs.received.eq s.addrs.consist && s.cfg.ch2ConsistEnabled then .ok s.appDyn
      else .ok s : R Rx) = .error f ↔
      f = .oob ∧ SameDecoder s.addrs.received (ownAddress s) ∧ instructionByte s.link.packet = none := by
    rw [SameDecoder.iff_eq, ownAddress]
    by_cases h : s.addrs.received.eq (if s.logon.assigned then s.addrs.logon else s.addrs.primary) = true
    · rw [if_pos h, bind_eq_error, decode_fault]
      constructor
      · rintro (⟨h1, h2⟩ | ⟨_, -, h1⟩)
        · exact ⟨h1, h, h2⟩
        · cases h1
      · rintro ⟨h1, -, h2⟩; exact .inl ⟨h1, h2⟩
    · rw [if_neg h]
      constructor
      · intro h'; split at h' <;> cases h'
      · rintro ⟨-, h', -⟩; exact absurd h' h
  unfold Rx.biDiChannel2 LacksInstruction
  cases ht : s.addrs.received.type with
  | short =>
    dsimp only
    rw [body]; simp
  | long =>
    dsimp only
    rw [body]; simp
  | _ => simp

/-- **C29** (partial) Whatever the history, a call faults only for one of the reasons listed in
`FaultCause`; in particular all reads out of bounds come from packets that are too short, from a CV1
that is none and from channel 2 being used after the next packet has begun or after an invalid packet.  `enable`, `disable`,
`datagram`, `biDiChannel1` and the callbacks never fault. -/
theorem C29_causes_partial (e : Env) (s : Rx) (hr : Reachable e s) (op : RxOp) (f : Fault)
    (h : s.step e op = .error f) : FaultCause e s op f := by
  cases op with
  | init =>
    obtain ⟨rfl, h1⟩ := init_fault h
    exact .init h1
  | enable => cases h
  | disable => cases h
  | receive t rand =>
    rcases receive_faults e s hr t rand f h with ⟨rfl, h1, h2⟩ |
      ⟨h1, h2, c, h3, ⟨rfl, h4⟩ | ⟨rfl, h4, h5, h6⟩⟩
    · exact .longPacket t rand h1 h2
    · exact .shortLogon t rand c h2 h3 h4
    · exact .logonQueue t rand c h2 h3 h6 h4
  | execute now rand => exact execute_faults e s hr.recvInv now rand f h
  | datagram ds =>
    obtain ⟨q, b, h1, -⟩ := datagram_words e s ds (dyn_reachable e s hr)
    have h : s.datagram e ds = .error f := h
    rw [h1] at h
    cases h
  | biDiChannel1 => cases h
  | biDiChannel2 =>
    obtain ⟨rfl, h1⟩ := (C29_channel2_exact s f).mp h
    exact .channel2 h1
  | callbackByte i v =>
    simp only [Rx.step] at h
    split at h
    · rw [callbackByte_eq] at h; cases h
    · cases h
  | callbackBit i v =>
    simp only [Rx.step] at h
    split at h
    · rw [callbackBit_eq] at h; cases h
    · cases h

/-- **C29** (partial) No call reads out of bounds provided that all packets received are long enough
for their instruction or logon command, that CV1 does not hold the first byte of a long address
(unless this call does not read CV1) and that channel 2 is used while there is an instruction byte (see
`C29_channel2_until_start`). -/
theorem C29_no_read_out_of_bounds_partial (e : Env) (ops : List RxOp) (s : Rx) (op : RxOp)
    (h : ({} : Rx).run e ops = .ok s)
    (hcv : OddCv1 e → op ≠ .init ∧ ∀ p, front s = some p → writesCvs s p = false)
    (hp : ∀ p ∈ arrivals e {} ops, LongEnough p)
    (hlogon : ∀ c, logonCommand s.link.packet = some c → op.isReceive = true →
      LogonLength s.link.packet c)
    (hch : op = .biDiChannel2 → ¬ LacksInstruction s) : s.step e op ≠ .error .oob := by
  intro hx
  have hr := Reachable.of_run h
  generalize hf : Fault.oob = f at hx
  cases C29_causes_partial e s hr op f hx with
  | init h1 => exact (hcv h1).1 rfl
  | initAfterWrite now rand p hp hw h1 => rw [(hcv h1).2 p hp] at hw; cases hw
  | shortPacket now rand p hfr hm hd hl =>
    refine hl (hp p ?_)
    have hq := C27_fifo e ops {} s .start h
    have hmem : p ∈ s.deque := by
      unfold front at hfr
      split at hfr
      · cases hfr
      · exact List.mem_of_mem_head? hfr
    have : p ∈ executed e {} ops ++ s.deque := List.mem_append_right _ hmem
    rw [← hq] at this
    simpa using this
  | clock => cases hf
  | longPacket => cases hf
  | shortLogon t rand c ha hc hl => exact hl (hlogon c hc rfl)
  | logonQueue => cases hf
  | channel2 h => exact hch rfl h

/-- No call of a history makes the decoder take a start bit. -/
def betweenPackets (e : Env) (s : Rx) : List RxOp → Bool
  | [] => !s.link.state.halves
  | op :: ops => !s.link.state.halves &&
    match s.step e op with
    | .error _ => true
    | .ok s' => betweenPackets e s' ops

private theorem between_packet (e : Env) (s s' : Rx) (op : RxOp) (h0 : s.link.state.halves = false)
    (h1 : s'.link.state.halves = false) (h : s.step e op = .ok s') : s'.link.packet = s.link.packet := by
  by_cases hr : ∃ t r, op = .receive t r
  · obtain ⟨t, r, rfl⟩ := hr
    have h : s.receive e t r = .ok s' := h
    unfold Rx.receive at h
    simp only [h0, Bool.false_and, Bool.false_eq_true, if_false] at h
    have bit : ∀ b, Rx.receiveBit e { s with link := { s.link with packetEnd := false } } b r = .ok s' →
        s'.link.packet = s.link.packet := by
      intro b h
      unfold Rx.receiveBit at h
      dsimp only at h
      cases hst : s.link.state <;> rw [hst] at h h0 <;> dsimp only at h
      · repeat' split at h
        all_goals cases h; rfl
      · cases h; cases h1
      · cases h0
      · cases h0
    repeat' split at h
    all_goals first | (cases h; rfl) | exact bit _ h
  · by_cases hd : op = .disable
    · subst hd
      rcases (step_disable e s s' h).1 with h | h <;> rw [h]
      rfl
    · rw [(step_other e s s' op h (fun t r hx => hr ⟨t, r, hx⟩) hd).1]

/-- The packet stays as it is until the next start bit. -/
theorem betweenPackets_packet (e : Env) (s s' : Rx) (ops : List RxOp)
    (hb : betweenPackets e s ops = true) (h : s.run e ops = .ok s') :
    s'.link.packet = s.link.packet := by
  have key : ∀ (ops : List RxOp) (s : Rx), betweenPackets e s ops = true → s.run e ops = .ok s' →
      s'.link.packet = s.link.packet := by
    intro ops
    induction ops with
    | nil => intro s _ h; cases h; rfl
    | cons op ops ih =>
      intro s hb h
      rw [Rx.run, bind_eq_ok] at h
      obtain ⟨s1, h1, h2⟩ := h
      rw [betweenPackets, h1] at hb
      simp only [Bool.and_eq_true, Bool.not_eq_true'] at hb
      have h0 : s1.link.state.halves = false := by
        have := hb.2
        cases ops with
        | nil => simpa [betweenPackets] using this
        | cons _ _ =>
          rw [betweenPackets] at this
          simp only [Bool.and_eq_true, Bool.not_eq_true'] at this
          exact this.1
      exact (ih s1 hb.2 h2).trans (between_packet e s s1 op hb.1 h0 h1)
  exact key ops s hb h

/-- **C29** Once a packet has been received, channel 2 can be used without a fault until the decoder
takes the start bit of the next packet, whatever calls there are in between. -/
theorem C29_channel2_until_start (e : Env) (s s' : Rx) (ops : List RxOp) (hr : Reachable e s)
    (hp : s.packetEnd = true) (hb : betweenPackets e s ops = true) (h : s.run e ops = .ok s') :
    ∃ s'', s'.biDiChannel2 = .ok s'' := by
  have h3 : 3 ≤ s.link.packet.length := (hr.recvInv.link.pend hp).2.1
  rw [← betweenPackets_packet e s s' ops hb h] at h3
  cases hx : s'.biDiChannel2 with
  | ok s'' => exact ⟨s'', rfl⟩
  | error f =>
    obtain ⟨-, -, -, h4⟩ := (C29_channel2_exact s' f).mp hx
    exfalso
    unfold instructionByte at h4
    split at h4
    · rename_i h; rw [h] at h3; simp at h3
    · rename_i b rest h
      rw [h] at h3
      simp only [List.length_cons] at h3
      split at h4
      · rw [List.getElem?_eq_none_iff] at h4; omega
      · rw [List.getElem?_eq_none_iff] at h4; omega

/-- **C29** (partial) `execute` returns normally on every packet that is long enough, if CV1 does not
hold the first byte of a long address and the clock has not gone back by a second. -/
theorem C29_execute_total_partial (e : Env) (s : Rx) (hr : Reachable e s) (now : Int) (rand : Nat)
    (hcv : OddCv1 e → ∀ p, front s = some p → writesCvs s p = false)
    (hp : ∀ p, front s = some p → LongEnough p)
    (hclock : s.tosTp < now + 1000000000) : ∃ s', s.step e (.execute now rand) = .ok s' := by
  cases hx : s.step e (.execute now rand) with
  | ok s' => exact ⟨s', rfl⟩
  | error f =>
    cases C29_causes_partial e s hr _ f hx with
    | initAfterWrite _ _ p hp' hw h1 => rw [hcv h1 p hp'] at hw; cases hw
    | shortPacket _ _ p hfr hm hd hl => exact absurd (hp p hfr) hl
    | clock _ _ p hfr hd h1 => omega

/-- A binary state packet without its data: two bytes and the checksum. -/
def shortState : Packet := [3#8, 0xC0#8, 0xC3#8]

/-- SELECT without its data. -/
def shortSelect : Packet := [254#8, 0xD0#8, 0x2E#8]

/-- The history ends with a read out of bounds in its last call. -/
def readsOutside (e : Env) (ops : List RxOp) (op : RxOp) : Bool :=
  match ({} : Rx).run e ops with
  | .ok s => decide (s.step e op = .error .oob)
  | .error _ => false

/-- **C29** is false: the library accepts packets that are too short for their instruction and reads
behind their end when it executes them. -/
theorem C29_no_read_out_of_bounds_false : ¬ ∀ (e : Env) (ops : List RxOp),
    ({} : Rx).run e ops ≠ .error .oob := by
  intro h
  exact h exampleEnv (.init :: hears shortState ++ [.execute 0 0]) (by decide +kernel)

/-- **C29** is false for packets of automatic logon. -/
theorem C29_logon_false : ¬ ∀ (e : Env) (ops : List RxOp) (t rand : Nat),
    readsOutside e ops (.receive t rand) = false := by
  intro h
  have := h exampleEnv (.init :: (hears shortSelect).dropLast.dropLast) 58 0
  revert this
  decide +kernel

/-- **C29** is false for channel 2, if it is used after the next packet has begun. -/
theorem C29_channel2_false : ¬ ∀ (e : Env) (ops : List RxOp),
    readsOutside e ops .biDiChannel2 = false := by
  intro h
  have := h exampleEnv (.init :: hears [3#8, 0x3F#8, 0x80#8, 0xBC#8] ++
    ((hears [3#8, 0x3F#8, 0x80#8, 0xBC#8]).take 40))
  revert this
  decide +kernel

/-- **C29** is false for CV1: a value of 192 to 231 is taken for the first byte of a long address. -/
theorem C29_cv1_false (e : Env) (h29 : ∀ calls, (e.readCv calls 28#32).getLsbD 5 = false)
    (h1 : ∀ calls, 192 ≤ (e.readCv calls 0#32).toNat ∧ (e.readCv calls 0#32).toNat ≤ 231) (s : Rx) :
    s.step e .init = .error .oob := by
  have key : ∀ b : Byte, 192 ≤ b.toNat ∧ b.toNat ≤ 231 → decodeAddress [b] = .error .oob := by
    decide +kernel
  show s.init e = _
  unfold Rx.init Rx.initPrimary Rx.readCv
  dsimp only
  rw [h29]
  simp only [Bool.false_eq_true, if_false]
  rw [key _ (h1 _)]
  rfl

/-- The hypotheses of `C29_no_read_out_of_bounds_partial` hold for packets as they should be. -/
example : LongEnough [3#8, 0x3F#8, 0x80#8, 0xBC#8] ∧ ¬ LongEnough shortState ∧
    LongEnough [0xC4#8, 0xD2#8, 0xEC#8, 0#8, 5#8, 0xFF#8] ∧ instrLength 0xEC#8 = 3 := by
  decide +kernel

/-- A packet may be executed and preamble bits be received before channel 2 is used. -/
example : holdsAfter (({} : Rx).run exampleEnv (.init :: hears [3#8, 0x3F#8, 0x80#8, 0xBC#8]).dropLast)
    (fun s => s.packetEnd && betweenPackets exampleEnv s
      [.receive 5000 0, .execute 0 0, .receive 58 0, .receive 58 0]) = true := by decide +kernel

/-- A user class that only lets addresses up to 127 be stored in CV1. -/
def shortAddressEnv : Env :=
  { exampleEnv with readCv := fun calls cv =>
      if cv = 0#32 then exampleEnv.readCv calls cv &&& 0x7F#8 else exampleEnv.readCv calls cv }

example : ¬ OddCv1 shortAddressEnv := by
  rintro ⟨calls, h1, -⟩
  have key : ∀ b : Byte, ¬ 192 ≤ (b &&& 0x7F#8).toNat := by decide +kernel
  exact key _ h1

/-- Both theorems apply to a decoder that has received a packet, with any user class. -/
example : holdsAfter (({} : Rx).run exampleEnv (.init :: hears [3#8, 0x3F#8, 0x80#8, 0xBC#8]))
    (fun s => decide ((∀ p ∈ arrivals exampleEnv {} (.init :: hears [3#8, 0x3F#8, 0x80#8, 0xBC#8]),
      LongEnough p) ∧ front s = some [3#8, 0x3F#8, 0x80#8, 0xBC#8] ∧
      writesCvs s [3#8, 0x3F#8, 0x80#8, 0xBC#8] = false ∧ s.tosTp = 0)) = true := by decide +kernel

end Dcc
