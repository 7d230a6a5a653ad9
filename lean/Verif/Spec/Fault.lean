import Verif.Spec.Logon
import Verif.Spec.Bidi
/-!
Why a call can fault: what the receiver reads must be there.
-/
namespace Dcc.Spec

/-- The bytes an RCN-212/RCN-214 instruction consists of, going by its first byte, without the
checksum: consist control `0001GGGG 0AAAAAAA`, 126 speed steps, special modes and speed with functions
`001111GG DDDDDDDD`, binary states `11000000 DLLLLLLL HHHHHHHH` and `11011101 DLLLLLLL`, functions
F13 to F28 `1101111G DDDDDDDD`, CV access in the long form `1110GGVV VVVVVVVV DDDDDDDD` and in the
short form `1111GGGG DDDDDDDD` or `1111010G DDDDDDDD DDDDDDDD`. -/
def instrLength (b : Byte) : Nat :=
  if b.toNat / 16 = 1 then 2
  else if b.toNat = 0x3C ∨ b.toNat = 0x3E ∨ b.toNat = 0x3F then 2
  else if b.toNat = 0xC0 then 3
  else if b.toNat = 0xDD ∨ b.toNat = 0xDE ∨ b.toNat = 0xDF then 2
  else if b.toNat / 16 = 14 then 3
  else if b.toNat = 0xF2 ∨ b.toNat = 0xF3 then 2
  else if b.toNat = 0xF4 ∨ b.toNat = 0xF5 then 3
  else 1

/-- Behind the address the packet has at least as many bytes as the instruction, even if the checksum
is counted.  (A packet that is too short by only one byte makes no trouble of this kind.) -/
def LongEnough (p : Packet) : Prop :=
  ∃ b rest, afterAddress p = b :: rest ∧ instrLength b ≤ (b :: rest).length

instance (p : Packet) : Decidable (LongEnough p) :=
  match h : afterAddress p with
  | [] => .isFalse fun ⟨_, _, h1, _⟩ => by rw [h] at h1; cases h1
  | b :: rest =>
    if hl : instrLength b ≤ (b :: rest).length then .isTrue ⟨b, rest, h, hl⟩
    else .isFalse fun ⟨b', rest', h1, h2⟩ => by rw [h] at h1; cases h1; exact hl h2

/-- The packet may write CVs: consist control, CV access in the long or short form, or any packet in
service mode. -/
def writesCvs (s : Rx) (p : Packet) : Bool :=
  s.serviceMode || (afterAddress p).head?.any fun b =>
    b.toNat / 16 = 1 || b.toNat / 16 = 14 || b.toNat / 16 = 15

/-- CV1 holds 192 to 231, the first byte of a long address, which is none for CV1. -/
def OddCv1 (e : Env) : Prop :=
  ∃ calls, 192 ≤ (e.readCv calls 0#32).toNat ∧ (e.readCv calls 0#32).toNat ≤ 231

/-- The packet last received counts as one for the decoder itself, and there is no instruction byte in
the packet buffer. -/
def LacksInstruction (s : Rx) : Prop :=
  (s.addrs.received.type = .short ∨ s.addrs.received.type = .long) ∧
    SameDecoder s.addrs.received (ownAddress s) ∧ instructionByte s.link.packet = none

/-- All the ways a call can fault. -/
inductive FaultCause (e : Env) (s : Rx) : RxOp → Fault → Prop
  /-- `init`, called by the user or after the write of a configuration CV, reads a second address byte
  behind CV1. -/
  | init (h : OddCv1 e) : FaultCause e s .init .oob
  | initAfterWrite (now : Int) (rand : Nat) (p : Packet) (hp : front s = some p)
      (hw : writesCvs s p = true) (h : OddCv1 e) : FaultCause e s (.execute now rand) .oob
  /-- In operations mode, a packet for the decoder is too short for its instruction. -/
  | shortPacket (now : Int) (rand : Nat) (p : Packet) (hp : front s = some p)
      (hm : s.serviceMode = false) (hd : ForDecoder s p) (hl : ¬ LongEnough p) :
      FaultCause e s (.execute now rand) .oob
  /-- A tip-off search comes when the clock has gone back by a second or more. -/
  | clock (now : Int) (rand : Nat) (p : Packet) (hp : front s = some p) (hd : searchPacket s p = true)
      (h : now + 1000000000 ≤ s.tosTp) : FaultCause e s (.execute now rand) .assertion
  /-- A packet is longer than `DCC_MAX_PACKET_SIZE`. -/
  | longPacket (time rand : Nat) (hs : s.link.state = .data) (hl : s.link.packet.length = 18) :
      FaultCause e s (.receive time rand) .overflow
  /-- A logon packet is too short for its command. -/
  | shortLogon (time rand : Nat) (c : LogonCommand) (ha : logonAccepted s.link.packet)
      (hc : logonCommand s.link.packet = some c) (hl : ¬ LogonLength s.link.packet c) :
      FaultCause e s (.receive time rand) .oob
  /-- A logon packet is to be answered while an answer is waiting. -/
  | logonQueue (time rand : Nat) (c : LogonCommand) (ha : logonAccepted s.link.packet)
      (hc : logonCommand s.link.packet = some c) (hd : AnswerDue s c) (hq : s.q.logon ≠ []) :
      FaultCause e s (.receive time rand) .assertion
  /-- Channel 2 is called although the next packet has already begun, or after an invalid packet. -/
  | channel2 (h : LacksInstruction s) : FaultCause e s .biDiChannel2 .oob

end Dcc.Spec
