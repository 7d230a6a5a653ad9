import Verif.Spec.Builders
import Verif.Spec.Programming
/-!
Programming on the main (RCN-214) with answers in channel 2 (RCN-217): what a decoder with a memory of
CVs is to do about the packets it executes, and what it is to answer in the cutouts.
-/
namespace Dcc.Spec

/-- The address of the decoder in the CVs, if it is one of a multi function decoder. -/
def ownNumber (c : BitVec 32 → Byte) : Option Nat :=
  let b := (primaryByte c).toNat
  if 1 ≤ b ∧ b ≤ 127 ∨ 192 ≤ b ∧ b ≤ 231 then some (primaryNumber c) else none

/-- The consist address in the CVs. -/
def consistNumber (c : BitVec 32 → Byte) : Nat :=
  100 * ((c 19#32).toNat % 128) + (c 18#32).toNat % 128

/-- The CVs permit to answer in channel 2. -/
def answering (c : BitVec 32 → Byte) : Bool := (c 28#32).getLsbD 3 && (c 27#32).getLsbD 1

/-- The content of the CVs an access is about; a bit counts as 0 or 1. -/
def valueIn (c : BitVec 32 → Byte) : Access → Byte
  | .byte cv _ => c (BitVec.ofNat 32 cv)
  | .bit cv _ pos => if (c (BitVec.ofNat 32 cv)).getLsbD pos then 1#8 else 0#8

/-- A CV access in the long form to the decoder or to all of them, but not to its consist. -/
def pomFor (c : BitVec 32 → Byte) (p : Packet) : Bool :=
  match locoNumber p with
  | none => false
  | some n => (n = 0 || ownNumber c = some n && n ≠ consistNumber c) && isLongAccess p

/-- What a decoder is on the main: the CVs, the CV packet counted last and how often it came in a row,
and the value waiting to be transmitted. -/
structure MainDevice where
  cvs : BitVec 32 → Byte
  last : Packet
  count : Nat
  waiting : Option Byte

/-- Executing a packet.  Of identical packets in a row the second one writes; all of them verify.  The
content of the CV after that waits to be transmitted. -/
def MainDevice.execute (d : MainDevice) (p : Packet) : MainDevice :=
  if pomFor d.cvs p then
    let n := if d.last = p then d.count + 1 else 1
    let w := if d.last = p then d.waiting else none
    match longAction n (afterAddress p) with
    | none => { d with last := p, count := n, waiting := w }
    | some (k, a) =>
      if permitted (locks d.cvs) k a then
        { cvs := stored d.cvs k a, last := p, count := n
          waiting := if answering d.cvs then some (valueIn (stored d.cvs k a) a) else w }
      else { d with last := p, count := n, waiting := w }
  else d

/-- A message in channel 2. -/
inductive Message where
  | ack
  | value (v : Byte)
  deriving DecidableEq, Repr

/-- What a command station understands: an ACK, or a datagram app:pom (ID0) with the value. -/
def understood (bytes : List Byte) : Option Message :=
  if bytes = [0x0F#8] then some .ack
  else if bytes.length = 2 ∧ read bytes / 256 = 0 then some (.value (BitVec.ofNat 8 (read bytes)))
  else none

/-- The cutout after a CV access in the long form to the decoder: an ACK if that packet has not been
executed, otherwise the value waiting. -/
def MainDevice.answer (d : MainDevice) (p : Packet) : MainDevice × List Message :=
  if answering d.cvs then
    if d.last = p then ({ d with waiting := none }, d.waiting.toList.map .value) else (d, [.ack])
  else (d, [])

/-- What happens to a decoder on the main. -/
inductive MainStep where
  | execute (p : Packet)
  | cutout (p : Packet)
  deriving DecidableEq, Repr

/-- The device and the messages after several steps. -/
def MainDevice.run (d : MainDevice) : List MainStep → MainDevice × List Message
  | [] => (d, [])
  | .execute p :: xs => (d.execute p).run xs
  | .cutout p :: xs => (((d.answer p).1.run xs).1, (d.answer p).2 ++ ((d.answer p).1.run xs).2)

/-- What a call is for the decoder. -/
def mainStep (s : Rx) : RxOp → List MainStep
  | .execute _ _ => (front s).toList.map .execute
  | .biDiChannel2 => if cutout s = .cv then [.cutout s.link.packet] else []
  | _ => []

/-- The packets executed and the cutouts after CV accesses to the decoder, in the order of a history. -/
def mainSteps (e : Env) (s : Rx) : List RxOp → List MainStep
  | [] => []
  | op :: ops =>
    match s.step e op with
    | .error _ => []
    | .ok s' => mainStep s op ++ mainSteps e s' ops

/-- The packet does not enter service mode, is no consist control and no CV access in the short form, and
one in the long form has all its bytes. -/
def OnMain (p : Packet) : Prop :=
  ∀ n, locoNumber p = some n → ∀ b, (afterAddress p).head? = some b →
    ¬ (n = 0 ∧ b = 0#8) ∧ ¬ (16 ≤ b.toNat ∧ b.toNat < 32) ∧ b.toNat < 240 ∧
      (224 ≤ b.toNat → 3 ≤ (afterAddress p).length)

/-- The device a decoder is that has no value waiting. -/
def mainDeviceOf (init : BitVec 32 → Byte) (s : Rx) : MainDevice where
  cvs := mem init s.trace
  last := s.lastOwnCvPacket
  count := s.ownEqualCvPackets
  waiting := none

/-- The packet is a CV access in the long form to the decoder. -/
def asks (c : BitVec 32 → Byte) (p : Packet) : Bool :=
  isLongAccess p && p.head? ≠ some 0#8 && (locoNumber p).isSome && ownNumber c = locoNumber p

/-- A packet arrives, there is a cutout, and then the packet is executed. -/
def MainDevice.hear (d : MainDevice) (p : Packet) : MainDevice × List Message :=
  if asks d.cvs p then ((d.answer p).1.execute p, (d.answer p).2) else (d.execute p, [])

/-- The device and the messages after several packets. -/
def MainDevice.hearAll (d : MainDevice) : List Packet → MainDevice × List Message
  | [] => (d, [])
  | p :: ps => (((d.hear p).1.hearAll ps).1, (d.hear p).2 ++ ((d.hear p).1.hearAll ps).2)

/-- The half bits of a packet, the two channels of the cutout, one further duration, and `execute`. -/
structure Round where
  packet : Packet
  wave : List (Nat × Nat)
  after : Nat × Nat
  now : Int
  rand : Nat

def Round.ops (r : Round) : List RxOp :=
  recvOps r.wave ++ [.biDiChannel1, .biDiChannel2, .receive r.after.1 r.after.2, .execute r.now r.rand]

/-- The round is about a valid packet, sent with a valid configuration. -/
def Round.Legal (r : Round) : Prop :=
  ValidPacket r.packet ∧ isLogon r.packet = false ∧ OnMain r.packet ∧
    ∃ cfg : TxConfig, cfg.accepted = true ∧ bytes2timings r.packet cfg = .ok (r.wave.map (·.1))

/-- The builder called for a CV access in the long form. -/
def pomCall : Kind → Access → AddressedCall
  | .verify, .byte cv b => .cvVerify (BitVec.ofNat 32 cv) b
  | .write, .byte cv b => .cvWrite (BitVec.ofNat 32 cv) b
  | .verify, .bit cv b pos => .cvVerifyBit (BitVec.ofNat 32 cv) b (BitVec.ofNat 32 pos)
  | .write, .bit cv b pos => .cvWriteBit (BitVec.ofNat 32 cv) b (BitVec.ofNat 32 pos)

/-- The packet is a CV access in the long form to some multi function decoder or to all. -/
def isPom (p : Packet) : Bool := isLongAccess p && (locoNumber p).isSome

/-- A decoder with these CVs can be programmed with packets to the address and answers. -/
structure Talks (c : BitVec 32 → Byte) (a : Address) : Prop where
  own : ownNumber c = some a.value.toNat
  single : a.type = .short ∨ a.type = .long
  consist : a.value.toNat ≠ consistNumber c ∨ a.value.toNat = 0
  answering : answering c = true
  unlocked : locks c = false

/-- A CV access, sent several times. -/
structure PomRequest where
  kind : Kind
  access : Access
  times : Nat

def PomRequest.packet (a : Address) (r : PomRequest) : R Packet := (pomCall r.kind r.access).run a

/-- What the station hears: an ACK in the cutout of the first packet, then the value.  Reading answers
with the second packet, writing with the third one; a bit written is answered once. -/
def PomRequest.messages (c : BitVec 32 → Byte) (r : PomRequest) : List Message :=
  .ack :: match r.kind, r.access with
    | .verify, a => List.replicate (r.times - 1) (.value (valueIn c a))
    | .write, .byte _ b => List.replicate (r.times - 2) (.value b)
    | .write, .bit _ b _ => List.replicate (min (r.times - 2) 1) (.value (if b then 1#8 else 0#8))

/-- The requests are sent often enough, and writes are not to CVs of the configuration. -/
def PomRequest.Legal (r : PomRequest) : Prop :=
  r.access.Legal ∧ 1 ≤ r.times ∧
    (r.kind = .write → 2 ≤ r.times ∧ BitVec.ofNat 32 r.access.cv ∉ initCvs)

/-- The CVs after requests. -/
def pomCvs (c : BitVec 32 → Byte) (rs : List PomRequest) : BitVec 32 → Byte :=
  rs.foldl (fun c r => stored c r.kind r.access) c

/-- The messages in the cutouts of requests. -/
def pomMessages (c : BitVec 32 → Byte) : List PomRequest → List Message
  | [] => []
  | r :: rs => r.messages c ++ pomMessages (stored c r.kind r.access) rs

/-- A request is followed by a different one. -/
def Changing : List PomRequest → Prop
  | r :: r' :: rs => (r.kind, r.access) ≠ (r'.kind, r'.access) ∧ Changing (r' :: rs)
  | _ => True

end Dcc.Spec
