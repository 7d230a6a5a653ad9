import Verif.Spec.Exec
/-!
CV access as RCN-214 (operations mode) and RCN-216 (service mode) define it: what a packet asks for
and which calls of the user's class an access stands for.  CVs are numbered from zero.
-/
namespace Dcc.Spec

/-- A CV access with its value: a byte, or a bit and its position. -/
inductive Access where
  | byte (cv : Nat) (value : Byte)
  | bit (cv : Nat) (value : Bool) (pos : Nat)
  deriving DecidableEq, Repr

/-- The CV accessed. -/
def Access.cv : Access → Nat
  | .byte cv _ => cv
  | .bit cv _ _ => cv

/-- What the access does to the CV. -/
inductive Kind where
  | verify | write
  deriving DecidableEq, Repr

/-- The write access a call makes. -/
def writeOf : Event → Option Access
  | .writeCvByte cv b _ | .asyncWriteCvByte cv b => some (.byte cv.toNat b)
  | .writeCvBit cv b pos _ | .asyncWriteCvBit cv b pos => some (.bit cv.toNat b pos.toNat)
  | _ => none

/-- The verify access a call makes. -/
def verifyOf : Event → Option Access
  | .readCvByte cv b _ | .asyncReadCvByte cv b => some (.byte cv.toNat b)
  | .readCvBit cv b pos _ | .asyncReadCvBit cv b pos => some (.bit cv.toNat b pos.toNat)
  | _ => none

/-- The write accesses among calls. -/
def writes (evs : List Event) : List Access := evs.filterMap writeOf

/-- The verify accesses among calls. -/
def verifies (evs : List Event) : List Access := evs.filterMap verifyOf

/-- The access a call makes. -/
def accessOf (ev : Event) : Option (Kind × Access) :=
  ((writeOf ev).map (Kind.write, ·)).or ((verifyOf ev).map (Kind.verify, ·))

/-- The accesses among calls, in order. -/
def accesses (evs : List Event) : List (Kind × Access) := evs.filterMap accessOf

/-- The number of acknowledgements among calls. -/
def ackCount (evs : List Event) : Nat := evs.count .serviceAck

/-- The acknowledgement in service mode: only if the value returned is the one in the packet. -/
def ack (service : Bool) (matched : Bool) : List Event :=
  if service && matched then [.serviceAck] else []

/-- The calls an access stands for if the user's class has been called as in `tr` before.  With
asynchronous access the answer comes later, by the callback. -/
def accessCalls (e : Env) (tr : List Event) (service : Bool) : Kind → Access → List Event
  | .verify, .byte cv b =>
    if e.asyncReadable then [.asyncReadCvByte (BitVec.ofNat 32 cv) b]
    else
      let v := e.readCvByte tr (BitVec.ofNat 32 cv) b
      .readCvByte (BitVec.ofNat 32 cv) b v :: ack service (v = b)
  | .verify, .bit cv b pos =>
    if e.asyncReadable then [.asyncReadCvBit (BitVec.ofNat 32 cv) b (BitVec.ofNat 32 pos)]
    else
      let v := e.readCvBit tr (BitVec.ofNat 32 cv) b (BitVec.ofNat 32 pos)
      .readCvBit (BitVec.ofNat 32 cv) b (BitVec.ofNat 32 pos) v :: ack service (v = b)
  | .write, .byte cv b =>
    if e.asyncWritable then [.asyncWriteCvByte (BitVec.ofNat 32 cv) b]
    else
      let v := e.writeCvByte tr (BitVec.ofNat 32 cv) b
      .writeCvByte (BitVec.ofNat 32 cv) b v :: ack service (v = b)
  | .write, .bit cv b pos =>
    if e.asyncWritable then [.asyncWriteCvBit (BitVec.ofNat 32 cv) b (BitVec.ofNat 32 pos)]
    else
      let v := e.writeCvBit tr (BitVec.ofNat 32 cv) b (BitVec.ofNat 32 pos)
      .writeCvBit (BitVec.ofNat 32 cv) b (BitVec.ofNat 32 pos) v :: ack service (v = b)

/-- The user's class answers the access with the value in the packet. -/
def matched (e : Env) (tr : List Event) : Kind → Access → Bool
  | .verify, .byte cv b => e.readCvByte tr (BitVec.ofNat 32 cv) b = b
  | .verify, .bit cv b pos => e.readCvBit tr (BitVec.ofNat 32 cv) b (BitVec.ofNat 32 pos) = b
  | .write, .byte cv b => e.writeCvByte tr (BitVec.ofNat 32 cv) b = b
  | .write, .bit cv b pos => e.writeCvBit tr (BitVec.ofNat 32 cv) b (BitVec.ofNat 32 pos) = b

/-- The value the user's class returns for an access; a bit counts as 0 or 1. -/
def resultOf (e : Env) (tr : List Event) : Kind → Access → Byte
  | .verify, .byte cv b => e.readCvByte tr (BitVec.ofNat 32 cv) b
  | .verify, .bit cv b pos =>
    if e.readCvBit tr (BitVec.ofNat 32 cv) b (BitVec.ofNat 32 pos) then 1#8 else 0#8
  | .write, .byte cv b => e.writeCvByte tr (BitVec.ofNat 32 cv) b
  | .write, .bit cv b pos =>
    if e.writeCvBit tr (BitVec.ofNat 32 cv) b (BitVec.ofNat 32 pos) then 1#8 else 0#8

/-- The access is answered later, by a callback. -/
def deferred (e : Env) : Kind → Bool
  | .verify => e.asyncReadable
  | .write => e.asyncWritable

/-- The lock (CV15, CV16) permits only writing CV15. -/
def permitted (locked : Bool) (k : Kind) (a : Access) : Bool :=
  !locked || (k = .write && a.cv = 14)

/-- The request of a long form CV packet: `....GGVV VVVVVVVV DDDDDDDD`, GG being 1 for verifying a
byte, 3 for writing a byte and 2 for bits, then `111KDBBB` with K set for writing. -/
def longRequest : List Byte → Option (Kind × Access)
  | b0 :: b1 :: b2 :: _ =>
    let cv := (b0.toNat % 4) * 256 + b1.toNat
    let gg := b0.toNat / 4 % 4
    if gg = 1 then some (.verify, .byte cv b2)
    else if gg = 3 then some (.write, .byte cv b2)
    else if gg = 2 then
      some (if b2.getLsbD 4 then .write else .verify, .bit cv (b2.getLsbD 3) (b2.toNat % 8))
    else none
  | _ => none

/-- What a decoder does about the `n`-th of identical long form packets in operations mode: it
verifies always, and writes on the second one.  The further repetitions of a byte write are answered
with the content of the CV. -/
def longAction (n : Nat) (bs : List Byte) : Option (Kind × Access) :=
  match longRequest bs with
  | some (.verify, a) => some (.verify, a)
  | some (.write, .byte cv b) =>
    if n = 2 then some (.write, .byte cv b) else if n < 2 then none else some (.verify, .byte cv b)
  | some (.write, .bit cv b pos) => if n = 2 then some (.write, .bit cv b pos) else none
  | none => none

/-- What a decoder does about the `n`-th of identical direct mode packets in service mode: it acts
on the second one. -/
def directAction (n : Nat) (bs : List Byte) : Option (Kind × Access) :=
  if n = 2 then longRequest bs else none

/-- The calls for an action under the lock. -/
def actionCalls (e : Env) (tr : List Event) (service locked : Bool) :
    Option (Kind × Access) → List Event
  | some (k, a) => if permitted locked k a then accessCalls e tr service k a else []
  | none => []

/-- A register mode packet `0111CRRR DDDDDDDD` as received in service mode: write flag, register
(numbered from zero) and value. -/
def registerPacket : Packet → Option (Bool × Nat × Byte)
  | [b0, b1, _] =>
    if 112 ≤ b0.toNat ∧ b0.toNat ≤ 127 then some (b0.getLsbD 3, b0.toNat % 8, b1) else none
  | _ => none

/-- The CV behind a register (RCN-216 3, registers 1 to 8; CVs and registers numbered from zero):
data registers show the page, register 5 is CV29, registers 7 and 8 are CV7 and CV8.  Register 6 is
the page register itself. -/
def registerCv (page : Byte) (reg : Nat) : Option Nat :=
  if reg < 4 then some (4 * (page.toNat - 1) + reg)
  else if reg = 4 then some 28
  else if reg = 5 then none
  else some reg

/-- What a register mode packet asks for. -/
def registerRequest (page : Byte) (w : Bool) (reg : Nat) (value : Byte) : Option (Kind × Access) :=
  (registerCv page reg).map fun cv => (if w then .write else .verify, .byte cv value)

/-- The values written to the page register in a history of calls: the register mode packets
executed in service mode that write register 6. -/
def pageWrites (e : Env) (s : Rx) : List RxOp → List Byte
  | [] => []
  | op :: ops =>
    match s.step e op with
    | .error _ => []
    | .ok s' =>
      (if op.isExecute && s.serviceMode then
        ((front s).toList.filterMap registerPacket).filterMap fun (w, reg, v) =>
          if w ∧ reg = 5 then some v else none
      else []) ++ pageWrites e s' ops

/-- The page register after a history: the value written last, initially 1. -/
def page (e : Env) (ops : List RxOp) : Byte := (pageWrites e {} ops).getLast?.getD 1#8

/-- The packet is a CV packet the decoder counts: in service mode a direct mode packet, in
operations mode a CV access instruction for the decoder that does not come by the consist address. -/
def cvRequest (s : Rx) (p : Packet) : Bool :=
  if s.serviceMode then
    p.length = 4 && p.head?.any (fun b => 112 ≤ b.toNat && b.toNat ≤ 127)
  else
    match locoNumber p with
    | none => false
    | some n =>
      (n = 0 || Active s n) && !(target s n ≠ 0#16 && target s n = s.addrs.consist.value) &&
        (afterAddress p).head?.any (fun b => 224 ≤ b.toNat)

/-- The CV packets counted in a history of calls, in order. -/
def cvHistory (e : Env) (s : Rx) : List RxOp → List Packet
  | [] => []
  | op :: ops =>
    match s.step e op with
    | .error _ => []
    | .ok s' =>
      (if op.isExecute then (front s).toList.filter (cvRequest s) else []) ++ cvHistory e s' ops

/-- The number of identical packets at the end of a history. -/
def repeats (h : List Packet) : Nat :=
  match h.reverse with
  | [] => 0
  | p :: r => 1 + (r.takeWhile (· = p)).length

end Dcc.Spec
