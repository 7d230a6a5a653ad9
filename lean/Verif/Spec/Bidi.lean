import Verif.Spec.Backoff
import Verif.Spec.Cv
import Verif.Spec.Codec
/-!
What a command station sees of the BiDi answers (RCN-217): the words received in the channels, and
reference queues saying which words these have to be.
-/
namespace Dcc.Spec

/-- The messages transmitted among calls. -/
def transmitted (evs : List Event) : List (List Byte) := evs.filterMap fun
  | .transmitBiDi bs => some bs
  | _ => none

/-- The calls of the user's class made between two states. -/
def newCalls (s s' : Rx) : List Event := s'.trace.drop s.trace.length

/-- The messages transmitted in a history by the calls `sel` selects. -/
def sent (sel : Rx → RxOp → Bool) (e : Env) (s : Rx) : List RxOp → List (List Byte)
  | [] => []
  | op :: ops =>
    match s.step e op with
    | .error _ => []
    | .ok s' => (if sel s op then transmitted (newCalls s s') else []) ++ sent sel e s' ops

/-- The number a message carries: every byte is decoded to six bits, most significant first. -/
def read (bs : List Byte) : Nat := (makeData (decodeDatagram bs)).toNat

/-- A datagram of twelve bits: four bits ID, eight bits data. -/
def word12 (id data : Nat) : Nat := id * 256 + data

/-! ### Channel 1 -/

/-- The packet received last is for a multi function decoder (broadcast included). -/
def afterLoco (s : Rx) : Bool :=
  s.addrs.received.type = .broadcast || s.addrs.received.type = .short ||
    s.addrs.received.type = .long

/-- The address to report: the one assigned by automatic logon, otherwise the consist address if
there is one below 128, otherwise the primary address.  A consist address of 128 and more is not
reported, nor is any other then. -/
def reportedAddress (s : Rx) : Option Address :=
  if s.addrs.logon.value.toNat ≠ 0 then some s.addrs.logon
  else if s.addrs.consist.value.toNat = 0 then some s.addrs.primary
  else if s.addrs.consist.value.toNat < 128 then some s.addrs.consist
  else none

/-- RCN-217 5.2.2 and 5.2.3, data of the datagrams ID1 (high part) and ID2 (low part).  An address
that is the consist address: `01100000` and `RAAAAAAA`, R the direction.  Short addresses: 0 and the
address.  Long addresses: `10AAAAAA AAAAAAAA`. -/
def reportData (consist : Address) (a : Address) : Nat × Nat :=
  let n := a.value.toNat
  if n = consist.value.toNat ∧
      (a.type = consist.type ∨ a.type.isLoco = true ∧ consist.type.isLoco = true) then
    (96, (if consist.reversed then 128 else 0) + n % 128)
  else if n < 128 then (0, n)
  else (128 + n / 256 % 64, n % 256)

/-- The two words that report an address. -/
def reportWords (s : Rx) : List Nat :=
  match reportedAddress s with
  | some a => [word12 1 (reportData s.addrs.consist a).1, word12 2 (reportData s.addrs.consist a).2]
  | none => []

/-- The words due in channel 1 after packets for multi function decoders in a history, `w` of them
still waiting.  When a packet is executed, none waits and the report is enabled, then the two words
of the address valid at that time are added.  Every cutout takes one. -/
def dueChannel1 (e : Env) (s : Rx) (w : List Nat) : List RxOp → List Nat
  | [] => []
  | op :: ops =>
    match s.step e op with
    | .error _ => []
    | .ok s' =>
      match op with
      | .execute _ _ =>
        dueChannel1 e s'
          (if (front s).isSome && s.cfg.ch1AddrEnabled && w.isEmpty then reportWords s else w) ops
      | .biDiChannel1 =>
        if afterLoco s then w.take 1 ++ dueChannel1 e s' (w.drop 1) ops else dueChannel1 e s' w ops
      | _ => dueChannel1 e s' w ops

/-- The calls of `biDiChannel1` after packets for multi function decoders. -/
def inChannel1 (s : Rx) : RxOp → Bool
  | .biDiChannel1 => afterLoco s
  | _ => false

/-- Words whose IDs are `id`, the other one of ID1 and ID2, `id` again and so on. -/
def AlternatingIds : Nat → List Nat → Prop
  | _, [] => True
  | id, w :: ws => w / 256 = id ∧ AlternatingIds (3 - id) ws

/-! ### Channel 2 -/

/-- Two addresses name the same decoder. -/
def SameDecoder (a b : Address) : Prop :=
  a.value = b.value ∧ (a.type = b.type ∨ a.type.isLoco = true ∧ b.type.isLoco = true)

instance (a b : Address) : Decidable (SameDecoder a b) := by unfold SameDecoder; exact inferInstance

/-- What channel 2 is for after the packet received last. -/
inductive Cutout where
  | nothing | tipOff | cv | dynamic | logon
  deriving DecidableEq, Repr

/-- The address the decoder answers to. -/
def ownAddress (s : Rx) : Address := if s.logon.assigned then s.addrs.logon else s.addrs.primary

/-- The byte behind the address; addresses beginning with 128 to 252 have two bytes. -/
def instructionByte : Packet → Option Byte
  | [] => none
  | b :: rest => if 128 ≤ b.toNat ∧ b.toNat ≤ 252 then rest[1]? else rest[0]?

/-- The packet is a CV access in the long form: `1110....` behind the address. -/
def isLongAccess (p : Packet) : Bool :=
  (instructionByte p).any fun b => 224 ≤ b.toNat && b.toNat < 240

/-- After a broadcast tip-off search, after a packet for the decoder itself the answer to a CV access
in the long form or dynamic data, after one for its consist dynamic data if enabled, after a logon
packet the answer to that. -/
def cutout (s : Rx) : Cutout :=
  match s.addrs.received.type with
  | .broadcast => .tipOff
  | .short | .long =>
    if SameDecoder s.addrs.received (ownAddress s) then
      if isLongAccess s.link.packet then .cv else .dynamic
    else if SameDecoder s.addrs.received s.addrs.consist ∧ s.cfg.ch2ConsistEnabled then .dynamic
    else .nothing
  | .automaticLogon => .logon
  | _ => .nothing

/-- The calls of `biDiChannel2` of a kind. -/
def inChannel2 (c : Cutout) (s : Rx) : RxOp → Bool
  | .biDiChannel2 => cutout s = c
  | _ => false

/-- Messages as RCN-217 allows them after a call: none, or one if the call is for a channel.  It has
two bytes in channel 1 and one to six in channel 2, all with exactly four one bits. -/
inductive WellFormed : RxOp → List (List Byte) → Prop
  | nothing (op : RxOp) : WellFormed op []
  | channel1 (m : List Byte) (h1 : m.length = 2) (h2 : ∀ c ∈ m, popcount c = 4) :
      WellFormed .biDiChannel1 [m]
  | channel2 (m : List Byte) (h1 : 1 ≤ m.length) (h2 : m.length ≤ 6) (h3 : ∀ c ∈ m, popcount c = 4) :
      WellFormed .biDiChannel2 [m]

/-! ### Answers to CV accesses -/

/-- An access and the value the user's class returned for it; a bit counts as 0 or 1. -/
def accessResult : Event → Option (Access × Byte)
  | .readCvByte cv b r | .writeCvByte cv b r => some (.byte cv.toNat b, r)
  | .readCvBit cv b pos r | .writeCvBit cv b pos r =>
    some (.bit cv.toNat b pos.toNat, if r then 1#8 else 0#8)
  | _ => none

/-- The values returned among calls for the access a long form packet asks for. -/
def values (p : Packet) (evs : List Event) : List Byte := evs.filterMap fun ev =>
  match accessResult ev, longRequest (afterAddress p) with
  | some (a, v), some (_, a') => if a = a' then some v else none
  | _, _ => none

/-- The CV packet a decoder deals with, how often it was executed in a row, the values obtained for it
and the callbacks handed out for it so far, and the value waiting to be transmitted. -/
structure Dealing where
  packet : Packet := []
  count : Nat := 0
  values : List Byte := []
  callbacks : List Nat := []
  waiting : Option Byte := none

/-- Executing the long form packet for the `n`-th time in a row accesses a CV, and the value to be
answered is there at once. -/
def answersNow (e : Env) (s : Rx) (n : Nat) (p : Packet) : Bool :=
  !s.serviceMode && s.cfg.ch2DataEnabled &&
    (longAction n (afterAddress p)).any fun x => permitted s.cfg.cvsLocked x.1 x.2 && !deferred e x.1

/-- The values obtained in executing a CV packet add to those obtained for the same packet just
before.  In service mode there are none to be transmitted.  The last value obtained waits to be
transmitted, instead of an earlier one. -/
def Dealing.execute (d : Dealing) (e : Env) (s s' : Rx) (p : Packet) : Dealing :=
  let n := if p = d.packet then d.count + 1 else 1
  { packet := p
    count := n
    values := (if p = d.packet then d.values else []) ++
      (if s.serviceMode then [] else Spec.values p (newCalls s s'))
    callbacks := (if p = d.packet then d.callbacks else []) ++
      (if s.serviceMode then []
       else (List.range s'.callbacks.length).drop s.callbacks.length)
    waiting :=
      if answersNow e s n p then (Spec.values p (newCalls s s')).getLast?
      else if p = d.packet then d.waiting else none }

/-- The callback is for a byte, not for a bit. -/
def forByte : Callback → Bool
  | .byte _ => true
  | .bit _ => false

/-- A value arrives by a callback; it is for the packet if the callback was handed out for it,
for a value of that `right` type.  It waits to be transmitted, instead of an earlier one. -/
def Dealing.callback (d : Dealing) (s : Rx) (i : Nat) (right : Bool) (v : Byte) : Dealing :=
  if right && !s.serviceMode && d.callbacks.contains i then
    { d with
      values := d.values ++ [v]
      waiting := if s.cfg.ch2DataEnabled then some v else d.waiting }
  else d

/-- One call.  The value waiting is transmitted in the channel 2 after the packet it was obtained
for. -/
def Dealing.step (d : Dealing) (e : Env) (s s' : Rx) : RxOp → Dealing
  | .execute _ _ =>
    match front s with
    | some p => if cvRequest s p then d.execute e s s' p else d
    | none => d
  | .callbackByte i v => d.callback s i (s.callbacks[i]?.any forByte) v
  | .callbackBit i v =>
    d.callback s i (s.callbacks[i]?.any fun c => !forByte c) (if v then 1#8 else 0#8)
  | .biDiChannel2 =>
    if cutout s = .cv ∧ s.cfg.ch2DataEnabled = true ∧ s.link.packet = d.packet then
      { d with waiting := none }
    else d
  | _ => d

/-- What the decoder deals with after a history. -/
def dealing (e : Env) (s : Rx) (d : Dealing) : List RxOp → Dealing
  | [] => d
  | op :: ops =>
    match s.step e op with
    | .error _ => d
    | .ok s' => dealing e s' (d.step e s s' op) ops

/-- The answer transmitted between two states (in a cutout after a CV access in the long form) is
right: nothing if answers are disabled, an ACK exactly if the packet has not been executed, otherwise
the value waiting, which is one obtained for that packet, and nothing if no value is waiting. -/
def RightAnswer (d : Dealing) (s s' : Rx) : Prop :=
  if s.cfg.ch2DataEnabled = false then transmitted (newCalls s s') = []
  else if s.link.packet ≠ d.packet then transmitted (newCalls s s') = [[0x0F#8]]
  else match d.waiting with
    | none => transmitted (newCalls s s') = []
    | some v => v ∈ d.values ∧ ∃ m, transmitted (newCalls s s') = [m] ∧ m.length = 2 ∧
      read m = word12 0 v.toNat

/-- A consist control packet for the decoder. -/
def consistPacket (s : Rx) (p : Packet) : Bool :=
  !s.serviceMode && decide (ForDecoder s p) &&
    (afterAddress p).head?.any fun b => 16 ≤ b.toNat && b.toNat < 32

/-- The call is not the execution of a consist control packet, and not the late use of a callback
that was handed out for something else than the CV packet the decoder deals with. -/
def undisturbing (d : Dealing) (s : Rx) : RxOp → Bool
  | .execute _ _ => !(front s).any (consistPacket s)
  | .callbackByte i _ | .callbackBit i _ => s.serviceMode || d.callbacks.contains i
  | _ => true

/-- No call of a history disturbs. -/
def undisturbed (e : Env) (s : Rx) (d : Dealing) : List RxOp → Bool
  | [] => true
  | op :: ops =>
    match s.step e op with
    | .error _ => true
    | .ok s' => undisturbing d s op && undisturbed e s' (d.step e s s' op) ops

/-- A datagram of 18 bits with dynamic data: ID7, eight bits value, six bits subindex. -/
def dynWord (d x : Byte) : Nat := 7 * 16384 + (d.toNat * 64 ||| x.toNat)

/-- The word of a value after conversion. -/
def dynWordOf (d : Dyn) : Nat := dynWord d.convert.1 d.convert.2

/-- The queue for dynamic data: the words waiting, and whether more are refused until it is empty. -/
structure DynQueue where
  words : List Nat := []
  blocked : Bool := false
  deriving DecidableEq, Repr

/-- Add words as long as there is room. -/
def DynQueue.add (cap : Nat) (q : DynQueue) (ws : List Nat) : DynQueue :=
  { q with words := q.words ++ ws.take (cap - q.words.length) }

/-- `datagram(ds)`: a full queue refuses the data, and further ones until it is empty.  Into an empty
queue the quality of service is put first (subindex 7). -/
def DynQueue.datagram (cap : Nat) (enabled : Bool) (qos : Byte) (ds : List Dyn) (q : DynQueue) :
    DynQueue :=
  let ws := if enabled then ds.map dynWordOf else []
  if q.words.length = cap then { q with blocked := true }
  else if q.words = [] then
    DynQueue.add cap { blocked := false } ((if enabled then [dynWord qos 7#8] else []) ++ ws)
  else if q.blocked then q
  else q.add cap ws

/-- What a call does to the queue. -/
def DynQueue.step (e : Env) (s : Rx) (q : DynQueue) : RxOp → DynQueue
  | .datagram ds => q.datagram e.bidiDeque s.cfg.ch2DataEnabled s.qos ds
  | .biDiChannel2 => if cutout s = .dynamic then { q with words := q.words.drop 2 } else q
  | _ => q

/-- The queue after a history. -/
def dynQueue (e : Env) (s : Rx) (q : DynQueue) : List RxOp → DynQueue
  | [] => q
  | op :: ops =>
    match s.step e op with
    | .error _ => q
    | .ok s' => dynQueue e s' (q.step e s op) ops

/-- The words due in channel 2 with dynamic data: two for every cutout. -/
def dueDynamic (e : Env) (s : Rx) (q : DynQueue) : List RxOp → List (List Nat)
  | [] => []
  | op :: ops =>
    match s.step e op with
    | .error _ => []
    | .ok s' =>
      (if inChannel2 .dynamic s op ∧ q.words ≠ [] then [q.words.take 2] else []) ++
        dueDynamic e s' (q.step e s op) ops

/-- The call is `datagram`. -/
def isDatagram : RxOp → Bool
  | .datagram _ => true
  | _ => false

/-- The words `datagram` accepts in a history. -/
def accepted (e : Env) (s : Rx) (q : DynQueue) : List RxOp → List Nat
  | [] => []
  | op :: ops =>
    match s.step e op with
    | .error _ => []
    | .ok s' =>
      (if isDatagram op then (q.step e s op).words.drop q.words.length else []) ++
        accepted e s' (q.step e s op) ops

/-! ### Tip-off search -/

/-- Cut a message into datagrams of two bytes. -/
def pairs : List Byte → List (List Byte)
  | a :: b :: rest => [a, b] :: pairs rest
  | _ => []

/-- The instruction switches binary state 2 off, in the short form (`11011101 DLLLLLLL`) or the long
form (`11000000 DLLLLLLL HHHHHHHH`). -/
def searchInstruction : List Byte → Bool
  | b0 :: b1 :: rest =>
    (b0.toNat = 0xDD && b1.toNat = 2) ||
      (b0.toNat = 0xC0 && b1.toNat = 2 && rest.head?.any fun b2 => b2.toNat = 0)
  | _ => false

/-- A packet for the decoder that starts a tip-off search. -/
def searchPacket (s : Rx) (p : Packet) : Bool :=
  !s.serviceMode && decide (ForDecoder s p) && searchInstruction (afterAddress p)

/-- The times (in ns) the packet executed last and the first packet after the last gap of two seconds
or more were executed at.  Before the first packet both are the epoch of the clock. -/
structure Times where
  last : Int := 0
  start : Int := 0

/-- A packet is executed. -/
def Times.execute (t : Times) (now : Int) : Times :=
  { last := now, start := if 2000000000 ≤ now - t.last then now else t.start }

/-- The whole seconds passed since the last gap. -/
def Times.seconds (t : Times) : Nat := (t.last - t.start).toNat / 1000000000

/-- The words answering a tip-off search: the two address words and ID14 with the seconds. -/
def searchWords (s : Rx) (t : Times) : List Nat :=
  [word12 1 (reportData s.addrs.consist s.addrs.primary).1,
   word12 2 (reportData s.addrs.consist s.addrs.primary).2, word12 14 t.seconds]

/-- The time after a call. -/
def Times.step (t : Times) (s : Rx) : RxOp → Times
  | .execute now _ => if (front s).isSome then t.execute now else t
  | _ => t

/-- The answer due if the call executes a tip-off search less than 30 seconds after a gap. -/
def searchAnswer (s : Rx) (t : Times) : RxOp → List (List Nat)
  | .execute now _ =>
    if (front s).any (searchPacket s) && decide ((t.execute now).seconds < 30) then
      [searchWords s (t.execute now)] else []
  | _ => []

/-- The answers to the tip-off searches in a history that come less than 30 seconds after a gap. -/
def searchAnswers (e : Env) (s : Rx) (t : Times) : List RxOp → List (List Nat)
  | [] => []
  | op :: ops =>
    match s.step e op with
    | .error _ => []
    | .ok s' => searchAnswer s t op ++ searchAnswers e s' (t.step s op) ops

/-- What a decoder knows about tip-off searches: the times, the backoff and the answer waiting. -/
structure Search where
  times : Times := {}
  pause : Pause := {}
  waiting : List (List Nat) := []

/-- A packet is executed.  A gap of two seconds or more ends the backoff.  Every search asks the backoff;
one that need not back off is answered if no answer waits and less than 30 seconds have passed. -/
def Search.execute (x : Search) (s : Rx) (p : Packet) (now : Int) (rand : Nat) : Search :=
  let t := x.times.execute now
  let pause := if 2000000000 ≤ now - x.times.last then {} else x.pause
  if searchPacket s p then
    { times := t
      pause := (pause.query rand).1
      waiting :=
        if (pause.query rand).2 = false ∧ x.waiting = [] ∧ t.seconds < 30 then [searchWords s t]
        else x.waiting }
  else { x with times := t, pause := pause }

/-- What a call does.  A cutout after a broadcast takes the answer. -/
def Search.step (x : Search) (s : Rx) : RxOp → Search
  | .execute now rand =>
    match front s with
    | some p => x.execute s p now rand
    | none => x
  | .biDiChannel2 => if cutout s = .tipOff then { x with waiting := [] } else x
  | _ => x

/-- The answers due in the cutouts after broadcasts in a history. -/
def dueSearch (e : Env) (s : Rx) (x : Search) : List RxOp → List (List Nat)
  | [] => []
  | op :: ops =>
    match s.step e op with
    | .error _ => []
    | .ok s' =>
      (if inChannel2 .tipOff s op then x.waiting else []) ++ dueSearch e s' (x.step s op) ops

/-- The clock read by `execute` never goes backwards. -/
def ClockForward (last : Int) : List RxOp → Prop
  | [] => True
  | .execute now _ :: ops => last ≤ now ∧ ClockForward now ops
  | _ :: ops => ClockForward last ops

/-- Cut a message into datagrams of three bytes. -/
def triples : List Byte → List (List Byte)
  | a :: b :: c :: rest => [a, b, c] :: triples rest
  | _ => []

end Dcc.Spec
