import Verif.Spec.Engine
import Verif.Spec.Throttle
/-!
A whole decoder, as far as it did not log on: what a multi function decoder with a memory of CVs does about
any packet, in operations mode and in service mode.
-/
namespace Dcc.Spec

instance (c : BitVec 32 → Byte) : Decidable (HasAddress c) := by unfold HasAddress; exact inferInstance

/-- What a decoder is: the CVs, whether it is in service mode, the page register, the CV packet counted last
and how often it came in a row, and the value waiting to be transmitted. -/
structure Decoder where
  cvs : BitVec 32 → Byte
  service : Bool
  page : Byte
  last : Packet
  count : Nat
  waiting : Option Byte

/-- The decoder after something and the calls, or nothing if there is a fault. -/
abbrev Outcome := Option (Decoder × List Event)

/-- One after the other. -/
def Outcome.andThen (r : Outcome) (f : Decoder → Outcome) : Outcome :=
  r.bind fun x => (f x.1).map fun y => (y.1, x.2 ++ y.2)

/-- Nothing but calls. -/
def Decoder.calls (d : Decoder) (evs : List Event) : Outcome := some (d, evs)

/-- A CV access: nothing if the lock does not permit it.  In service mode it may be acknowledged, otherwise
the value may wait to be transmitted.  CVs of the configuration that leave the decoder without an address
are a fault. -/
def Decoder.access (d : Decoder) (k : Kind) (a : Access) : Outcome :=
  if permitted (locks d.cvs) k a then
    if k = .write ∧ BitVec.ofNat 32 a.cv ∈ initCvs ∧ ¬ HasAddress (stored d.cvs k a) then none
    else some ({ d with
        cvs := stored d.cvs k a
        waiting := if !d.service && answering d.cvs then some (valueIn (stored d.cvs k a) a) else d.waiting },
      accessCall d.cvs k a :: if d.service && acknowledged d.cvs k a then [.serviceAck] else [])
  else some (d, [])

/-- Writes one after the other. -/
def Decoder.writes (d : Decoder) : List Access → Outcome
  | [] => some (d, [])
  | a :: as => (d.access .write a).andThen fun d => d.writes as

/-- Counting a CV packet.  A different one drops the value waiting. -/
def Decoder.counted (d : Decoder) (p : Packet) : Decoder :=
  { d with
    last := p
    count := if d.last = p then d.count + 1 else 1
    waiting := if d.last = p then d.waiting else none }

/-- A CV access in the long form (RCN-214): the same packet a second time writes, all of them verify.  If the
byte with the data is missing, the packet may still be one that does nothing. -/
def Decoder.long (d : Decoder) : List Byte → Outcome
  | b0 :: b1 :: b2 :: rest =>
    match longAction d.count (b0 :: b1 :: b2 :: rest) with
    | some (k, a) => d.access k a
    | none => some (d, [])
  | [b0, _] =>
    if b0.toNat / 4 % 4 = 0 ∨ b0.toNat / 4 % 4 = 3 ∧ d.count < 2 then some (d, []) else none
  | _ => none

/-- The CV behind data register `reg` of a page; it is one page before the first CV for page zero. -/
def pageCv (page : Byte) (reg : Nat) : Nat := (4 * page.toNat + reg + (2 ^ 32 - 4)) % 2 ^ 32

/-- A packet in register and page mode (RCN-216). -/
def Decoder.register (d : Decoder) (w : Bool) (reg : Nat) (v : Byte) : Outcome :=
  let k := if w then Kind.write else .verify
  if reg < 4 then d.access k (.byte (pageCv d.page reg) v)
  else if reg = 4 then d.access k (.byte 28 v)
  else if reg = 5 then
    if w then some ({ d with page := v }, []) else some (d, if d.page = v then [.serviceAck] else [])
  else d.access k (.byte reg v)

/-- A packet in service mode: packets with address zero do nothing, three bytes are register or page mode,
four bytes direct mode, in which the second packet counts, and any address but 112 to 127 leaves service
mode. -/
def Decoder.serve (d : Decoder) (p : Packet) : Outcome :=
  match p with
  | [] => none
  | b :: rest =>
    if b = 0#8 then some (d, [])
    else if b.toNat / 16 ≠ 7 then some ({ d with service := false }, [.serviceModeHook false])
    else
      match rest with
      | [v, _] => d.register (b.getLsbD 3) (b.toNat % 8) v
      | [_, _, _] => if (d.counted p).count = 2 then (d.counted p).long p else some (d.counted p, [])
      | _ => some (d, [])

/-- The functions of speed, direction and functions: F7-F0, F15-F8, F23-F16 and once more F7-F0, with the
states of F31-F24. -/
def functionCalls (n : BitVec 16) (groups : List Byte) : List Event :=
  List.zipWith (fun (g : BitVec 32 × Nat) (b : Byte) => Event.function n g.1 (BitVec.setWidth 32 b <<< g.2))
    [(0xFF#32, 0), (0xFF00#32, 8), (0xFF0000#32, 16), (0xFF#32, 24)] groups

/-- A function group `100DDDDD` F0 and F4-F1, `1011DDDD` F8-F5 or `1010DDDD` F12-F9. -/
def groupCalls (c : BitVec 32 → Byte) (n : BitVec 16) (b : Byte) : List Event :=
  let low := BitVec.ofNat 32 (b.toNat % 16)
  if b.toNat < 160 then
    [.function n (if (c 28#32).getLsbD 1 then 0x1F#32 else 0x1E#32)
      (low <<< 1 ||| (if b.getLsbD 4 then 1#32 else 0#32))]
  else if b.toNat < 176 then [.function n 0x1E00#32 (low <<< 9)]
  else [.function n 0x1E0#32 (low <<< 5)]

/-- An instruction to number `n`, which the decoder listens to.  `ew` tells whether the user's class knows
east and west. -/
def Decoder.instruct (d : Decoder) (ew : Bool) (n : Nat) (p : Packet) : List Byte → Outcome
  | [] => none
  | b :: rest =>
    let a := BitVec.ofNat 16 n
    let rev := turned d.cvs n
    if b.toNat < 16 then
      if n = 0 ∧ b = 0#8 then some ({ d with service := true }, [.serviceModeHook true]) else some (d, [])
    else if b.toNat < 32 then
      match rest with
      | [] => none
      | v :: _ => d.access .write (.byte 18 ((b <<< 7) ||| v))
    else if b.toNat < 64 then
      if b.toNat = 0x3C then
        match rest with
        | [] => none
        | v :: groups => d.calls (functionCalls a groups.dropLast ++ speed126Calls a rev v)
      else if b.toNat = 0x3E then
        match rest with
        | [] => none
        | v :: _ => d.calls (if ew then [.eastWestDirection a (some (v.getLsbD 6))] else [])
      else if b.toNat = 0x3F then
        match rest with
        | [] => none
        | v :: _ => d.calls (speed126Calls a rev v)
      else some (d, [])
    else if b.toNat < 128 then
      d.calls (if (d.cvs 28#32).getLsbD 1 then speed28Calls a rev b else speed14Calls a rev b)
    else if b.toNat < 192 then d.calls (groupCalls d.cvs a b)
    else if b.toNat < 224 then
      if b.toNat = 0xC0 then (if 2 ≤ rest.length then some (d, []) else none)
      else if b.toNat = 0xDD then (if 1 ≤ rest.length then some (d, []) else none)
      else if b.toNat = 0xDE then
        match rest with
        | [] => none
        | v :: _ => d.calls [.function a 0x1FE000#32 (v.setWidth 32 <<< 13)]
      else if b.toNat = 0xDF then
        match rest with
        | [] => none
        | v :: _ => d.calls [.function a 0x1FE00000#32 (v.setWidth 32 <<< 21)]
      else some (d, [])
    else if n ≠ 0 ∧ n = consistNumber d.cvs then some (d, [])
    else if b.toNat < 240 then (d.counted p).long (b :: rest)
    else (shortWrites (d.counted p).count (b :: rest)).bind fun ws => (d.counted p).writes ws

/-- Executing a packet. -/
def Decoder.execute (d : Decoder) (ew : Bool) (p : Packet) : Outcome :=
  if d.service then d.serve p
  else
    match locoNumber p with
    | none => some (d, [])
    | some n => if hearing d.cvs n then d.instruct ew n p (afterAddress p) else some (d, [])

/-- The cutout after a CV access in the long form to the decoder: an ACK if that packet has not been
executed, otherwise the value waiting. -/
def Decoder.answer (d : Decoder) (p : Packet) : Decoder × List Message :=
  if answering d.cvs then
    if d.last = p then ({ d with waiting := none }, d.waiting.toList.map .value) else (d, [.ack])
  else (d, [])

/-- The decoder, the calls and the messages after several steps. -/
def Decoder.run (d : Decoder) (ew : Bool) : List MainStep → Option (Decoder × List Event × List Message)
  | [] => some (d, [], [])
  | .execute p :: xs =>
    (d.execute ew p).bind fun x => (x.1.run ew xs).map fun y => (y.1, x.2 ++ y.2.1, y.2.2)
  | .cutout p :: xs =>
    ((d.answer p).1.run ew xs).map fun y => (y.1, y.2.1, (d.answer p).2 ++ y.2.2)

/-- Executing packets one after the other. -/
def Decoder.executeAll (d : Decoder) (ew : Bool) : List Packet → Outcome
  | [] => some (d, [])
  | p :: ps => (d.execute ew p).andThen fun d => d.executeAll ew ps

/-- The cutout after a packet: there is an answer if it is a CV access in the long form to the decoder. -/
def Decoder.answered (d : Decoder) (p : Packet) : Decoder × List Message :=
  if asks d.cvs p then d.answer p else (d, [])

/-- A packet arrives, there is a cutout, and then the packet is executed. -/
def Decoder.hear (d : Decoder) (ew : Bool) (p : Packet) : Option (Decoder × List Event × List Message) :=
  ((d.answered p).1.execute ew p).map fun x => (x.1, x.2, (d.answered p).2)

/-- The same for several packets. -/
def Decoder.hearAll (d : Decoder) (ew : Bool) : List Packet → Option (Decoder × List Event × List Message)
  | [] => some (d, [], [])
  | p :: ps =>
    (d.hear ew p).bind fun x => (x.1.hearAll ew ps).map fun y => (y.1, x.2.1 ++ y.2.1, x.2.2 ++ y.2.2)

/-- A program that attends to the track: channel 2 is called exactly once between the end of a packet and the
next half bit, a packet is executed before the second half bit after its end, and `disable` is not called.
`due` says whether the call of channel 2 is due. -/
def Attends (e : Env) (due : Bool) (s : Rx) : List RxOp → Prop
  | [] => True
  | op :: ops =>
    (match op with
      | .receive _ _ => due = false ∧ (s.packetEnd = true ∨ s.deque = [])
      | .biDiChannel2 => due = true
      | .disable => False
      | _ => True) ∧
    match s.step e op with
    | .error _ => True
    | .ok s' =>
      Attends e (match op with
        | .receive _ _ => s'.packetEnd
        | .biDiChannel2 => false
        | _ => due) s' ops

/-- An interrupt per half bit that answers in the cutout after a packet, and a main loop that calls `execute`
after each. -/
def attending (e : Env) (s : Rx) : List (Nat × Nat × Int × Nat) → List RxOp
  | [] => []
  | x :: xs =>
    match s.step e (.receive x.1 x.2.1) with
    | .error _ => polled (x :: xs)
    | .ok s1 =>
      let rest := (if s1.packetEnd then [.biDiChannel1, .biDiChannel2] else []) ++ [.execute x.2.2.1 x.2.2.2]
      .receive x.1 x.2.1 :: rest ++
        match s1.run e rest with
        | .error _ => polled xs
        | .ok s2 => attending e s2 xs

/-- The decoder as one on the main. -/
def Decoder.onMain (d : Decoder) : MainDevice where
  cvs := d.cvs
  last := d.last
  count := d.count
  waiting := d.waiting

/-- The packet is a CV access in the long form to the address or to all. -/
def pomTo (a : Address) (p : Packet) : Bool :=
  isLongAccess p && (locoNumber p = some a.value.toNat || locoNumber p = some 0)

/-- The packets executed among the steps. -/
def executions (xs : List MainStep) : List Packet :=
  xs.filterMap fun
    | .execute p => some p
    | .cutout _ => none

/-- The packet is no consist control and does not enter service mode. -/
def Undisturbing (p : Packet) : Prop :=
  ∀ n, locoNumber p = some n → ∀ b, (afterAddress p).head? = some b →
    ¬ (n = 0 ∧ b = 0#8) ∧ ¬ (16 ≤ b.toNat ∧ b.toNat < 32)

/-- The receiver is the decoder. -/
structure IsDecoder (m : BitVec 32 → Byte) (s : Rx) (d : Decoder) : Prop where
  cvs : mem m s.trace = d.cvs
  service : s.serviceMode = d.service
  page : s.indexReg = d.page
  last : s.lastOwnCvPacket = d.last
  count : s.ownEqualCvPackets = d.count
  waiting : s.q.pom.map understood = d.waiting.toList.map fun v => some (.value v)

/-- The end of a history: everything is executed, or the last packet is not, and its cutout was or was not yet. -/
def Ended (m : BitVec 32 → Byte) (d : Decoder) (s : Rx) (waiting : List Packet) (late : List Message) : Prop :=
  (waiting = [] ∧ late = [] ∧ IsDecoder m s d) ∨
    ∃ p, waiting = [p] ∧ (late = [] ∧ IsDecoder m s d ∨
      late = (d.answered p).2 ∧ IsDecoder m s (d.answered p).1)

/-- A decoder that has just been switched on. -/
def Decoder.new (c : BitVec 32 → Byte) : Decoder where
  cvs := c
  service := false
  page := 1#8
  last := []
  count := 0
  waiting := none

end Dcc.Spec
