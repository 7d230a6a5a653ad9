import Verif.Spec.Main
/-!
A locomotive on the main: what a command station may send (driving commands, consists, CV accesses in
the long and in the short form) and what a decoder that does what its CVs say is to do about it.
-/
namespace Dcc.Spec

/-- A CV access in the short form (RCN-214): CV23 and CV24 (momentum), the long address, or CV31 and
CV32 (index). -/
inductive ShortForm where
  | cv23 (value : Byte)
  | cv24 (value : Byte)
  | address (number : Nat)
  | index (high low : Byte)
  deriving DecidableEq, Repr

/-- The bytes behind the address. -/
def ShortForm.bytes : ShortForm → List Byte
  | .cv23 v => [0xF2#8, v]
  | .cv24 v => [0xF3#8, v]
  | .address n => [0xF4#8, BitVec.ofNat 8 (192 + n / 256), BitVec.ofNat 8 n]
  | .index h l => [0xF5#8, h, l]

/-- Long addresses are below 10240. -/
def ShortForm.Legal : ShortForm → Prop
  | .address n => n < 10240
  | _ => True

/-- What is written: the momentum at once, everything else the second time. -/
def ShortForm.writes (count : Nat) : ShortForm → List Access
  | .cv23 v => [.byte 22 v]
  | .cv24 v => [.byte 23 v]
  | .address n =>
    if count = 2 then
      [.byte 16 (BitVec.ofNat 8 (192 + n / 256)), .byte 17 (BitVec.ofNat 8 n), .bit 28 true 5]
    else []
  | .index h l => if count = 2 then [.byte 30 h, .byte 31 l] else []

/-- What a command station sends to a locomotive: a driving command, an order to join the consist with
this number, or to leave consists with number zero, a CV access in the long form or one in the short
form. -/
inductive Order where
  | drive (c : Command)
  | consist (a : Address) (reversed : Bool) (number : Nat)
  | long (a : Address) (k : Kind) (x : Access)
  | short (a : Address) (f : ShortForm)

/-- The packet.  There are no builders for consists and the short form: the address, `0001001R 0AAAAAAA`
or the bytes of the short form, and the check byte. -/
def Order.packet : Order → R Packet
  | .drive c => c.packet
  | .consist a r n => addressed a [if r then 0x13#8 else 0x12#8, BitVec.ofNat 8 n]
  | .long a k x => (pomCall k x).run a
  | .short a f => addressed a f.bytes

/-- The number the order is for, zero for everyone. -/
def Order.number : Order → Nat
  | .drive c => c.addr.value.toNat
  | .consist a .. | .long a .. | .short a _ => a.value.toNat

/-- The order is to a locomotive or to all of them, and the data are in range. -/
def Order.Legal : Order → Prop
  | .drive c => c.Legal
  | .consist a _ n => LocoAddress a ∧ n < 128
  | .long a _ x => LocoAddress a ∧ x.Legal
  | .short a f => LocoAddress a ∧ f.Legal

/-- What a locomotive is on the main: the CVs, the CV packet counted last and how often it came in a
row. -/
structure Engine where
  cvs : BitVec 32 → Byte
  last : Packet
  count : Nat

/-- A locomotive listens to everyone's number, to its own and to that of its consist. -/
def hearing (c : BitVec 32 → Byte) (n : Nat) : Bool :=
  n = 0 || ownNumber c = some n || n = consistNumber c

/-- CVs are not accessed by the number of the consist. -/
def programmable (c : BitVec 32 → Byte) (n : Nat) : Bool :=
  n = 0 || ownNumber c = some n && n ≠ consistNumber c

/-- The direction is reversed by CV29 for the own number and by CV19 for any other one. -/
def turned (c : BitVec 32 → Byte) (n : Nat) : Bool :=
  if n = primaryNumber c then (c 28#32).getLsbD 0 else (c 18#32).getLsbD 7

/-- Counting a CV packet. -/
def Engine.counted (d : Engine) (p : Packet) : Engine :=
  { d with last := p, count := if d.last = p then d.count + 1 else 1 }

/-- Writes, unless the lock does not permit them. -/
def Engine.write (d : Engine) (ws : List Access) : Engine :=
  if ws.all fun a => permitted (locks d.cvs) .write a then { d with cvs := ws.foldl applyWrite d.cvs } else d

/-- Obeying an order that came as packet `p`: the locomotive after it, and the calls that move it. -/
def Engine.obey (d : Engine) (p : Packet) : Order → Engine × List Event
  | .drive c =>
    let n := c.addr.value.toNat
    (d, if hearing d.cvs n then
        AddressedCall.asks (!(d.cvs 28#32).getLsbD 1) (turned d.cvs n) (BitVec.ofNat 16 n) c.call
      else [])
  | .consist a r n =>
    (if hearing d.cvs a.value.toNat then
        d.write [.byte 18 (BitVec.ofNat 8 ((if r then 128 else 0) + n))]
      else d, [])
  | .long a k x =>
    (if programmable d.cvs a.value.toNat then
        if k = .write ∧ (d.counted p).count = 2 then (d.counted p).write [x] else d.counted p
      else d, [])
  | .short a f =>
    (if programmable d.cvs a.value.toNat then
        (d.counted p).write (f.writes (d.counted p).count)
      else d, [])

/-- Several orders in a row. -/
def Engine.run (d : Engine) : List Order → Engine × List Event
  | [] => (d, [])
  | o :: os =>
    match o.packet with
    | .error _ => d.run os
    | .ok p => (((d.obey p o).1.run os).1, (d.obey p o).2 ++ ((d.obey p o).1.run os).2)

/-- The CVs have an address (see C67) before the first of these orders and after each of them. -/
def Engine.KeepsNumber (d : Engine) (os : List Order) : Prop :=
  ∀ k, HasAddress (d.run (os.take k)).1.cvs

/-- The locomotive a decoder is. -/
def engineOf (init : BitVec 32 → Byte) (s : Rx) : Engine where
  cvs := mem init s.trace
  last := s.lastOwnCvPacket
  count := s.ownEqualCvPackets

/-- Between two states the decoder did what a locomotive does about these orders: the CVs are those of the
locomotive, and the calls that move it are exactly those asked. -/
def Does (init : BitVec 32 → Byte) (s s' : Rx) (os : List Order) : Prop :=
  engineOf init s' = ((engineOf init s).run os).1 ∧ drivingCalls s s' = ((engineOf init s).run os).2

/-- The same call with the other direction. -/
def mirror : Event → Event
  | .direction a d => .direction a !d
  | ev => ev

/-- The directions among calls. -/
def directions (evs : List Event) : List Bool :=
  evs.filterMap fun
    | .direction _ d => some d
    | _ => none

end Dcc.Spec
