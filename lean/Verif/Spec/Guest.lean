import Verif.Spec.Layout
import Verif.Spec.Logon
import Verif.Spec.Main
import Verif.Spec.Throttle
/-!
Decoders that log on (RCN-218) and are driven afterwards: what the command station sends, what it hears
in the cutouts, and which commands move which locomotive.
-/
namespace Dcc.Spec

/-- What a command station sends. -/
inductive GuestItem where
  | enable (group : AddressGroup) (cid : BitVec 16) (session : Byte)
  | select (manufacturer : BitVec 16) (uid : BitVec 32) (sub : Byte)
  | assign (manufacturer : BitVec 16) (uid : BitVec 32) (number : Nat)
  | idle
  | drive (c : Command)

/-- The packet.  An address is assigned with `11` in its upper two bits (for the session only). -/
def GuestItem.packet : GuestItem → R Packet
  | .enable g c s => makeLogonEnablePacket g c s
  | .select m u s => makeLogonSelectPacket m u s
  | .assign m u n => makeLogonAssignPacket m u (BitVec.ofNat 16 (0xC000 + n))
  | .idle => .ok idleBytes
  | .drive c => c.packet

/-- The station is not the one the decoder knows, or its session is neither the one the decoder knows nor one
of the next four (otherwise see C89), manufacturers have twelve bits, and long addresses are assigned. -/
def GuestItem.Legal (known : BitVec 16) (session : Byte) : GuestItem → Prop
  | .enable _ c k => ¬ (c = known ∧ session.toNat ≤ k.toNat ∧ k.toNat ≤ session.toNat + 4)
  | .select m _ _ => m.toNat < 4096
  | .assign m _ n => m.toNat < 4096 ∧ 1 ≤ n ∧ n < 10240
  | .idle => True
  | .drive c => c.Legal

/-- Decoders are selected before they get an address. -/
def SelectedFirst : List (BitVec 32) → List GuestItem → Prop
  | _, [] => True
  | seen, .select _ u _ :: xs => SelectedFirst (u :: seen) xs
  | seen, .assign _ u _ :: xs => u ∈ seen ∧ SelectedFirst seen xs
  | seen, _ :: xs => SelectedFirst seen xs

/-- What a decoder answers. -/
inductive Reply where
  | id
  | info
  | ack
  deriving DecidableEq, Repr

/-- The 48 bits of the answer. -/
def Reply.word (e : Env) (s : Rx) : Reply → Nat
  | .id => idWord e s
  | .info => infoWord s
  | .ack => ackWord

/-- A decoder that logs on: its unique ID, being selected, the address assigned, the backoff, and the
station (with its session) whose LOGON_ENABLE was heard last. -/
structure Guest where
  uid : BitVec 32
  selected : Bool := false
  number : Option Nat := none
  pause : Pause := {}
  station : Option (BitVec 16 × Byte) := none

/-- A packet arrives; `rand` is the random number drawn then. -/
def Guest.hear (g : Guest) (rand : Nat) : GuestItem → Guest × Option Reply
  | .enable group c k =>
    if g.selected then (g, none)
    else
      ({ g with pause := (g.pause.enable (groupNumber group) rand).1, station := some (c, k) },
        if (g.pause.enable (groupNumber group) rand).2 then none else some .id)
  | .select _ u _ =>
    if u = g.uid ∧ g.number = none then ({ g with selected := true }, some .info) else (g, none)
  | .assign _ u n => if u = g.uid then ({ g with number := some n }, some .ack) else (g, none)
  | _ => (g, none)

/-- The calls a packet asks for.  `s` is the decoder before it logged on.  With an address assigned a
command to that address is what one to its own address was before; commands for everyone remain, all
others are ignored. -/
def Guest.calls (s : Rx) (g : Guest) : GuestItem → List Event
  | .drive c =>
    match g.number with
    | none => c.calls s
    | some n =>
      if c.addr.value.toNat = 0 then c.calls s
      else if c.addr.value.toNat = n then
        AddressedCall.asks s.cfg.f0Exception s.addrs.primary.reversed s.addrs.primary.value c.call
      else []
  | _ => []

/-- The decoder after several packets. -/
def Guest.after (g : Guest) : List (Nat × GuestItem) → Guest
  | [] => g
  | x :: xs => ((g.hear x.1 x.2).1).after xs

/-- The answers to several packets. -/
def Guest.replies (g : Guest) : List (Nat × GuestItem) → List (Option Reply)
  | [] => []
  | x :: xs => (g.hear x.1 x.2).2 :: ((g.hear x.1 x.2).1).replies xs

/-- The calls several packets ask for. -/
def Guest.allCalls (s : Rx) (g : Guest) : List (Nat × GuestItem) → List Event
  | [] => []
  | x :: xs => g.calls s x.2 ++ ((g.hear x.1 x.2).1).allCalls s xs

/-- The random number drawn with the last half bit of the packet. -/
def Round.drawn (r : Round) : Nat := (r.wave.getLast?.map (·.2)).getD 0

/-- The half bits are those of the packet, with a valid configuration. -/
def Round.Sent (r : Round) : Prop :=
  ∃ cfg : TxConfig, cfg.accepted = true ∧ bytes2timings r.packet cfg = .ok (r.wave.map (·.1))

/-- The calls for the channels of the cutout after a logon packet. -/
def inLogon (s : Rx) : RxOp → Bool
  | .biDiChannel1 | .biDiChannel2 => cutout s = .logon
  | _ => false

/-- The bytes transmitted in the cutouts after logon packets, for every round. -/
def heardRounds (e : Env) (s : Rx) : List Round → List (List Byte)
  | [] => []
  | r :: rs =>
    match s.run e r.ops with
    | .error _ => []
    | .ok s' => (sent inLogon e s r.ops).flatten :: heardRounds e s' rs

/-- What a station makes of the bytes in a cutout: nothing, 48 bits, or (`none`) neither. -/
def inCutout (m : List Byte) : Option (Option Nat) :=
  if m = [] then some none
  else if m.length = 8 ∧ m.all (fun b => popcount b = 4) then some (some (read m)) else none

/-- A decoder that may log on and has not begun to. -/
structure MayLogOn (s : Rx) : Prop where
  enabled : s.cfg.logonEnabled = true
  selected : s.logon.selected = false
  assigned : s.logon.assigned = false
  store : s.logon.store = false
  silent : s.q.logon = []
  unnamed : s.addrs.logon.value = 0#16

/-- The number assigned last to the decoder with this unique ID. -/
def assignedLast (uid : BitVec 32) (items : List GuestItem) : Option Nat :=
  items.foldl (fun k i => match i with
    | .assign _ u n => if u = uid then some n else k
    | _ => k) none

/-- The station, and its session, whose LOGON_ENABLE was the last before the decoder was selected. -/
def stationHeard (uid : BitVec 32) : Option (BitVec 16 × Byte) → List GuestItem → Option (BitVec 16 × Byte)
  | x, [] => x
  | _, .enable _ c k :: items => stationHeard uid (some (c, k)) items
  | x, .select _ u _ :: items => if u = uid then x else stationHeard uid x items
  | x, _ :: items => stationHeard uid x items

/-- A decoder that has run (`ops`, now in state `s`) and hears rounds with the packets of the items. -/
structure LogsOn (e : Env) (ops : List RxOp) (s : Rx) (uid : BitVec 32) (rs : List Round) (items : List GuestItem) :
    Prop where
  run : ({} : Rx).run e ops = .ok s
  ready : Ready e s
  may : MayLogOn s
  uid : s.cfg.did = uint32ToData uid
  sent : ∀ r ∈ rs, r.Sent
  packets : items.map GuestItem.packet = rs.map (fun r => .ok r.packet)
  legal : ∀ i ∈ items, i.Legal s.logon.cidFront s.logon.sessionFront
  first : SelectedFirst [] items

end Dcc.Spec
