import Verif.Spec.Bidi
import Verif.Spec.Exec
/-! What a throttle asks a command station to send, and what a decoder is to do about it. -/
namespace Dcc.Spec

/-- A packet of the command station: the builder called and the address passed to it. -/
structure Command where
  addr : Address
  call : AddressedCall

/-- The packet the builder makes. -/
def Command.packet (c : Command) : R Packet := c.call.run c.addr

/-- Speed, direction and functions.  RCN-212 speed codes have six bits; the packet
with speed, direction and functions has at most the groups F7-F0, F15-F8 and F23-F16 (for the fourth
one see C38). -/
def AddressedCall.Driving : AddressedCall → Prop
  | .speedDirFunctions _ _ fs => fs.length ≤ 2
  | .speedAndDirection b => b.toNat < 64
  | .binaryStateShort .. | .binaryStateLong .. | .cvVerify .. | .cvWrite .. | .cvVerifyBit ..
  | .cvWriteBit .. => False
  | _ => True

/-- A command to a locomotive, or to all of them. -/
def Command.Legal (c : Command) : Prop := LocoAddress c.addr ∧ AddressedCall.Driving c.call

/-- One call for `count` functions from `first` on: the mask, without F0 if it belongs to the speed
command, and the states. -/
def functionCall (addr : BitVec 16) (f0Exception : Bool) (g : Group) (states : Nat) : Event :=
  .function addr
    (BitVec.ofNat 32 ((2 ^ g.count - 1) * 2 ^ g.first - if f0Exception ∧ g.first = 0 then 1 else 0))
    (BitVec.ofNat 32 (states % 2 ^ g.count * 2 ^ g.first))

/-- The calls a command asks of a decoder it is for.  `f0Exception` is CV29 selecting 14 speed steps,
`reversed` whether the direction is reversed. -/
def AddressedCall.asks (f0Exception reversed : Bool) (addr : BitVec 16) : AddressedCall → List Event
  | .advancedSpeed b => speed126Calls addr reversed b
  | .speedAndDirection b =>
    if f0Exception then speed14Calls addr reversed b else speed28Calls addr reversed b
  | .speedDirFunctions b f fs =>
    ((f :: fs).zipIdx.map fun x => functionCall addr false ⟨8 * x.2, 8⟩ x.1.toNat) ++
      speed126Calls addr reversed b
  | .f4f0 s => [functionCall addr f0Exception ⟨0, 5⟩ s.toNat]
  | .f8f5 s => [functionCall addr f0Exception ⟨5, 4⟩ s.toNat]
  | .f12f9 s => [functionCall addr f0Exception ⟨9, 4⟩ s.toNat]
  | .f20f13 s => [functionCall addr f0Exception ⟨13, 8⟩ s.toNat]
  | .f28f21 s => [functionCall addr f0Exception ⟨21, 8⟩ s.toNat]
  | _ => []

/-- The calls a command asks of the decoder: none unless it is for everyone or for an address the
decoder listens to. -/
def Command.calls (s : Rx) (c : Command) : List Event :=
  let n := c.addr.value.toNat
  if n = 0 ∨ Active s n then
    AddressedCall.asks s.cfg.f0Exception (reversedAt s (target s n)) (target s n) c.call
  else []

/-- Calls that move the locomotive. -/
def Event.isDriving : Event → Bool
  | .direction .. | .speed .. | .function .. => true
  | _ => false

/-- The calls that move the locomotive among those made between two states. -/
def drivingCalls (s s' : Rx) : List Event := (newCalls s s').filter Event.isDriving

/-- The packet a command station sends when there is nothing to send. -/
def idleBytes : Packet := [0xFF#8, 0x00#8, 0xFF#8]

/-- A main loop that calls `execute` after every call of `receive`. -/
def polled (xs : List (Nat × Nat × Int × Nat)) : List RxOp :=
  xs.flatMap fun x => [.receive x.1 x.2.1, .execute x.2.2.1 x.2.2.2]

end Dcc.Spec
