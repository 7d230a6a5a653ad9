import Verif.Spec.Throttle
/-! Stopping and running: what speed commands say and what the user's class was told last. -/
namespace Dcc.Spec

/-- The speed code of an instruction (RCN-212): `00111111 RSSSSSSS` and `00111100 RSSSSSSS ...` (126 speed
steps), `01RCSSSS` (28 or 14 speed steps).  Zero is stop, one emergency stop, everything else asks for a speed. -/
def speedCode : List Byte → Option Nat
  | [] => none
  | b :: rest =>
    if b = 0x3F#8 ∨ b = 0x3C#8 then rest.head?.map fun v => v.toNat % 128
    else if 64 ≤ b.toNat ∧ b.toNat < 128 then some (b.toNat % 16)
    else none

/-- The speed a call tells the user's class, and the address it is told for. -/
def Event.told : Event → Option (BitVec 16 × Int)
  | .speed a v => some (a, v)
  | _ => none

/-- The speeds told by calls. -/
def toldBy (tr : List Event) : List (BitVec 16 × Int) := tr.filterMap Event.told

/-- The speed told last. -/
def lastTold (tr : List Event) : Option Int := (toldBy tr).getLast?.map (·.2)

/-- The locomotive stands: it was never told to run, or was last told to stop. -/
def Standing (tr : List Event) : Prop := ∀ v, lastTold tr = some v → v ≤ 0

instance (tr : List Event) : Decidable (Standing tr) :=
  match h : lastTold tr with
  | none => .isTrue fun v hv => by rw [h] at hv; cases hv
  | some x =>
    if hx : x ≤ 0 then .isTrue fun v hv => by rw [h] at hv; cases hv; exact hx
    else .isFalse fun g => hx (g x h)

/-- The speed a speed code asks for: nothing, an emergency stop, or some speed. -/
def Meets (code : Nat) (v : Int) : Prop :=
  (code = 0 ∧ v = 0) ∨ (code = 1 ∧ v = -1) ∨ (2 ≤ code ∧ 0 < v)

/-- In this state `execute` is about to obey an instruction: a packet is there, the decoder is in operations mode,
and the packet is for everyone or for a number the decoder listens to. -/
def Obeys (s : Rx) (n : Nat) (instruction : List Byte) : Prop :=
  ∃ p, front s = some p ∧ s.serviceMode = false ∧ locoNumber p = some n ∧ (n = 0 ∨ Active s n) ∧
    instruction = afterAddress p

/-- The speed code of a command of the command station. -/
def AddressedCall.speedCode : AddressedCall → Option Nat
  | .advancedSpeed b => some (b.toNat % 128)
  | .speedDirFunctions b _ _ => some (b.toNat % 128)
  | .speedAndDirection b => some (b.toNat % 16)
  | _ => none

/-- The command is for the decoder and asks for a speed. -/
def Command.Runs (s : Rx) (c : Command) : Prop :=
  (c.addr.value.toNat = 0 ∨ Active s c.addr.value.toNat) ∧ ∃ k, AddressedCall.speedCode c.call = some k ∧ 2 ≤ k

/-- The command is for the decoder and is a stop or an emergency stop. -/
def Command.Stops (s : Rx) (c : Command) : Prop :=
  (c.addr.value.toNat = 0 ∨ Active s c.addr.value.toNat) ∧ ∃ k, AddressedCall.speedCode c.call = some k ∧ k ≤ 1

end Dcc.Spec
