import Verif.Spec.Throttle
/-! What a locomotive ends up with: for its direction, its speed and each of its functions the value set last. -/
namespace Dcc.Spec

/-- What a throttle sets. -/
inductive Setting where
  | direction
  | speed
  | function (i : Nat)
  deriving DecidableEq, Repr

def asInt (b : Bool) : Int := if b then 1 else 0

/-- What a call of the user's class sets a setting to, if at all: functions whose bit in the mask is set get the
state. -/
def Event.sets : Event → Setting → Option Int
  | .direction _ d, .direction => some (asInt d)
  | .speed _ v, .speed => some v
  | .function _ mask state, .function i => if mask.getLsbD i then some (asInt (state.getLsbD i)) else none
  | _, _ => none

/-- The last of some things that sets a setting. -/
def lastSet {α} (sets : α → Setting → Option Int) (xs : List α) (x : Setting) : Option Int :=
  xs.reverse.findSome? fun a => sets a x

/-- What `state` sets, a group of `count` functions from `first` on, the first one in bit 0. -/
def groupSets (first count : Nat) (state : Byte) (i : Nat) : Option Int :=
  if first ≤ i ∧ i < first + count then some (asInt (state.toNat.testBit (i - first))) else none

/-- Direction and speed of 126 speed steps: emergency stop leaves the direction alone. -/
def sets126 (reversed : Bool) (b : Byte) : Setting → Option Int
  | .direction => if b.toNat % 128 = 1 then none else some (asInt (b.toNat.testBit 7 != reversed))
  | .speed => some (if b.toNat % 128 = 1 then -1 else scaled 126 (b.toNat % 128 - 1))
  | .function _ => none

/-- What a command sets, read from RCN-212.  With 14 speed steps (`f0`) F0 belongs to the speed command and not to the
group of F0 to F4. -/
def AddressedCall.sets (f0 reversed : Bool) : AddressedCall → Setting → Option Int
  | .advancedSpeed b, x => sets126 reversed b x
  | .speedAndDirection b, .direction =>
    if b.toNat % 16 = 1 then none else some (asInt (b.toNat.testBit 5 != reversed))
  | .speedAndDirection b, .speed =>
    let code := b.toNat % 16
    some (if code = 1 then -1
      else if f0 then scaled 14 (code - 1)
      else scaled 28 (if code = 0 then 0 else 2 * code - 3 + b.toNat / 16 % 2))
  | .speedAndDirection b, .function i =>
    if f0 ∧ b.toNat % 16 ≠ 1 ∧ i = 0 then some (asInt (b.toNat.testBit 4)) else none
  | .speedDirFunctions _ f fs, .function i =>
    (f :: fs)[i / 8]?.map fun state => asInt (state.toNat.testBit (i % 8))
  | .speedDirFunctions b _ _, x => sets126 reversed b x
  | .f4f0 s, .function i => if f0 ∧ i = 0 then none else groupSets 0 5 s i
  | .f8f5 s, .function i => groupSets 5 4 s i
  | .f12f9 s, .function i => groupSets 9 4 s i
  | .f20f13 s, .function i => groupSets 13 8 s i
  | .f28f21 s, .function i => groupSets 21 8 s i
  | _, _ => none

/-- What a command sets in a decoder: nothing unless it is for everyone or for a number the decoder listens to. -/
def Command.sets (s : Rx) (c : Command) (x : Setting) : Option Int :=
  let n := c.addr.value.toNat
  if n = 0 ∨ Active s n then AddressedCall.sets s.cfg.f0Exception (reversedAt s (target s n)) c.call x else none

/-- What the user's class was last told about a setting. -/
def finalOf (tr : List Event) (x : Setting) : Option Int := lastSet Event.sets tr x

end Dcc.Spec
