import Verif.Model.RxMachine
/-!
The most ordinary user class: a memory of CVs.  Reads return the value written last, writes return
what was written.
-/
namespace Dcc.Spec

/-- Replace bit `pos` of a byte. -/
def setBit (b : Byte) (pos : BitVec 32) (bit : Bool) : Byte :=
  if bit then b ||| (1#8 <<< pos.toNat) else b &&& ~~~ (1#8 <<< pos.toNat)

/-- Content of a CV after the calls made so far, oldest first.  An asynchronous write is stored when it is
requested. -/
def mem (init : BitVec 32 → Byte) : List Event → BitVec 32 → Byte
  | [], cv => init cv
  | .writeCvByte c b _ :: evs, cv => mem (fun x => if x = c then b else init x) evs cv
  | .writeCvBit c bit pos _ :: evs, cv =>
    mem (fun x => if x = c then setBit (init x) pos bit else init x) evs cv
  | .asyncWriteCvByte c b :: evs, cv => mem (fun x => if x = c then b else init x) evs cv
  | .asyncWriteCvBit c bit pos :: evs, cv =>
    mem (fun x => if x = c then setBit (init x) pos bit else init x) evs cv
  | _ :: evs, cv => mem init evs cv

/-- A user class with a memory of CVs. -/
def memEnv (init : BitVec 32 → Byte) : Env where
  readCv tr cv := mem init tr cv
  readCvByte tr cv _ := mem init tr cv
  readCvBit tr cv _ pos := (mem init tr cv).getLsbD pos.toNat
  writeCvByte _ _ b := b
  writeCvBit _ _ b _ := b

/-- CVs of a locomotive decoder with short address 3, 28 speed steps and BiDi enabled, everything
else zero (CV numbers start at 0, so CV1 is 0). -/
def exampleCvs (cv : BitVec 32) : Byte :=
  if cv = 0#32 then 3#8
  else if cv = 27#32 then 3#8
  else if cv = 28#32 then 0x0A#8
  else 0#8

/-- An ordinary decoder for examples. -/
def exampleEnv : Env := memEnv exampleCvs

/-- A run ends without fault in a state with the given property (for examples). -/
def holdsAfter (r : R Rx) (p : Rx → Bool) : Bool :=
  match r with
  | .ok s => p s
  | .error _ => false

theorem holdsAfter_ok {r : R Rx} {p : Rx → Bool} (h : holdsAfter r p = true) :
    ∃ s, r = .ok s ∧ p s = true := by
  cases r with
  | ok s => exact ⟨s, rfl, h⟩
  | error _ => cases h

end Dcc.Spec
