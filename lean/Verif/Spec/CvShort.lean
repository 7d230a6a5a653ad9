import Verif.Spec.Cv
import Verif.Spec.Memory
/-!
Short form CV access (RCN-214), CVs numbered from zero.
-/
namespace Dcc.Spec

/-- As long as CV15 and CV16 are not written, the user's class, called as in `tr` before, reports
values for them that do not lock the decoder. -/
def KeepsUnlocked (e : Env) (tr : List Event) : Prop :=
  ∀ evs evs' : List Event,
    (∀ ev ∈ evs, ev.writtenCv ≠ some 14#32 ∧ ev.writtenCv ≠ some 15#32) →
    (∀ ev ∈ evs', ev.writtenCv ≠ some 14#32 ∧ ev.writtenCv ≠ some 15#32) →
    ¬ (e.readCv (tr ++ evs) 14#32 ≠ 0#8 ∧ e.readCv (tr ++ evs') 15#32 ≠ 0#8 ∧
      e.readCv (tr ++ evs) 14#32 ≠ e.readCv (tr ++ evs') 15#32)

/-- What the `n`-th of identical short form packets `1111KKKK DDDDDDDD (DDDDDDDD)` writes, if it is
long enough: KKKK = 2 writes CV23 and KKKK = 3 writes CV24, both at once; KKKK = 4 writes the long
address to CV17 and CV18 and selects it in CV29, KKKK = 5 writes CV31 and CV32, both the second time
only. -/
def shortWrites (n : Nat) : List Byte → Option (List Access)
  | [] => none
  | b0 :: rest =>
    if b0.toNat % 16 = 2 then rest.head?.map fun b1 => [.byte 22 b1]
    else if b0.toNat % 16 = 3 then rest.head?.map fun b1 => [.byte 23 b1]
    else if b0.toNat % 16 = 4 then
      if n ≠ 2 then some []
      else
        match rest with
        | b1 :: b2 :: _ => some [.byte 16 (0xC0#8 ||| b1), .byte 17 b2, .bit 28 true 5]
        | _ => none
    else if b0.toNat % 16 = 5 then
      if n ≠ 2 then some []
      else
        match rest with
        | b1 :: b2 :: _ => some [.byte 30 b1, .byte 31 b2]
        | _ => none
    else some []

/-- What a write does to a memory of CVs. -/
def applyWrite (c : BitVec 32 → Byte) : Access → BitVec 32 → Byte
  | .byte cv b => fun x => if x = BitVec.ofNat 32 cv then b else c x
  | .bit cv b p => fun x => if x = BitVec.ofNat 32 cv then setBit (c x) (BitVec.ofNat 32 p) b else c x

end Dcc.Spec
