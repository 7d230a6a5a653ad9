import Verif.Spec.Codec
import Verif.Spec.Memory
/-!
What the CVs say about the configuration of a decoder (RCN-225), CVs numbered from zero.
-/
namespace Dcc.Spec

/-- The user's class keeps its CVs in a memory with the given initial content: whatever is written
is read back.  Asynchronous methods store at once, their callbacks may be called at any time or never. -/
structure MemoryLike (e : Env) (init : BitVec 32 → Byte) : Prop where
  reads : ∀ tr cv, e.readCv tr cv = mem init tr cv

/-- The byte that holds the (first part of the) primary address: CV17 if CV29 bit 5 selects the long
address, CV1 otherwise. -/
def primaryByte (c : BitVec 32 → Byte) : Byte := if (c 28#32).getLsbD 5 then c 16#32 else c 0#32

/-- The number of the primary address: long addresses are `(CV17 - 192) * 256 + CV18`. -/
def primaryNumber (c : BitVec 32 → Byte) : Nat :=
  if 192 ≤ (primaryByte c).toNat ∧ (primaryByte c).toNat ≤ 231 then
    ((primaryByte c).toNat - 192) * 256 + (c 17#32).toNat
  else (primaryByte c).toNat

/-- The CVs have an address: CV29 selects CV17 and CV18, or CV1 is not the first byte of a long address
(see C67). -/
def HasAddress (c : BitVec 32 → Byte) : Prop :=
  (c 28#32).getLsbD 5 = true ∨ (c 0#32).toNat < 192 ∨ 231 < (c 0#32).toNat

/-- The configuration of the decoder is the one in the CVs. -/
structure Reflects (c : BitVec 32 → Byte) (s : Rx) : Prop where
  address : HasAddress c
  primaryType : HasClass (primaryByte c).toNat s.addrs.primary.type
  primaryValue : s.addrs.primary.value.toNat = primaryNumber c
  primaryReversed : s.addrs.primary.reversed = (c 28#32).getLsbD 0
  consistType : s.addrs.consist.type = .long
  consistValue : s.addrs.consist.value.toNat = 100 * ((c 19#32).toNat % 128) + (c 18#32).toNat % 128
  consistReversed : s.addrs.consist.reversed = (c 18#32).getLsbD 7
  f0Exception : s.cfg.f0Exception = !(c 28#32).getLsbD 1
  locked : s.cfg.cvsLocked = true ↔ c 14#32 ≠ 0#8 ∧ c 15#32 ≠ 0#8 ∧ c 14#32 ≠ c 15#32
  channel1 : s.cfg.ch1AddrEnabled = ((c 28#32).getLsbD 3 && (c 27#32).getLsbD 0)
  channel2 : s.cfg.ch2DataEnabled = ((c 28#32).getLsbD 3 && (c 27#32).getLsbD 1)
  logon : s.cfg.logonEnabled = ((c 28#32).getLsbD 3 && (c 27#32).getLsbD 7)
  channel2Consist : s.cfg.ch2ConsistEnabled = ((c 28#32).getLsbD 3 && (c 19#32).getLsbD 7)

/-- A property of all states a sequence of calls goes through. -/
def Along (P : Rx → Prop) (e : Env) (s : Rx) : List RxOp → Prop
  | [] => P s
  | op :: ops => P s ∧
    match s.step e op with
    | .ok s' => Along P e s' ops
    | .error _ => True

instance Along.decide (P : Rx → Prop) [DecidablePred P] (e : Env) :
    ∀ (ops : List RxOp) (s : Rx), Decidable (Along P e s ops)
  | [], s => inferInstanceAs (Decidable (P s))
  | op :: ops, s => by
    unfold Along
    cases s.step e op with
    | ok s' => exact @instDecidableAnd _ _ _ (Along.decide P e ops s')
    | error _ => exact inferInstance

end Dcc.Spec
