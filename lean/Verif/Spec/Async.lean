import Verif.Spec.Independence
/-!
Two decoders that get the same signal, of which one may have a user class with asynchronous methods.
-/
namespace Dcc.Spec

/-- What is noticed of a call if answers to a command station do not matter: nothing of a transmission, an
acknowledgement or a CV read for an answer.  A write is noticed as an asynchronous one, without its result. -/
def effect : Event → Option Event
  | .transmitBiDi _ | .serviceAck | .readCvByte _ _ _ | .readCvBit _ _ _ _ | .asyncReadCvByte _ _
  | .asyncReadCvBit _ _ _ => none
  | .writeCvByte cv b _ => some (.asyncWriteCvByte cv b)
  | .writeCvBit cv b pos _ => some (.asyncWriteCvBit cv b pos)
  | ev => some ev

def effects (tr : List Event) : List Event := tr.filterMap effect

/-- What remains of a call without BiDi, clock, random numbers and callbacks. -/
def withoutCallbacks : RxOp → Option RxOp
  | .callbackByte _ _ | .callbackBit _ _ => none
  | op => bare op

/-- Two user classes hold the same CVs as long as the same was written to them, whether with synchronous
or asynchronous methods. -/
structure SameCvs (e e' : Env) : Prop where
  rxDeque : e.rxDeque = e'.rxDeque
  highCurrent : e.highCurrent = e'.highCurrent
  eastWest : e.eastWest = e'.eastWest
  readCv : ∀ a b cv, effects a = effects b → e.readCv a cv = e'.readCv b cv

/-- The calls up to the last acknowledgement. -/
def untilAck (tr : List Event) : List Event := (tr.reverse.dropWhile (· ≠ .serviceAck)).reverse

/-- A class with a memory of CVs, written asynchronously.  In service mode it stores what is written shortly
before it calls the callback. -/
def lateEnv (init : BitVec 32 → Byte) : Env :=
  { memEnv init with asyncWritable := true, readCv := fun tr cv => mem init (untilAck tr) cv }

end Dcc.Spec
