import Verif.Spec.Bidi

/-!
A detector on the track: what it concludes from the words decoders transmit in channel 1 and channel
2 (RCN-217 5.2).
-/

namespace Dcc.Spec

/-! ### Addresses in channel 1 -/

/-- An address a detector shows. -/
inductive Seen where
  | short (n : Nat)
  | consist (n : Nat) (reversed : Bool)
  | long (n : Nat)
  deriving DecidableEq, Repr

/-- The number of a locomotive or of its consist. -/
def Seen.number : Seen → Nat
  | .short n | .consist n _ | .long n => n

/-- Data of ID1 and ID2: `00000000 0AAAAAAA` is a short address, `01100000 RAAAAAAA` that of a
consist, `10AAAAAA AAAAAAAA` a long one. -/
def seen (high low : Nat) : Option Seen :=
  if high = 0 then if low < 128 then some (.short low) else none
  else if high = 96 then some (.consist (low % 128) (128 ≤ low))
  else if 128 ≤ high ∧ high < 192 then some (.long ((high - 128) * 256 + low))
  else none

/-- A detector waits for ID1, takes the next word for ID2, and begins anew. -/
def detect : List Nat → List (Option Seen)
  | w :: w' :: ws =>
    if w / 256 = 1 ∧ w' / 256 = 2 then seen (w % 256) (w' % 256) :: detect ws else detect (w' :: ws)
  | _ => []

/-- What a detector should show of a decoder: its address, or that of its consist. -/
def announced (s : Rx) : Option Seen :=
  (reportedAddress s).map fun a =>
    if SameDecoder a s.addrs.consist then .consist a.value.toNat s.addrs.consist.reversed
    else if a.value.toNat < 128 then .short a.value.toNat
    else .long a.value.toNat

/-- The states in which a decoder begins to announce an address, while it still has `k` words to
transmit: it executes a packet, has none left to transmit, is to announce its address and has one to
announce. -/
def announcing (e : Env) (s : Rx) (k : Nat) : List RxOp → List Rx
  | [] => []
  | op :: ops =>
    match s.step e op with
    | .error _ => []
    | .ok s' =>
      match op with
      | .execute _ _ =>
        if (front s).isSome && s.cfg.ch1AddrEnabled && k = 0 && (reportedAddress s).isSome then
          s :: announcing e s' 2 ops
        else announcing e s' k ops
      | .biDiChannel1 => announcing e s' (if afterLoco s then k - 1 else k) ops
      | _ => announcing e s' k ops

/-- The assigned address is not the number of a consist above 127 at the same time. -/
def Apart (s : Rx) : Prop := s.addrs.logon.value.toNat < 128 ∨ s.addrs.logon.value ≠ s.addrs.consist.value

instance (s : Rx) : Decidable (Apart s) := by unfold Apart; infer_instance

/-! ### Values in channel 2 -/

/-- What a word of 18 bits with ID7 tells. -/
inductive Reading where
  | speed (kmh : Nat)
  | quality (percent : Nat)
  | temperature (celsius : Int)
  | voltage (millivolt : Nat)
  | other (value index : Nat)
  deriving DecidableEq, Repr

/-- RCN-217 5.3.1: subindex 0 and 1 are speeds, 7 is the quality of service, 26 a temperature above
-50 degrees, 46 the track voltage above 5 V in steps of 0.1 V. -/
def readingOf (d : Nat) : Nat → Reading
  | 0 => .speed d
  | 1 => .speed (256 + d)
  | 7 => .quality d
  | 26 => .temperature (d - 50)
  | 46 => .voltage (5000 + 100 * d)
  | x => .other d x

/-- Eight bits value, six bits subindex. -/
def reading (w : Nat) : Reading := readingOf (w / 64 % 256) (w % 64)

/-- What a value the user's class reports should be read as. -/
def readAs : Dyn → Reading
  | .kmh d => .speed (min d.toNat 511)
  | .temperature d => .temperature d.toInt
  | .trackVoltage d => .voltage (5000 + (d.toNat - 5000) / 100 * 100)
  | .directionStatusByte d => .other (d.toNat % 256) 27
  | .raw d x => .other (d.toNat % 256) x.toNat

/-- The value can be transmitted: not negative, a temperature of -50 to 205 degrees, at most 30.5 V,
a subindex of six bits that is none of those above. -/
def Tellable : Dyn → Prop
  | .kmh d => 0 ≤ d.toInt
  | .temperature d => -50 ≤ d.toInt ∧ d.toInt ≤ 205
  | .trackVoltage d => 0 ≤ d.toInt ∧ d.toInt ≤ 30599
  | .directionStatusByte _ => True
  | .raw _ x => x.toNat < 64 ∧ x.toNat ≠ 0 ∧ x.toNat ≠ 1 ∧ x.toNat ≠ 7 ∧ x.toNat ≠ 26 ∧ x.toNat ≠ 46

instance (d : Dyn) : Decidable (Tellable d) := by cases d <;> unfold Tellable <;> infer_instance

/-- What a call of `datagram` offers, as it is to be read. -/
def offers (s : Rx) (q : DynQueue) : RxOp → List Reading
  | .datagram ds => (if q.words = [] then [.quality s.qos.toNat] else []) ++ ds.map readAs
  | _ => []

/-- What `datagram` accepts in a history, as it is to be read; the queue of C48 says how much of it. -/
def taken (e : Env) (s : Rx) (q : DynQueue) : List RxOp → List Reading
  | [] => []
  | op :: ops =>
    match s.step e op with
    | .error _ => []
    | .ok s' =>
      (offers s q op).take ((q.step e s op).words.length - q.words.length) ++ taken e s' (q.step e s op) ops

end Dcc.Spec
