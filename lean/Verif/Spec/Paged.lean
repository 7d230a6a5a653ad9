import Verif.Spec.Decoder
/-!
A session on the programming track in register and page mode (RCN-216): what a programmer sends, and what a
decoder is to do about it.
-/
namespace Dcc.Spec

/-- A packet in register and page mode: `0111CRRR DDDDDDDD` and the checksum. -/
def registerBytes (w : Bool) (reg : Nat) (v : Byte) : Packet :=
  let b := BitVec.ofNat 8 (112 + (if w then 8 else 0) + reg)
  [b, v, b ^^^ v]

/-- A reset packet to all. -/
def resetBytes : Packet := [0#8, 0#8, 0#8]

/-- A request of the programmer: the page register is written `presets` times, reset packets follow, then the
access to a register, sent `times` times and followed by reset packets. -/
structure RegisterRequest where
  page : Byte
  presets : Nat
  gap : Nat
  kind : Kind
  reg : Nat
  value : Byte
  times : Nat
  resets : Nat
  deriving DecidableEq, Repr

/-- The packets of a request. -/
def RegisterRequest.packets (r : RegisterRequest) : List Packet :=
  List.replicate r.presets (registerBytes true 5 r.page) ++ List.replicate r.gap resetBytes ++
    List.replicate r.times (registerBytes (r.kind = .write) r.reg r.value) ++ List.replicate r.resets resetBytes

/-- The register shows a CV: data registers on one of the pages 1 to 255, which has to be chosen, the others
always, but not the page register. -/
def RegisterRequest.Legal (r : RegisterRequest) : Prop :=
  1 ≤ r.times ∧ (r.reg < 4 ∧ 1 ≤ r.presets ∧ r.page ≠ 0#8 ∨ r.reg = 4 ∨ r.reg = 6 ∨ r.reg = 7)

instance (r : RegisterRequest) : Decidable r.Legal := by unfold RegisterRequest.Legal; exact inferInstance

/-- The same request in direct mode. -/
def RegisterRequest.direct (r : RegisterRequest) : Request :=
  ⟨r.kind, .byte ((registerCv r.page r.reg).getD 0) r.value, 2, 0⟩

/-- The request for a CV in page mode. -/
def pagedRequest (k : Kind) (cv : Nat) (v : Byte) (presets gap times resets : Nat) : RegisterRequest :=
  ⟨BitVec.ofNat 8 (cv / 4 + 1), presets, gap, k, cv % 4, v, times, resets⟩

/-- The CVs and the calls after the same request several times. -/
def performedTimes (c : BitVec 32 → Byte) (k : Kind) (a : Access) : Nat → (BitVec 32 → Byte) × List Event
  | 0 => (c, [])
  | n + 1 =>
    ((performedTimes (performed c k a).1 k a n).1, (performed c k a).2 ++ (performedTimes (performed c k a).1 k a n).2)

/-- The CVs and the calls after requests, each performed as often as it was sent. -/
def performRegisters (c : BitVec 32 → Byte) : List RegisterRequest → (BitVec 32 → Byte) × List (List Event)
  | [] => (c, [])
  | r :: rs =>
    let x := performedTimes c r.direct.kind r.direct.access r.times
    let y := performRegisters x.1 rs
    (y.1, x.2 :: y.2)

/-- The CVs have an address after each request. -/
def AddressKept (c : BitVec 32 → Byte) : List Request → Prop
  | [] => True
  | r :: rs => HasAddress (performed c r.kind r.access).1 ∧ AddressKept (performed c r.kind r.access).1 rs

/-- The packets of a session: reset packets and requests. -/
def registerSession (resets : Nat) (rs : List RegisterRequest) : List Packet :=
  List.replicate (resets + 1) resetBytes ++ rs.flatMap RegisterRequest.packets

end Dcc.Spec
