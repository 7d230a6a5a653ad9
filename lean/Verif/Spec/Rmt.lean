import Verif.Model.Rmt
import Verif.Spec.Tx
/-!
What the RMT encoder is to write for a packet.
-/
namespace Dcc.Rmt
open Dcc.Spec

/-- A symbol that begins with the configured level and lasts `d0` and `d1`. -/
def Config.levels (c : Config) (d0 d1 : Nat) : Symbol :=
  ⟨BitVec.ofNat 15 d0, c.level0, BitVec.ofNat 15 d1, !c.level0⟩

/-- The symbol of a bit. -/
def Config.bit (c : Config) (b : Bool) : Symbol :=
  if b then c.levels c.bit1Duration.toNat c.bit1Duration.toNat
  else c.levels c.bit0Duration.toNat c.bit0Duration.toNat

/-- Four symbols for the cutout behind the packet before, if there was one and BiDi is enabled. -/
def Config.cutout (c : Config) (first : Bool) : List Symbol :=
  if first ∨ c.bidibitDuration = 0#8 then []
  else List.replicate 4 (c.levels c.bidibitDuration.toNat c.bidibitDuration.toNat)

/-- The end bit, whose second half may have a duration of its own. -/
def Config.lastBit (c : Config) : Symbol :=
  c.levels c.bit1Duration.toNat
    (if c.endbitDuration = 0#8 then c.bit1Duration.toNat else c.endbitDuration.toNat)

/-- What comes before the first start bit: cutout, an optional ZIMO 0 and the preamble. -/
def Config.header (c : Config) (first : Bool) : List Symbol :=
  c.cutout first ++ (if c.zimo0 then [c.bit false] else []) ++
    List.replicate c.numPreamble.toNat (c.bit true)

/-- All symbols of a packet. -/
def Config.packet (c : Config) (first : Bool) (data : List Byte) : List Symbol :=
  c.header first ++ data.flatMap (fun b => c.bit false :: (byteBits b).map c.bit) ++ [c.lastBit]

/-- A session ends directly behind a byte that is not the last one: the memory of the sessions up to
there is used up by the header and by `k` bytes with their start bits. -/
def EndsBehindByte (c : Config) (first : Bool) (data : List Byte) (sizes : List Nat) : Prop :=
  ∃ pre k, pre <+: sizes ∧ 0 < k ∧ k < data.length ∧ pre.sum = (c.header first).length + 9 * k

instance (c : Config) (first : Bool) (data : List Byte) (sizes : List Nat) :
    Decidable (EndsBehindByte c first data sizes) :=
  decidable_of_iff (∃ i, i < sizes.length + 1 ∧ ∃ k, k < data.length ∧ 0 < k ∧
    (sizes.take i).sum = (c.header first).length + 9 * k) <| by
    constructor
    · rintro ⟨i, -, k, h1, h2, h3⟩
      exact ⟨_, k, List.take_prefix i sizes, h2, h1, h3⟩
    · rintro ⟨pre, k, h1, h2, h3, h4⟩
      exact ⟨pre.length, Nat.lt_succ_of_le h1.length_le, k, h3, h2, by
        rw [← List.prefix_iff_eq_take.mp h1]; exact h4⟩

/-- A symbol of a packet; `start` marks the start bits of all bytes but the first one. -/
structure Slot where
  symbol : Symbol
  start : Bool := false
  deriving DecidableEq

/-- The symbols of a packet with the marks. -/
def Config.slots (c : Config) (first : Bool) (data : List Byte) : List Slot :=
  (c.header first).map (fun s => ⟨s, false⟩) ++
    (match data with
      | [] => []
      | b :: bs => ⟨c.bit false, false⟩ :: (byteBits b).map (fun x => ⟨c.bit x, false⟩) ++
        bs.flatMap fun b => ⟨c.bit false, true⟩ :: (byteBits b).map (fun x => ⟨c.bit x, false⟩)) ++
    [⟨c.lastBit, false⟩]

/-- A marked start bit is lost if it is to be the first symbol of a session. -/
def skipStart : List Slot → List Slot
  | [] => []
  | x :: xs => if x.start then xs else x :: xs

/-- What is written in sessions with memory for so many symbols: all that fits, except for marked start
bits at the beginning of a session.  Also: is the packet complete, and the sessions not needed. -/
def chunked : List Slot → List Nat → List Slot × Bool × List Nat
  | _, [] => ([], false, [])
  | slots, f :: fs =>
    if slots.length ≤ f then (slots, true, fs)
    else
      let r := chunked (skipStart (slots.drop f)) fs
      (slots.take f ++ r.1, r.2)

/-- The half bits a list of symbols puts on the track. -/
def halves (symbols : List Symbol) : List Nat :=
  symbols.flatMap fun s => [s.duration0.toNat, s.duration1.toNat]

/-- The ranges documented in include/rmt_dcc_encoder.h:21-37. -/
structure Config.Documented (c : Config) : Prop where
  preamble : 17 ≤ c.numPreamble.toNat ∧ c.numPreamble.toNat ≤ 30
  bidi : c.bidibitDuration.toNat = 0 ∨ (57 ≤ c.bidibitDuration.toNat ∧ c.bidibitDuration.toNat ≤ 61)
  bit1 : 56 ≤ c.bit1Duration.toNat ∧ c.bit1Duration.toNat ≤ 60
  bit0 : 97 ≤ c.bit0Duration.toNat ∧ c.bit0Duration.toNat ≤ 114
  endbit : c.endbitDuration.toNat ≤ 60

/-- Everything allocated is freed once. -/
def Balanced (l : List Alloc) : Prop :=
  l.count .encoder = l.count .freeEncoder ∧ l.count .copyEncoder = l.count .freeCopyEncoder ∧
    l.count .bytesEncoder = l.count .freeBytesEncoder

end Dcc.Rmt
