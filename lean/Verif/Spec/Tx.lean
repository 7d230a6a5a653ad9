import Verif.Model.Tx
/-!
Specification of what a command station puts on the track (RCN-210, RCN-211, RCN-217).
-/
namespace Dcc.Spec

/-- The bits of a byte, most significant first. -/
def byteBits (b : Byte) : List Bool :=
  [b.getLsbD 7, b.getLsbD 6, b.getLsbD 5, b.getLsbD 4, b.getLsbD 3, b.getLsbD 2, b.getLsbD 1,
   b.getLsbD 0]

/-- The bits of a packet on the track: preamble of ones, each byte with a zero in front, an end
bit one. -/
def frameBits (preamble : Nat) (bytes : List Byte) : List Bool :=
  List.replicate preamble true ++ bytes.flatMap (fun b => false :: byteBits b) ++ [true]

/-- Each bit is two half bits of the duration belonging to it. -/
def wave (cfg : TxConfig) (bits : List Bool) : List Nat :=
  bits.flatMap fun b => if b then [cfg.bit1.toNat, cfg.bit1.toNat] else [cfg.bit0.toNat, cfg.bit0.toNat]

/-- The half bits of a packet sent with configuration `cfg`. -/
def packetWave (cfg : TxConfig) (bytes : List Byte) : List Nat :=
  wave cfg (frameBits cfg.numPreamble.toNat bytes)

/-- The half bits of an idle packet `FF 00 FF` in the default configuration. -/
def idleWave : List Nat := packetWave {} [0xFF#8, 0x00#8, 0xFF#8]

/-- Half bit number `i` of a packet: the first half of a bit has N low and P high, the second half
the opposite; `invert` swaps N and P. -/
def halfOut (cfg : TxConfig) (i duration : Nat) : TxOut :=
  if i % 2 = 0 then ⟨duration, [.trackOutputs cfg.invert (!cfg.invert)]⟩
  else ⟨duration, [.trackOutputs (!cfg.invert) cfg.invert]⟩

/-- The five phases of a cutout; the start times of the phases are 0, 29, 80, 193 and 454 us, the
cutout ends after 471 us. -/
def cutOut (cfg : TxConfig) : List TxOut :=
  [⟨29, [.trackOutputs cfg.invert (!cfg.invert)]⟩, ⟨51, [.trackOutputs false false, .biDiStart]⟩,
   ⟨113, [.biDiChannel1]⟩, ⟨261, [.biDiChannel2]⟩, ⟨17, [.biDiEnd]⟩]

/-- One packet on the track: a queued packet (`some` half bits) or an idle packet (`none`), the
calls of `transmit` that sent its half bits and those that sent its cutout. -/
structure Segment where
  frame : Option (List Nat)
  halves : List TxOut
  cut : List TxOut

/-- The half bits the segment is to send. -/
def Segment.wave (g : Segment) : List Nat := g.frame.getD idleWave

/-- All calls of `transmit` of this segment. -/
def Segment.outs (g : Segment) : List TxOut := g.halves ++ g.cut

/-- What has been sent of the segment is correct: the half bits sent are the first ones of the
packet, the cutout phases sent are the first ones of a cutout and only follow a whole packet.
`P` are the configurations in force. -/
structure Segment.Ok (P : TxConfig → Prop) (g : Segment) : Prop where
  halves_le : g.halves.length ≤ g.wave.length
  halves_eq : ∀ (i : Nat) o, g.halves[i]? = some o →
    ∃ c d, P c ∧ g.wave[i]? = some d ∧ o = halfOut c i d
  cut_le : g.cut.length ≤ 5
  cut_after : g.cut ≠ [] → g.halves.length = g.wave.length
  cut_eq : ∀ (i : Nat) o, g.cut[i]? = some o → ∃ c, P c ∧ c.bidi = true ∧ (cutOut c)[i]? = some o

/-- The segment is finished: all half bits, and the whole cutout unless BiDi is disabled. -/
structure Segment.Complete (P : TxConfig → Prop) (g : Segment) : Prop where
  halves : g.halves.length = g.wave.length
  cut : g.cut.length = 5 ∨ ∃ c, P c ∧ c.bidi = false

/-- A history is described by finished segments `done`, the current segment `cur` and the packets
still `waiting`: the calls of `transmit` so far are exactly those of the segments, and the packets
accepted so far are exactly the queued packets among the segments followed by the waiting ones, in
order. -/
structure Describes (P : TxConfig → Prop) (h : TxHist) (done : List Segment) (cur : Segment)
    (waiting : List (List Nat)) : Prop where
  out_eq : h.out = (done ++ [cur]).flatMap Segment.outs
  done_ok : ∀ g ∈ done, g.Ok P ∧ g.Complete P
  cur_ok : cur.Ok P
  acc_eq : h.acc.map (fun a => packetWave a.1 a.2) =
    (done ++ [cur]).filterMap Segment.frame ++ waiting

/-- The calls of `transmit` for the half bits of one packet. -/
def packetOuts (cfg : TxConfig) (wave : List Nat) : List TxOut := wave.mapIdx (halfOut cfg)

/-- The calls of `transmit` for one packet with its cutout. -/
def wholeOuts (cfg : TxConfig) (frame : Option (List Nat)) : List TxOut :=
  packetOuts cfg (frame.getD idleWave) ++ if cfg.bidi then cutOut cfg else []

/-- Signed area of one call of `transmit`: positive if P is driven, negative if N is driven. -/
def area (o : TxOut) : Int :=
  if .trackOutputs false true ∈ o.events then o.duration
  else if .trackOutputs true false ∈ o.events then -o.duration
  else 0

/-- Exactly one of both outputs is driven. -/
def Complementary (o : TxOut) : Prop := o.events = [.trackOutputs false true] ∨
  o.events = [.trackOutputs true false]

/-- Swap N and P. -/
def swapEvent : TxEvent → TxEvent
  | .trackOutputs n p => .trackOutputs p n
  | e => e

/-- Swap N and P. -/
def swapOut (o : TxOut) : TxOut := ⟨o.duration, o.events.map swapEvent⟩

/-- Callbacks of the BiDi cutout. -/
def cutoutEvents : List TxEvent := [.biDiStart, .biDiChannel1, .biDiChannel2, .biDiEnd]

/-- The configurations `init` accepts (RCN-210 for the command station). -/
def ValidConfig (c : TxConfig) : Prop :=
  17 ≤ c.numPreamble.toNat ∧ c.numPreamble.toNat ≤ 30 ∧ 56 ≤ c.bit1.toNat ∧ c.bit1.toNat ≤ 60 ∧
    97 ≤ c.bit0.toNat ∧ c.bit0.toNat ≤ 114

/-- The calls of `transmit` for the longest packet: 30 preamble bits, 18 bytes, the end bit and the cutout. -/
def longest : Nat := 2 * (30 + 9 * 18 + 1) + 5

/-- The calls of `transmit` for an idle packet: 17 preamble bits, three bytes, the end bit and the cutout. -/
def idling : Nat := 2 * (17 + 9 * 3 + 1) + 5

end Dcc.Spec
