import Verif.Model.Basic
/-!
Model of src/rmt_dcc_encoder.c and include/rmt_dcc_encoder.h: the encoder for the RMT peripheral of the
ESP32.

The driver (ESP-IDF, external) calls the encoder in sessions: each session may write as many symbols as
there is memory free.  The two encoders of the driver the DCC encoder is built from are modelled after
their documented behaviour: they write what fits, remember where they were truncated, report
`RMT_ENCODING_COMPLETE` when everything has been written and `RMT_ENCODING_MEM_FULL` when no memory is
left, possibly both.  Memory is a number of free symbols and the list of symbols written.
-/
namespace Dcc.Rmt

/-- `rmt_symbol_word_t` (driver; cited in include/rmt_dcc_encoder.h:44-53): two levels with durations
of 15 bits. -/
structure Symbol where
  duration0 : BitVec 15 := 0#15
  level0 : Bool := false
  duration1 : BitVec 15 := 0#15
  level1 : Bool := false
  deriving DecidableEq, Repr

/-- The states of the encoder (src/rmt_dcc_encoder.c:43), in the order of the enumeration. -/
inductive State where
  | bidi | zimo0 | preamble | start | data | fin
  deriving DecidableEq, Repr

/-- `rmt_encode_state_t` (driver): `RMT_ENCODING_RESET` is both false. -/
structure Flags where
  complete : Bool := false
  memFull : Bool := false
  deriving DecidableEq, Repr

/-- `rmt_dcc_encoder_t` (src/rmt_dcc_encoder.c:33-47) with the members of its two encoders: where the
copy encoder and the bytes encoder have been truncated, and the symbols of the bytes encoder. -/
structure Encoder where
  copyIndex : Nat := 0
  byteIndex : Nat := 0
  bitIndex : Nat := 0
  bit1 : Symbol := {}
  bit0 : Symbol := {}
  bidiSymbol : Symbol := {}
  oneSymbol : Symbol := {}
  zeroSymbol : Symbol := {}
  endSymbol : Symbol := {}
  numPreamble : Nat := 0
  numSymbols : Nat := 0
  state : State := .bidi
  zimo0 : Bool := false
  deriving DecidableEq, Repr

/-- A session: the encoder, the memory still free and the symbols written. -/
structure Session where
  enc : Encoder
  free : Nat
  mem : List Symbol := []
  deriving DecidableEq, Repr

/-- What the functions return: the session, the number of symbols and the state of the encoding. -/
abbrev Out := Session × Nat × Flags

/-- `encode` of the copy encoder (driver). -/
def copyEncode (symbols : List Symbol) (c : Session) : Out :=
  let want := symbols.length - c.enc.copyIndex
  let len := min want c.free
  ({ c with
      free := c.free - len
      mem := c.mem ++ (symbols.drop c.enc.copyIndex).take len
      enc := { c.enc with copyIndex := if c.free < want then c.enc.copyIndex + len else 0 } },
    len, { complete := !decide (c.free < want), memFull := !decide (want < c.free) })

/-- The loop of the bytes encoder (driver) with `flags.msb_first`: symbols of the next `len` bits and the
indices behind them. -/
def bytesLoop (bit1 bit0 : Symbol) (data : List Byte) : Nat → Nat → Nat → R (List Symbol × Nat × Nat)
  | byteIndex, bitIndex, 0 => .ok ([], byteIndex, bitIndex)
  | byteIndex, bitIndex, len + 1 => do
    let b ← byteAt data byteIndex
    let sym := if b.getLsbD (7 - bitIndex) then bit1 else bit0
    let (syms, i, j) ← if 8 ≤ bitIndex + 1 then bytesLoop bit1 bit0 data (byteIndex + 1) 0 len
      else bytesLoop bit1 bit0 data byteIndex (bitIndex + 1) len
    return (sym :: syms, i, j)

/-- `encode` of the bytes encoder (driver): `data` is the memory the pointer points to, `size` the size
passed. -/
def bytesEncode (data : List Byte) (size : Nat) (c : Session) : R Out := do
  let want := (size - c.enc.byteIndex - 1) * 8 + (8 - c.enc.bitIndex)
  let len := min want c.free
  let (syms, i, j) ← bytesLoop c.enc.bit1 c.enc.bit0 data c.enc.byteIndex c.enc.bitIndex len
  return ({ c with
      free := c.free - len
      mem := c.mem ++ syms
      enc := if c.free < want then { c.enc with byteIndex := i, bitIndex := j }
        else { c.enc with byteIndex := 0, bitIndex := 0 } },
    len, { complete := !decide (c.free < want), memFull := !decide (want < c.free) })

/-- Set `dcc_encoder->state`. -/
def Session.goto (c : Session) (st : State) : Session := { c with enc := { c.enc with state := st } }

/-- Set `dcc_encoder->num_symbols`. -/
def Session.count (c : Session) (n : Nat) : Session := { c with enc := { c.enc with numSymbols := n } }

/-- `rmt_encode_dcc_bit` (src/rmt_dcc_encoder.c:56-67). -/
def encodeBit (symbol : Symbol) (c : Session) : Out := copyEncode [symbol] c

/-- The loops of `rmt_encode_dcc_bidi` and `rmt_encode_dcc_preamble`
(src/rmt_dcc_encoder.c:89-103, 150-164), which only differ in the symbol, the number of symbols and
the states.  Every round that does not fill the memory uses up a symbol of it, so `fuel` does not run
out (shown by `C57_exact`, which finds no such fault). -/
def repeatSymbol (symbol : Symbol) (n : Nat) (cur next : State) : Nat → Session → Nat → R Out
  | 0, _, _ => .error .assertion
  | fuel + 1, c, encoded =>
    let (c, tmp, f) := copyEncode [symbol] c
    let c := c.count (c.enc.numSymbols + tmp)
    let c := if f.complete ∧ n ≤ c.enc.numSymbols then (c.count 0).goto next else c
    if f.memFull then .ok (c, encoded + tmp, f)
    else if c.enc.state = cur then repeatSymbol symbol n cur next fuel c (encoded + tmp)
    else .ok (c, encoded + tmp, f)

/-- `rmt_encode_dcc_bidi` (src/rmt_dcc_encoder.c:75-107). -/
def encodeBidi (c : Session) : R Out :=
  if c.enc.bidiSymbol.duration0 = 0#15 then .ok (c.goto .zimo0, 0, { complete := true })
  else repeatSymbol c.enc.bidiSymbol (8 / 2) .bidi .zimo0 (c.free + 1) c 0

/-- `rmt_encode_dcc_zimo0` (src/rmt_dcc_encoder.c:115-135). -/
def encodeZimo0 (c : Session) : Out :=
  if c.enc.zimo0 then
    let (c, n, f) := encodeBit c.enc.zeroSymbol c
    (if f.complete then c.goto .preamble else c, n, f)
  else (c.goto .preamble, 0, { complete := true })

/-- `rmt_encode_dcc_preamble` (src/rmt_dcc_encoder.c:143-168). -/
def encodePreamble (c : Session) : R Out :=
  repeatSymbol c.enc.oneSymbol c.enc.numPreamble .preamble .start (c.free + 1) c 0

/-- `rmt_encode_dcc_start` (src/rmt_dcc_encoder.c:176-186). -/
def encodeStart (c : Session) : Out :=
  let (c, n, f) := encodeBit c.enc.zeroSymbol c
  (if f.complete then c.goto .data else c, n, f)

/-- `rmt_encode_dcc_data` (src/rmt_dcc_encoder.c:196-222): one byte. -/
def encodeData (data : List Byte) (c : Session) : R Out := do
  let (c, tmp, f) ← bytesEncode (data.drop (c.enc.numSymbols / 8)) 1 c
  let c := c.count (c.enc.numSymbols + tmp)
  return (if f.complete ∧ data.length * 8 ≤ c.enc.numSymbols then (c.count 0).goto .fin else c, tmp, f)

/-- `rmt_encode_dcc_end` (src/rmt_dcc_encoder.c:230-243). -/
def encodeEnd (c : Session) : Out :=
  let (c, n, f) := encodeBit c.enc.endSymbol c
  (if f.complete then (c.count 0).goto .bidi else c, n, f)

/-- `rmt_encode_dcc` from `case End` (src/rmt_dcc_encoder.c:312-324). -/
def fromEnd (c : Session) (n : Nat) : R Out :=
  let (c, k, f) := encodeEnd c
  .ok (c, n + k, f)

/-- `rmt_encode_dcc` from `case Data` (src/rmt_dcc_encoder.c:302-310).  With `goto start` each round
writes a symbol, so `fuel` does not run out (shown by `C57_exact`). -/
def fromData (data : List Byte) : Nat → Session → Nat → R Out
  | 0, _, _ => .error .assertion
  | fuel + 1, c, n => do
    let (c, k, f) ← encodeData data c
    if f.memFull then return (c, n + k, { memFull := true })
    else if c.enc.state = .fin then fromEnd c (n + k)
    else
      let (c, k', f) := encodeStart c
      if f.memFull then return (c, n + k + k', { memFull := true })
      else fromData data fuel c (n + k + k')

/-- `rmt_encode_dcc` from `case Start` (src/rmt_dcc_encoder.c:292-300). -/
def fromStart (data : List Byte) (c : Session) (n : Nat) : R Out :=
  let (c, k, f) := encodeStart c
  if f.memFull then .ok (c, n + k, { memFull := true })
  else fromData data (c.free + 1) c (n + k)

/-- `rmt_encode_dcc` from `case Preamble` (src/rmt_dcc_encoder.c:283-290). -/
def fromPreamble (data : List Byte) (c : Session) (n : Nat) : R Out := do
  let (c, k, f) ← encodePreamble c
  if f.memFull then return (c, n + k, { memFull := true })
  else fromStart data c (n + k)

/-- `rmt_encode_dcc` from `case Zimo0` (src/rmt_dcc_encoder.c:274-281). -/
def fromZimo0 (data : List Byte) (c : Session) (n : Nat) : R Out :=
  let (c, k, f) := encodeZimo0 c
  if f.memFull then .ok (c, n + k, { memFull := true })
  else fromPreamble data c (n + k)

/-- `rmt_encode_dcc` from `case BiDi` (src/rmt_dcc_encoder.c:265-272). -/
def fromBidi (data : List Byte) (c : Session) (n : Nat) : R Out := do
  let (c, k, f) ← encodeBidi c
  if f.memFull then return (c, n + k, { memFull := true })
  else fromZimo0 data c (n + k)

/-- `rmt_encode_dcc` (src/rmt_dcc_encoder.c:253-325): the session after the call, the number of symbols
returned and the state of the encoding. -/
def encode (data : List Byte) (c : Session) : R Out :=
  match c.enc.state with
  | .bidi => fromBidi data c 0
  | .zimo0 => fromZimo0 data c 0
  | .preamble => fromPreamble data c 0
  | .start => fromStart data c 0
  | .data => fromData data (c.free + 1) c 0
  | .fin => fromEnd c 0

/-- `rmt_dcc_encoder_reset` (src/rmt_dcc_encoder.c:352-360).  The driver's `reset` clears the positions
of its two encoders. -/
def Encoder.reset (e : Encoder) : Encoder :=
  { e with copyIndex := 0, byteIndex := 0, bitIndex := 0, numSymbols := 0, state := .zimo0 }

/-- The driver (external) sends one packet: it calls the encoder with the memory that is free, until
the encoding is complete.  The result is the encoder, the symbols written, the number of symbols the
calls have returned, whether the encoding is complete, and the memory sizes not used. -/
structure Sent where
  enc : Encoder
  symbols : List Symbol
  count : Nat
  complete : Bool
  rest : List Nat
  deriving DecidableEq, Repr

/-- The driver sends one packet, see `Sent`. -/
def send (data : List Byte) : List Nat → Encoder → R Sent
  | [], e => .ok ⟨e, [], 0, false, []⟩
  | free :: sizes, e => do
    let (c, n, f) ← encode data { enc := e, free := free }
    if f.complete then return ⟨c.enc, c.mem, n, true, sizes⟩
    else
      let r ← send data sizes c.enc
      return { r with symbols := c.mem ++ r.symbols, count := n + r.count }

/-- The driver sends packets, each with the memory sizes of its sessions: the encoder afterwards and
what has been sent. -/
def sendAll : List (List Byte × List Nat) → Encoder → R (Encoder × List Sent)
  | [], e => .ok (e, [])
  | (data, sizes) :: ps, e => do
    let r ← send data sizes e
    let (e', rs) ← sendAll ps r.enc
    return (e', r :: rs)

/-- `dcc_encoder_config_t` (include/rmt_dcc_encoder.h:20-62). -/
structure Config where
  numPreamble : Byte := 17#8
  bidibitDuration : Byte := 0#8
  bit1Duration : Byte := 58#8
  bit0Duration : Byte := 100#8
  endbitDuration : Byte := 0#8
  level0 : Bool := false
  zimo0 : Bool := false
  deriving DecidableEq, Repr

/-- The check at the beginning of `rmt_new_dcc_encoder` (src/rmt_dcc_encoder.c:377-392) with the default
values of the CMake options (CMakeLists.txt:55-78). -/
def Config.accepted (c : Config) : Bool :=
  17#8 ≤ c.numPreamble && c.numPreamble ≤ 30#8 &&
    (c.bidibitDuration = 0#8 || (57#8 ≤ c.bidibitDuration && c.bidibitDuration ≤ 61#8)) &&
    56#8 ≤ c.bit1Duration && c.bit1Duration ≤ 60#8 && 97#8 ≤ c.bit0Duration && c.bit0Duration ≤ 114#8 &&
    c.endbitDuration ≤ 60#8

/-- A symbol with the levels of the configuration (src/rmt_dcc_encoder.c:414-438). -/
def Config.symbol (c : Config) (d0 d1 : Byte) : Symbol :=
  { duration0 := d0.setWidth 15, level0 := c.level0, duration1 := d1.setWidth 15, level1 := !c.level0 }

/-- `rmt_new_dcc_encoder` after the check, without failures (src/rmt_dcc_encoder.c:398-457). -/
def Config.encoder (c : Config) : Encoder :=
  let one := c.symbol c.bit1Duration c.bit1Duration
  let zero := c.symbol c.bit0Duration c.bit0Duration
  { bit1 := one
    bit0 := zero
    bidiSymbol := if c.bidibitDuration = 0#8 then {} else c.symbol c.bidibitDuration c.bidibitDuration
    oneSymbol := one
    zeroSymbol := zero
    endSymbol := c.symbol c.bit1Duration
      (if c.endbitDuration = 0#8 then c.bit1Duration else c.endbitDuration)
    numPreamble := c.numPreamble.toNat
    state := .zimo0
    zimo0 := c.zimo0 }

/-- The errors `rmt_new_dcc_encoder` returns (src/rmt_dcc_encoder.c:362-372): its own two and those of
the driver. -/
inductive Error where
  | invalidArg | noMem | driver (code : Nat)
  deriving DecidableEq, Repr

/-- What is allocated and freed. -/
inductive Alloc where
  | encoder | copyEncoder | bytesEncoder | freeEncoder | freeCopyEncoder | freeBytesEncoder
  deriving DecidableEq, Repr

/-- `rmt_new_dcc_encoder` (src/rmt_dcc_encoder.c:373-466).  `config` and `ret_encoder` may be null; the
results of the allocation and of the creation of both encoders of the driver are parameters (`none` for
success; a failed creation leaves the handle null).  The result is either an error or the encoder, with
the allocations and frees. -/
def newEncoder (config : Option Config) (retEncoder : Bool) (calloc : Bool) (newCopy newBytes : Option Nat) :
    Except Error Encoder × List Alloc :=
  match config with
  | none => (.error .invalidArg, [])
  | some c =>
    if !(retEncoder && c.accepted) then (.error .invalidArg, [])
    else if !calloc then (.error .noMem, [])
    else match newCopy with
      | some code => (.error (.driver code), [.encoder, .freeEncoder])
      | none => match newBytes with
        | some code => (.error (.driver code), [.encoder, .copyEncoder, .freeCopyEncoder, .freeEncoder])
        | none => (.ok c.encoder, [.encoder, .copyEncoder, .bytesEncoder])

/-- `rmt_del_dcc_encoder` (src/rmt_dcc_encoder.c:335-342). -/
def del : List Alloc := [.freeCopyEncoder, .freeBytesEncoder, .freeEncoder]

end Dcc.Rmt
