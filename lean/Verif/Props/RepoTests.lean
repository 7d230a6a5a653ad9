import Verif.Model.RxMachine
import Verif.Model.Tx
import Verif.Model.Backoff
/-!
The tests of the repository (tests/) with the model in place of the code.  Each `example` is one test
and states what the test expects.  Where a test draws random values the example takes the ends of the
range and some values between.
-/
namespace Dcc.RepoTests

/-! ### tests/address.cpp -/

/-- short_and_long_address_compare_equal_based_solely_on_value (tests/address.cpp:4-10). -/
example : Address.eq { value := 3, type := .short } { value := 3, type := .long } = true := by decide

/-- short_and_accessory_address_are_not_equal_despite_same_value (tests/address.cpp:12-18). -/
example : Address.eq { value := 3, type := .short } { value := 3, type := .accessory } = false := by
  decide

/-- decode_address (tests/address.cpp:20-43). -/
example :
    decodeAddress [0, 0] = .ok { value := 0, type := .broadcast } ∧
    decodeAddress [0b00000011, 0] = .ok { value := 3, type := .short } ∧
    decodeAddress [0b11111110, 0] = .ok { value := 254, type := .automaticLogon } ∧
    decodeAddress [0b11111111, 0] = .ok { value := 255, type := .idleSystem } ∧
    decodeAddress [0b11010011, 0b00001010] = .ok { value := 4874, type := .long } := by decide

/-- encode_address (tests/address.cpp:45-83). -/
example :
    encodeAddress { value := 0, type := .broadcast } = .ok [0] ∧
    encodeAddress { value := 3, type := .short } = .ok [0b00000011] ∧
    encodeAddress { value := 254, type := .automaticLogon } = .ok [0b11111110] ∧
    encodeAddress { value := 255, type := .idleSystem } = .ok [0b11111111] ∧
    encodeAddress { value := 4874, type := .long } = .ok [0b11010011, 0b00001010] := by decide

/-! ### tests/crc8.cpp -/

/-- The data of the test (tests/crc8.cpp:8-19). -/
def crcData : List Byte :=
  [0x0B, 0x0A, 0x00, 0x00, 0x8E, 0x40, 0x00, 0x0D, 0x67, 0x00, 0x01, 0x00]

/-- crc8 (tests/crc8.cpp:7-40). -/
example : crc8 crcData = 0x4C ∧ crc8Packet (crcData ++ [0xFF]) = 0x4C ∧
    crcData.foldl (fun crc b => crc8Byte (b ^^^ crc)) 0 = 0x4C := by decide +kernel

/-! ### tests/instruction.cpp -/

/-- decode_instruction_short_address and decode_instruction_long_address
(tests/instruction.cpp:4-19). -/
example : [3#16, 1022#16, 1337#16].map (fun v =>
    (do decodeInstructionPacket (← makeCvVerifyPacket (addressOfValue v) 0#32 0#8) : R Instruction)) =
    [.ok .cvLong, .ok .cvLong, .ok .cvLong] := by decide +kernel

/-! ### tests/bidi -/

/-- datagram_size (tests/bidi/datagram_size.cpp:7-13). -/
example : datagramSize .b12 = 2 ∧ datagramSize .b18 = 3 ∧ datagramSize .b24 = 4 ∧
    datagramSize .b36 = 6 ∧ datagramSize .b48 = 8 := by decide

/-- Encode and decode what `make_datagram` with an identifier builds. -/
def encodeDecode (i : Bits) (id data : Nat) : R (BitVec 64) := do
  return makeData (decodeDatagram (← encodeDatagram (← makeDatagramId i id data)))

/-- encode_decode (tests/bidi/encode_decode.cpp:21-36). -/
example :
    encodeDecode .b12 1 1 = .ok (1 <<< 8 ||| 1) ∧
    encodeDecode .b18 2 (63 <<< 8 ||| 42) = .ok (2 <<< 14 ||| 63 <<< 8 ||| 42) ∧
    encodeDecode .b24 9 (15 <<< 16 ||| 122 <<< 8 ||| 39) =
      .ok (9 <<< 20 ||| 15 <<< 16 ||| 122 <<< 8 ||| 39) ∧
    encodeDecode .b36 13 (219 <<< 24 ||| 190 <<< 16 ||| 74 <<< 8 ||| 11) =
      .ok (13 <<< 32 ||| 219 <<< 24 ||| 190 <<< 16 ||| 74 <<< 8 ||| 11) := by decide +kernel

/-- too_many_bits (tests/bidi/encode_decode.cpp:38-44). -/
example : makeDatagramId .b18 0 (64 <<< 8) = .error .assertion ∧
    makeDatagramId .b24 0 (16 <<< 24) = .error .assertion := by decide

/-- compare_datagram_with_and_without_ids (tests/bidi/encode_decode.cpp:48-57). -/
example :
    makeDatagramId .b12 1 1 = makeDatagram .b12 (1 <<< 8 ||| 1) ∧
    makeDatagramId .b18 2 (63 <<< 8 ||| 42) = makeDatagram .b18 (2 <<< 14 ||| 63 <<< 8 ||| 42) ∧
    makeDatagramId .b24 9 (15 <<< 16 ||| 122 <<< 8 ||| 39) =
      makeDatagram .b24 (9 <<< 20 ||| 15 <<< 16 ||| 122 <<< 8 ||| 39) ∧
    makeDatagramId .b36 13 (219 <<< 24 ||| 190 <<< 16 ||| 74 <<< 8 ||| 11) =
      makeDatagram .b36 (13 <<< 32 ||| 219 <<< 24 ||| 190 <<< 16 ||| 74 <<< 8 ||| 11) := by
  decide +kernel

/-! ### tests/rx/scale_speed.cpp -/

/-- zero, one, two, three and max (tests/rx/scale_speed.cpp:6-33). -/
example :
    scaleSpeed .s14 0 = 0 ∧ scaleSpeed .s28 0 = 0 ∧ scaleSpeed .s126 0 = 0 ∧
    scaleSpeed .s14 1 = scaleSpeed .s126 1 ∧ scaleSpeed .s28 1 = scaleSpeed .s126 1 ∧
    scaleSpeed .s14 2 = 21 ∧ scaleSpeed .s28 2 = 11 ∧ scaleSpeed .s126 2 = 4 ∧
    scaleSpeed .s14 3 = 40 ∧ scaleSpeed .s28 3 = 20 ∧ scaleSpeed .s126 3 = 6 ∧
    scaleSpeed .s14 14 = 255 ∧ scaleSpeed .s28 28 = 255 ∧ scaleSpeed .s126 126 = 255 := by decide

/-! ### tests/rx/backoff.cpp -/

/-- `CountTillFalse` (tests/rx/backoff_test.cpp:13-18); `rand()` always returns `r`. -/
def countTillFalse (r : Nat) : Nat → Backoff → (i : Nat := 0) → Backoff × Nat
  | 0, b, i => (b, i)
  | max + 1, b, i =>
    match b.query r with
    | (b, false) => (b, i)
    | (b, true) => countTillFalse r max b (i + 1)

/-- initial_backoff_is_always_false (tests/rx/backoff.cpp:3-5). -/
example : ∀ r < 64, (Backoff.query {} r).2 = false := by decide +kernel

/-- The counts of five calls in a row are below 8, 16, 32, 64 and 64. -/
def backoffTest (r : Nat) (b : Backoff) : Backoff × Bool :=
  let (b, c0) := countTillFalse r 8 b
  let (b, c1) := countTillFalse r 16 b
  let (b, c2) := countTillFalse r 32 b
  let (b, c3) := countTillFalse r 64 b
  let (b, c4) := countTillFalse r 128 b
  (b, decide (c0 < 8 ∧ c1 < 16 ∧ c2 < 32 ∧ c3 < 64 ∧ c4 < 64))

/-- repeated_values_stay_below_max_range and now (tests/rx/backoff.cpp:7-34). -/
example : ∀ r ∈ [0, 1, 7, 8, 15, 16, 31, 32, 63, 64, 32767, 2147483647],
    (backoffTest r {}).2 = true ∧ (countTillFalse r 8 {}).2 < 8 ∧
    ((backoffTest r {}).1.now.query r).2 = false ∧
    (countTillFalse r 8 ((backoffTest r {}).1.now.query r).1).2 < 8 := by decide +kernel

/-! ### The fixture of the receiver tests (tests/rx/rx_test.cpp, rx_test.hpp, rx_mock.hpp) -/

/-- `_addrs.primary` (tests/rx/rx_test.hpp:38). -/
def primary : Address := { value := 3, type := .short }

/-- `_addrs.consist` (tests/rx/rx_test.hpp:39). -/
def consist : Address := { value := 4, type := .short }

/-- `_addrs.logon` (tests/rx/rx_test.hpp:40). -/
def logon : Address := { value := 1000, type := .long }

/-- `_did`, `_cid` and `_session_id` (tests/rx/rx_test.hpp:42-44). -/
def did : BitVec 32 := 0xAABBCCDD
def cid : BitVec 16 := 0xABCD
def sessionId : Byte := 0x2A

/-- The CVs a test changes. -/
structure Cvs where
  cv29 : Byte := 0b1010
  cv19 : Byte := 0
  cv20 : Byte := 0
  cv15 : Byte := 0
  cv16 : Byte := 0
  cv28 : Byte := 0b10000011

/-- What the calls of `readCv(_)` return during `init` (tests/rx/rx_test.cpp:27-44). -/
def Cvs.setUp (c : Cvs) : List Byte :=
  [c.cv29, 3, c.cv19, c.cv20, c.cv15, c.cv16, c.cv28, 0xAA, 0xBB, 0xCC, 0xDD, 0xAB, 0xCD, 0x2A]

/-- What they return in a test that changes CVs and calls `SetUp` again. -/
def Cvs.again (c : Cvs) : List Byte := Cvs.setUp {} ++ c.setUp

/-- What the calls of `readCv(_)` return during `Logon` (tests/rx/rx_test.cpp:85-87). -/
def logonReads : List Byte := [0b11000000 ||| 3, 0xE8]

/-- The calls of `readCv(_)`, which are answered in order. -/
def reads (tr : List Event) : Nat :=
  (tr.filter fun | .readCv _ _ => true | _ => false).length

/-- `RxMock` (tests/rx/rx_mock.hpp:7-19): `readCv(_)` returns the values of the script, the other
methods return the given values. -/
def mock (script : List Byte) (byte : Byte := 0) (bit : Bool := false) : Env where
  readCv tr _ := script.getD (reads tr) 0
  readCvByte _ _ _ := byte
  readCvBit _ _ _ _ := bit
  writeCvByte _ _ _ := byte
  writeCvBit _ _ _ _ := bit

/-- `Receive` (tests/rx/rx_test.cpp:46-54). -/
def receive (p : R Packet) (rand : Nat := 0) : List RxOp :=
  match (do packet2timings (← p)) with
  | .ok ts => ts.map fun t => .receive t rand
  | .error _ => []

/-- `Execute` (tests/rx/rx_test.cpp:56-61). -/
def execute (rand : Nat := 0) : List RxOp := [.receive 58 rand, .execute 0 rand]

/-- `BiDi` (tests/rx/rx_test.cpp:63-66). -/
def biDi : List RxOp := [.biDiChannel1, .biDiChannel2]

/-- `EnterServiceMode` (tests/rx/rx_test.cpp:68-72). -/
def enterServiceMode : List RxOp := receive (.ok makeResetPacket) ++ execute

/-- A packet is received and executed several times. -/
def times (n : Nat) (p : R Packet) : List RxOp :=
  (List.replicate n (receive p ++ execute)).flatten

/-- `Logon` (tests/rx/rx_test.cpp:84-92). -/
def logonOps : List RxOp := receive (makeLogonEnablePacket .now cid sessionId)

/-- The calls a test makes are these.  A run that faults fails. -/
def expect (e : Env) (ops : List RxOp) (p : List Event → Bool) : Bool :=
  match Rx.run e {} (.init :: ops) with
  | .ok s => p s.trace
  | .error _ => false

/-- Which method was called. -/
def isDriving : Event → Bool
  | .direction _ _ => true
  | .speed _ _ => true
  | .function _ _ _ => true
  | _ => false

def isTransmit : Event → Bool
  | .transmitBiDi _ => true
  | _ => false

def isWrite : Event → Bool
  | .writeCvByte _ _ _ => true
  | .writeCvBit _ _ _ _ => true
  | _ => false

def isWriteByte : Event → Bool
  | .writeCvByte _ _ _ => true
  | _ => false

def isAck : Event → Bool
  | .serviceAck => true
  | _ => false

def isVerify : Event → Bool
  | .readCvByte _ _ _ => true
  | .readCvBit _ _ _ _ => true
  | _ => false

/-- The calls of a kind are these, and `readCv(_)` was called as often as the script says. -/
def calls (kind : Event → Bool) (script : List Byte) (evs : List Event) (tr : List Event) : Bool :=
  decide (tr.filter kind = evs) && decide (reads tr = script.length)

/-- The bytes of an encoded datagram. -/
def datagram (i : Bits) (id data : Nat) : List Byte :=
  match (do encodeDatagram (← makeDatagramId i id data)) with
  | .ok d => d
  | .error _ => []

/-- A packet is received and executed; direction, speed and functions are set by these calls in some
order. -/
def drives (p : R Packet) (evs : List Event) : Bool :=
  expect (mock (Cvs.setUp {})) (receive p ++ execute) fun tr =>
    (tr.filter isDriving).isPerm evs && decide (reads tr = 14)

/-! ### tests/rx/advanced_operations.cpp -/

/-- speed_direction_and_functions_f7_f0 (tests/rx/advanced_operations.cpp:4-12). -/
example : drives (makeSpeedDirFunctionsPacket primary (1 <<< 7 ||| 10) 0b00001010 [])
    [.direction 3 true, .speed 3 (scaleSpeed .s126 9), .function 3 0xFF 0b00001010] = true := by
  decide +kernel

/-- speed_direction_and_functions_f23_f0 (tests/rx/advanced_operations.cpp:15-25). -/
example : drives (makeSpeedDirFunctionsPacket primary (1 <<< 7 ||| 10) 1 [2, 3])
    [.direction 3 true, .speed 3 (scaleSpeed .s126 9), .function 3 0xFF 1,
      .function 3 (0xFF <<< 8) (2 <<< 8), .function 3 (0xFF <<< 16) (3 <<< 16)] = true := by
  decide +kernel

/-- _126_speed_steps_fwd (tests/rx/advanced_operations.cpp:28-35). -/
example : drives (makeAdvancedSpeedPacket primary (1 <<< 7 ||| 10))
    [.direction 3 true, .speed 3 (scaleSpeed .s126 9)] = true := by decide +kernel

/-- _126_speed_steps_bwd (tests/rx/advanced_operations.cpp:38-44). -/
example : drives (makeAdvancedSpeedPacket primary (0 <<< 7 ||| 10))
    [.direction 3 false, .speed 3 (scaleSpeed .s126 9)] = true := by decide +kernel

/-! ### tests/rx/speed_direction.cpp, function_group.cpp and feature_expansion.cpp -/

/-- speed_and_direction (tests/rx/speed_direction.cpp:4-9). -/
example : drives (makeSpeedAndDirectionPacket primary (1 <<< 5 ||| 10))
    [.direction 3 true, .speed 3 (scaleSpeed .s28 17)] = true := by decide +kernel

/-- function_group_f4_f0 (tests/rx/function_group.cpp:3-8). -/
example : [0, 1, 2, 16, 21, 31].all (fun n => drives (makeF4F0Packet primary (BitVec.ofNat 8 n))
    [.function 3 0b11111 (BitVec.ofNat 32 n)]) = true := by decide +kernel

/-- function_group_f4_f0_exception (tests/rx/function_group.cpp:11-17). -/
example : expect (mock (Cvs.again { cv29 := 0b1000 }))
    (.init :: (receive (makeF4F0Packet primary 1) ++ execute))
    (calls isDriving (Cvs.again {}) [.function 3 0b11110 1]) = true := by decide +kernel

/-- function_group_f8_f5 (tests/rx/function_group.cpp:19-27). -/
example : [0, 1, 8, 10, 15].all (fun n => drives (makeF8F5Packet primary (BitVec.ofNat 8 n))
    [.function 3 (0xF <<< 5) (BitVec.ofNat 32 n <<< 5)]) = true := by decide +kernel

/-- function_group_f12_f9 (tests/rx/function_group.cpp:29-37). -/
example : [0, 1, 8, 10, 15].all (fun n => drives (makeF12F9Packet primary (BitVec.ofNat 8 n))
    [.function 3 (0xF <<< 9) (BitVec.ofNat 32 n <<< 9)]) = true := by decide +kernel

/-- feature_expansion_f20_f13 (tests/rx/feature_expansion.cpp:3-11). -/
example : [0, 1, 128, 170, 255].all (fun n => drives (makeF20F13Packet primary (BitVec.ofNat 8 n))
    [.function 3 (0xFF <<< 13) (BitVec.ofNat 32 n <<< 13)]) = true := by decide +kernel

/-- feature_expansion_f28_f21 (tests/rx/feature_expansion.cpp:13-21). -/
example : [0, 1, 128, 170, 255].all (fun n => drives (makeF28F21Packet primary (BitVec.ofNat 8 n))
    [.function 3 (0xFF <<< 21) (BitVec.ofNat 32 n <<< 21)]) = true := by decide +kernel

/-! ### tests/rx/app_adr.cpp -/

/-- A packet is received, then the first part of the address is sent, then the second. -/
def adrOps (a : Address) : List RxOp :=
  receive (makeF4F0Packet a 10) ++ execute ++ [.biDiChannel1] ++ execute ++ [.biDiChannel1]

/-- app_adr_alternate_primary_id1_id2 (tests/rx/app_adr.cpp:5-28), two rounds instead of ten. -/
example : expect (mock (Cvs.setUp {})) (adrOps primary ++ adrOps primary)
    (calls isTransmit (Cvs.setUp {}) [.transmitBiDi (datagram .b12 1 0), .transmitBiDi (datagram .b12 2 3),
      .transmitBiDi (datagram .b12 1 0), .transmitBiDi (datagram .b12 2 3)]) = true := by decide +kernel

/-- app_adr_alternate_logon_id1_id2 (tests/rx/app_adr.cpp:30-55), two rounds instead of ten. -/
example : expect (mock (Cvs.setUp {} ++ logonReads)) (logonOps ++ adrOps logon ++ adrOps logon)
    (calls isTransmit (Cvs.setUp {} ++ logonReads)
      [.transmitBiDi (datagram .b12 1 (0xC3 &&& 0b10111111)), .transmitBiDi (datagram .b12 2 0xE8),
        .transmitBiDi (datagram .b12 1 (0xC3 &&& 0b10111111)), .transmitBiDi (datagram .b12 2 0xE8)]) =
    true := by decide +kernel

/-- app_adr_disabled_with_cv28_0 (tests/rx/app_adr.cpp:57-67). -/
example : expect (mock (Cvs.again { cv28 := 0b10000010 }))
    (.init :: (receive (makeF4F0Packet primary 10) ++ execute ++ [.biDiChannel1]))
    (calls isTransmit (Cvs.again {}) []) = true := by decide +kernel

/-- app_adr_consist (tests/rx/app_adr.cpp:69-88). -/
example : expect (mock (Cvs.again { cv19 := 4 })) (.init :: adrOps consist)
    (calls isTransmit (Cvs.again {}) [.transmitBiDi (datagram .b12 1 0b01100000),
      .transmitBiDi (datagram .b12 2 4)]) = true := by decide +kernel

/-- app_adr_long_consist_not_supported (tests/rx/app_adr.cpp:90-104); assigning a number keeps the
type of the address. -/
example : expect (mock (Cvs.again { cv19 := 83, cv20 := 12 }))
    (.init :: (receive (makeF4F0Packet (consist.assignValue 1283) 10) ++ execute ++ [.biDiChannel1]))
    (calls isTransmit (Cvs.again {}) []) = true := by decide +kernel

/-! ### tests/rx/app_dyn.cpp -/

/-- 42 datagrams are queued one after the other. -/
def dynOps : List RxOp := (List.range 42).map fun i => .datagram [.directionStatusByte (BitVec.ofNat 16 i)]

/-- The datagram with the direction status byte `i`. -/
def dyn (i : Nat) : List Byte := datagram .b18 7 (i <<< 6 ||| 27)

/-- app_dyn (tests/rx/app_dyn.cpp:5-64). -/
example : expect (mock (Cvs.setUp {}))
    (receive (makeF4F0Packet primary 10) ++ dynOps ++ List.replicate 5 .biDiChannel2)
    (calls isTransmit (Cvs.setUp {}) [.transmitBiDi (datagram .b18 7 (0 <<< 6 ||| 7) ++ dyn 0),
      .transmitBiDi (dyn 1 ++ dyn 2), .transmitBiDi (dyn 3 ++ dyn 4), .transmitBiDi (dyn 5)]) = true := by
  decide +kernel

/-- dont_transmit_following_foreign_address (tests/rx/app_dyn.cpp:66-76). -/
example : expect (mock (Cvs.setUp {}))
    (receive (makeF4F0Packet (addressOfValue 1817) 10) ++ dynOps ++ [.biDiChannel2])
    (calls isTransmit (Cvs.setUp {}) []) = true := by decide +kernel

/-! ### tests/rx/app_pom.cpp -/

/-- A CV is verified by POM, then channel 2 is used. -/
def pomOps (cv : Nat) : List RxOp :=
  receive (makeCvVerifyPacket primary (BitVec.ofNat 32 cv) 0) ++ execute ++ [.biDiChannel2]

/-- app_pom (tests/rx/app_pom.cpp:5-17). -/
example : [(0, 0), (0, 255), (28, 10), (255, 0), (255, 255)].all (fun (cv, v) =>
    expect (mock (Cvs.setUp {}) (BitVec.ofNat 8 v)) (pomOps cv)
      (calls isTransmit (Cvs.setUp {}) [.transmitBiDi (datagram .b12 0 v)])) = true := by decide +kernel

/-- app_pom_disabled_with_cv28_1 (tests/rx/app_pom.cpp:19-33). -/
example : [(0, 0), (0, 255), (28, 10), (255, 0), (255, 255)].all (fun (cv, v) =>
    expect (mock (Cvs.again { cv28 := 0b10000001 }) (BitVec.ofNat 8 v)) (.init :: pomOps cv)
      (calls isTransmit (Cvs.again {}) [])) = true := by decide +kernel

/-! ### tests/rx/app_tos.cpp -/

/-- app_tos (tests/rx/app_tos.cpp:6-29), three packets instead of 3000 and `rand()` 0 or 1. -/
example : [0, 1].all (fun r => expect (mock (Cvs.again { cv28 := 0b10000001 }))
    (.init :: (List.replicate 3 (receive (makeBinaryStateShortPacket (addressOfValue 0) 2) r ++
      execute r)).flatten ++ [.biDiChannel2])
    (calls isTransmit (Cvs.again {}) [.transmitBiDi (datagram .b12 1 0 ++ datagram .b12 2 3 ++
      datagram .b12 14 0)])) = true := by decide +kernel

/-! ### tests/rx/consist.cpp and decoder_lock.cpp -/

/-- CV numbers and values of the tests that write a CV. -/
def writeCases : List (Nat × Nat) := [(30, 0), (30, 255), (512, 170), (1023, 0), (1023, 255)]

/-- `ReceiveAndExecuteTwoIdenticalCvWritePackets` (tests/rx/rx_test.cpp:74-82) with these calls of
`writeCv`. -/
def writes (a : Address) (c : Cvs) (evs : Nat → Nat → List Event) : Bool :=
  writeCases.all fun (cv, b) =>
    expect (mock c.again)
      (.init :: times 2 (makeCvWritePacket a (BitVec.ofNat 32 cv) (BitVec.ofNat 8 b)))
      (calls isWriteByte c.again (evs cv b))

/-- consist_shall_not_act_on_cv_manipulation (tests/rx/consist.cpp:3-13). -/
example : writes consist { cv19 := 4 } (fun _ _ => []) = true := by decide +kernel

/-- cv15_not_equal_cv15_activates_decoder_lock (tests/rx/decoder_lock.cpp:3-12). -/
example : writes primary { cv15 := 1, cv16 := 2 } (fun _ _ => []) = true := by decide +kernel

/-- One call of `writeCv(cv, byte)`. -/
def oneWrite (cv b : Nat) : List Event := [.writeCvByte (BitVec.ofNat 32 cv) (BitVec.ofNat 8 b) 0]

/-- cv15_zero_deactivates_decoder_lock (tests/rx/decoder_lock.cpp:14-23). -/
example : writes primary { cv15 := 0, cv16 := 1 } oneWrite = true := by decide +kernel

/-- cv16_zero_deactivates_decoder_lock (tests/rx/decoder_lock.cpp:25-34). -/
example : writes primary { cv15 := 42, cv16 := 0 } oneWrite = true := by decide +kernel

/-! ### tests/rx/write_byte.cpp and write_bit.cpp -/

/-- write_byte_operations_mode (tests/rx/write_byte.cpp:3-10). -/
example : writeCases.all (fun (cv, b) => expect (mock (Cvs.setUp {}))
    (times 2 (makeCvWritePacket primary (BitVec.ofNat 32 cv) (BitVec.ofNat 8 b)))
    (calls isWriteByte (Cvs.setUp {}) (oneWrite cv b))) = true := by decide +kernel

/-- write_byte_operations_mode_requires_two_identical_packets (tests/rx/write_byte.cpp:12-21). -/
example : writeCases.all (fun (cv, b) => expect (mock (Cvs.setUp {}))
    (times 1 (makeCvWritePacket primary (BitVec.ofNat 32 cv) (BitVec.ofNat 8 b)))
    (calls isWriteByte (Cvs.setUp {}) [])) = true := by decide +kernel

/-- write_byte_service_mode (tests/rx/write_byte.cpp:23-37). -/
example : writeCases.all (fun (cv, b) => expect (mock (Cvs.setUp {}))
    (enterServiceMode ++ times 5 (makeCvWriteServicePacket (BitVec.ofNat 32 cv) (BitVec.ofNat 8 b)))
    (calls isWriteByte (Cvs.setUp {}) (oneWrite cv b))) = true := by decide +kernel

/-- CV numbers, bits and positions of the tests with single bits. -/
def bitCases : List (Nat × Bool × Nat) := [(30, false, 0), (30, true, 7), (512, true, 3), (1023, false, 7)]

/-- write_bit_operations_mode (tests/rx/write_bit.cpp:3-17). -/
example : bitCases.all (fun (cv, b, pos) => expect (mock (Cvs.setUp {}))
    (times 2 (makeCvWriteBitPacket primary (BitVec.ofNat 32 cv) b (BitVec.ofNat 32 pos)))
    (calls isWrite (Cvs.setUp {}) [.writeCvBit (BitVec.ofNat 32 cv) b (BitVec.ofNat 32 pos) false])) =
    true := by decide +kernel

/-- write_bit_service_mode (tests/rx/write_bit.cpp:19-36). -/
example : bitCases.all (fun (cv, b, pos) => expect (mock (Cvs.setUp {}) 0 b)
    (enterServiceMode ++
      times 5 (makeCvWriteBitServicePacket (BitVec.ofNat 32 cv) b (BitVec.ofNat 32 pos)))
    (calls (fun ev => isWrite ev || isAck ev) (Cvs.setUp {})
      [.writeCvBit (BitVec.ofNat 32 cv) b (BitVec.ofNat 32 pos) b, .serviceAck])) = true := by
  decide +kernel

/-! ### tests/rx/service_mode.cpp, verify_byte.cpp and verify_bit.cpp -/

/-- enter_service_mode (tests/rx/service_mode.cpp:4). -/
example : expect (mock (Cvs.setUp {})) enterServiceMode
    (calls (fun | .serviceModeHook _ => true | _ => false) (Cvs.setUp {}) [.serviceModeHook true]) =
    true := by decide +kernel

/-- verify_byte_operations_mode (tests/rx/verify_byte.cpp:3-10). -/
example : [0, 28, 255, 256, 1023].all (fun cv => expect (mock (Cvs.setUp {}))
    (times 1 (makeCvVerifyPacket primary (BitVec.ofNat 32 cv) 0))
    (calls isVerify (Cvs.setUp {}) [.readCvByte (BitVec.ofNat 32 cv) 0 0])) = true := by decide +kernel

/-- verify_byte_service_mode (tests/rx/verify_byte.cpp:12-25). -/
example : [0, 28, 255, 256, 1023].all (fun cv => expect (mock (Cvs.setUp {}) 42)
    (enterServiceMode ++ times 5 (makeCvVerifyServicePacket (BitVec.ofNat 32 cv) 42))
    (calls (fun ev => isVerify ev || isAck ev) (Cvs.setUp {})
      [.readCvByte (BitVec.ofNat 32 cv) 42 42, .serviceAck])) = true := by decide +kernel

/-- verify_bit_service_mode (tests/rx/verify_bit.cpp:3-20). -/
example : bitCases.all (fun (cv, b, pos) => expect (mock (Cvs.setUp {}) 0 b)
    (enterServiceMode ++
      times 5 (makeCvVerifyBitServicePacket (BitVec.ofNat 32 cv) b (BitVec.ofNat 32 pos)))
    (calls (fun ev => isVerify ev || isAck ev) (Cvs.setUp {})
      [.readCvBit (BitVec.ofNat 32 cv) b (BitVec.ofNat 32 pos) b, .serviceAck])) = true := by
  decide +kernel

/-! ### tests/rx/logon.cpp -/

/-- Enable, with channels 1 and 2. -/
def enableOps (c : BitVec 16) (sid : Byte) : List RxOp := receive (makeLogonEnablePacket .now c sid) ++ biDi

/-- Select, with channels 1 and 2. -/
def selectOps : List RxOp := receive (makeLogonSelectPacket 145 did 0xFF) ++ biDi

/-- Assign address 1000, with channels 1 and 2. -/
def assignOps : List RxOp := receive (makeLogonAssignPacket 145 did (0b11 <<< 14 ||| 1000)) ++ biDi

/-- A speed for address 1000, executed. -/
def drive1000 : List RxOp := receive (makeAdvancedSpeedPacket logon 0) ++ execute

/-- Seven calls of `writeCv`, one of `direction` and one of `speed` with the primary address, and the
calls of `transmitBiDi` as often as this. -/
def loggedOn (script : List Byte) (n : Nat) (tr : List Event) : Bool :=
  calls isDriving script [.direction 3 false, .speed 3 0] tr &&
    decide ((tr.filter isWriteByte).length = 7) && decide ((tr.filter isTransmit).length = n)

/-- logon_with_new_cid (tests/rx/logon.cpp:4-27). -/
example : [0, 42, 255].all (fun sid => expect (mock (Cvs.setUp {}))
    (enableOps (cid + 1) (BitVec.ofNat 8 sid) ++ selectOps ++ assignOps ++ drive1000)
    (loggedOn (Cvs.setUp {}) 6)) = true := by decide +kernel

/-- logon_with_known_cid_and_session_id_le_4 (tests/rx/logon.cpp:30-39). -/
example : expect (mock (Cvs.setUp {} ++ logonReads)) (logonOps ++ drive1000)
    (loggedOn (Cvs.setUp {} ++ logonReads) 0) = true := by decide +kernel

/-- logon_with_known_cid_and_session_id_gt_4 (tests/rx/logon.cpp:42-69), two packets instead of ten. -/
example : expect (mock (Cvs.setUp {}))
    (enableOps cid (sessionId + 5) ++ enableOps cid (sessionId + 5) ++ selectOps ++ assignOps ++
      drive1000) (loggedOn (Cvs.setUp {}) 8) = true := by decide +kernel

/-- no_id15_datagram_after_logon_select (tests/rx/logon.cpp:72-88). -/
example : expect (mock (Cvs.setUp {}))
    (enableOps (cid + 1) 7 ++ selectOps ++ enableOps (cid + 1) 9)
    (fun tr => decide ((tr.filter isTransmit).length = 4)) = true := by decide +kernel

end Dcc.RepoTests
