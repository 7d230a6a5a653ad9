import Verif.Lemmas.RxRecv
import Verif.Props.Datagram
/-! Functions of the receiver that never fault, as equations. -/
namespace Dcc

/-- The result of a function that does not fault (a default otherwise). -/
def okOr {α} (d : α) : R α → α
  | .ok a => a
  | .error _ => d

theorem okOr_eq {α} {d a : α} {x : R α} (h : x = .ok a) : x = .ok (okOr d x) := by rw [h]; rfl

/-- The bytes of a datagram with ID. -/
def idBytes (i : Bits) (id data : Nat) : List Byte := okOr [] (encodeId i id data)

/-- The bytes of a datagram without ID. -/
def dataBytes (i : Bits) (data : Nat) : List Byte := okOr [] (encodeData i data)

theorem encodeId_ok (i : Bits) (id data : Nat) (hid : id < 16) (hd : data < 2 ^ payloadBits i) :
    encodeId i id data = .ok (idBytes i id data) := by
  obtain ⟨d, e, h1, -, -, h4, -⟩ := C10_datagram_roundtrip i id data hid hd
  refine okOr_eq (a := e) ?_
  rw [encodeId, h1, ok_bind, h4]

theorem idBytes_spec (i : Bits) (id data : Nat) (hid : id < 16) (hd : data < 2 ^ payloadBits i) :
    (idBytes i id data).length = datagramSize i ∧
    (∀ c ∈ idBytes i id data, Spec.popcount c = 4) ∧
    (makeData (decodeDatagram (idBytes i id data))).toNat = id * 2 ^ payloadBits i + data := by
  obtain ⟨d, e, h1, h2, h3, h4, h5⟩ := C10_datagram_roundtrip i id data hid hd
  have : idBytes i id data = e := by simp [idBytes, encodeId, h1, h4, okOr]
  rw [this]
  have h6 := (C09_four_of_eight_code d).2 e h4
  exact ⟨h6.1.trans h2, fun c hc => (h6.2.2.1 c hc).1, h5⟩

theorem encodeData_ok (i : Bits) (data : Nat) (hd : data < 2 ^ (6 * datagramSize i)) :
    encodeData i data = .ok (dataBytes i data) := by
  obtain ⟨d, e, h1, -, -, h4, -⟩ := C10_datagram_roundtrip_raw i data hd
  refine okOr_eq (a := e) ?_
  rw [encodeData, h1, ok_bind, h4]

theorem dataBytes_spec (i : Bits) (data : Nat) (hd : data < 2 ^ (6 * datagramSize i)) :
    (dataBytes i data).length = datagramSize i ∧
    (∀ c ∈ dataBytes i data, Spec.popcount c = 4) ∧
    (makeData (decodeDatagram (dataBytes i data))).toNat = data := by
  obtain ⟨d, e, h1, h2, h3, h4, h5⟩ := C10_datagram_roundtrip_raw i data hd
  have : dataBytes i data = e := by simp [dataBytes, encodeData, h1, h4, okOr]
  rw [this]
  have h6 := (C09_four_of_eight_code d).2 e h4
  exact ⟨h6.1.trans h2, fun c hc => (h6.2.2.1 c hc).1, h5⟩

theorem b12_ok (id data : Nat) (hid : id < 16) (hd : data < 256) :
    encodeId .b12 id data = .ok (idBytes .b12 id data) := encodeId_ok .b12 id data hid hd

/-! ### Answers -/

/-- The answer `pom` queues. -/
def pomBytes (v : Byte) : List Byte := idBytes .b12 0 v.toNat

theorem pom_eq (s : Rx) (v : Byte) : s.pom v =
    .ok { s with q := { s.q with pom := if s.cfg.ch2DataEnabled then [pomBytes v] else s.q.pom } } := by
  unfold Rx.pom
  rw [b12_ok 0 v.toNat (by omega) v.isLt]
  cases s.cfg.ch2DataEnabled <;> rfl

/-- What a byte callback does. -/
def Rx.answerByte (s : Rx) (byte red : Byte) : Rx :=
  if s.serviceMode then (if byte = red then s.emit .serviceAck else s)
  else { s with q := { s.q with pom := if s.cfg.ch2DataEnabled then [pomBytes red] else s.q.pom } }

/-- What a bit callback does. -/
def Rx.answerBit (s : Rx) (bit red : Bool) : Rx :=
  if s.serviceMode then (if bit = red then s.emit .serviceAck else s)
  else { s with q := { s.q with
    pom := if s.cfg.ch2DataEnabled then [pomBytes (if red then 1#8 else 0#8)] else s.q.pom } }

theorem callbackByte_eq (s : Rx) (byte red : Byte) :
    s.callbackByte byte red = .ok (s.answerByte byte red) := by
  unfold Rx.callbackByte Rx.answerByte
  cases s.serviceMode
  · simp only [Bool.not_false, if_true, Bool.false_eq_true, if_false]
    exact pom_eq s red
  · simp only [Bool.not_true, Bool.false_eq_true, if_true, if_false]
    split <;> rfl

theorem callbackBit_eq (s : Rx) (bit red : Bool) :
    s.callbackBit bit red = .ok (s.answerBit bit red) := by
  unfold Rx.callbackBit Rx.answerBit
  cases s.serviceMode
  · simp only [Bool.not_false, if_true, Bool.false_eq_true, if_false]
    exact pom_eq s _
  · simp only [Bool.not_true, Bool.false_eq_true, if_true, if_false]
    split <;> rfl

/-! ### Address datagrams -/

/-- Payload of the high address datagram. -/
def adrHighData (as : Addresses) (a : Address) : Nat :=
  (if a.eq as.consist then 0x60#16
   else if a.value < 128#16 then 0#16
   else 0x80#16 ||| ((a.value &&& 0x3F00#16) >>> 8)).toNat

/-- Payload of the low address datagram. -/
def adrLowData (as : Addresses) (a : Address) : Nat :=
  (if a.eq as.consist then
    ((BitVec.ofBool as.consist.reversed).setWidth 16 <<< 7) ||| (as.consist.value &&& 0x7F#16)
   else a.value &&& 0xFF#16).toNat

theorem lt_256_of_shift (v : BitVec 16) (h : v >>> 8 = 0#16) : v.toNat < 256 := by
  have := congrArg BitVec.toNat h
  simp [Nat.shiftRight_eq_div_pow] at this
  omega

theorem adrHighData_lt (as : Addresses) (a : Address) : adrHighData as a < 256 := by
  unfold adrHighData
  split
  · decide
  split
  · decide
  · refine lt_256_of_shift _ ?_
    generalize a.value = v
    bits16

theorem adrLowData_lt (as : Addresses) (a : Address) : adrLowData as a < 256 := by
  unfold adrLowData
  refine lt_256_of_shift _ ?_
  split
  · generalize as.consist.value = v
    cases as.consist.reversed
    · bits16
    · bits16
  · generalize a.value = v
    bits16

theorem adrHigh_eq (s : Rx) (a : Address) :
    s.adrHigh a = .ok (idBytes .b12 1 (adrHighData s.addrs a)) :=
  b12_ok 1 _ (by omega) (adrHighData_lt s.addrs a)

theorem adrLow_eq (s : Rx) (a : Address) :
    s.adrLow a = .ok (idBytes .b12 2 (adrLowData s.addrs a)) :=
  b12_ok 2 _ (by omega) (adrLowData_lt s.addrs a)

/-- The two address datagrams of an address. -/
def adrPair (as : Addresses) (a : Address) : List (List Byte) :=
  [idBytes .b12 1 (adrHighData as a), idBytes .b12 2 (adrLowData as a)]

/-- The address `adr` reports, if any. -/
def adrTarget (as : Addresses) : Option Address :=
  if as.logon.value ≠ 0#16 then some as.logon
  else if as.consist.value = 0#16 then some as.primary
  else if 0#16 < as.consist.value ∧ as.consist.value < 128#16 then some as.consist
  else none

/-- The queue of address datagrams after `adr`. -/
def Rx.adrQueue (s : Rx) : List (List Byte) :=
  if s.cfg.ch1AddrEnabled ∧ s.q.adr = [] then
    match adrTarget s.addrs with
    | some a => adrPair s.addrs a
    | none => []
  else s.q.adr

theorem pushAdr_ok (s : Rx) (a : Address) (h : s.q.adr = []) :
    s.pushAdr a = .ok { s with q := { s.q with adr := adrPair s.addrs a } } := by
  unfold Rx.pushAdr
  rw [adrHigh_eq, adrLow_eq, h]
  rfl

theorem adr_total (s : Rx) : s.adr = .ok { s with q := { s.q with adr := s.adrQueue } } := by
  unfold Rx.adr Rx.adrQueue adrTarget
  cases hc : s.cfg.ch1AddrEnabled
  · simp
  · cases hq : s.q.adr with
    | cons d ds =>
      have hne : s.q.adr ≠ [] := by rw [hq]; exact List.cons_ne_nil _ _
      simp only [← hq]
      simp [hne]
    | nil =>
      simp only [Bool.not_true, List.isEmpty_nil, Bool.or_false, Bool.false_eq_true, if_false, and_self, if_true]
      split
      · exact pushAdr_ok s _ hq
      split
      · exact pushAdr_ok s _ hq
      split
      · exact pushAdr_ok s _ hq
      · simp [← hq]

/-- The state after the preparation. -/
def Rx.prepared (e : Env) (s : Rx) (now : Int) : Rx :=
  ((Rx.logonStore e { s with q := { s.q with adr := s.adrQueue } }).updateQos).updateTimepoints now

theorem prepare_total (e : Env) (s : Rx) (now : Int) :
    s.prepare e now = .ok (s.prepared e now) ∧ PrepFrame s (s.prepared e now) := by
  have h : s.prepare e now = .ok (s.prepared e now) := by unfold Rx.prepare; rw [adr_total]; rfl
  exact ⟨h, prepare_frame e s _ now h⟩

end Dcc
