/-!
Basic vocabulary shared by all model modules.
-/
namespace Dcc

/-- `uint8_t`. -/
abbrev Byte := BitVec 8

/-- `dcc::Packet` (include/dcc/packet.hpp:18), an `inplace_vector<uint8_t, DCC_MAX_PACKET_SIZE>`.
Simplification: a list; the capacity is checked where bytes are appended. -/
abbrev Packet := List Byte

/-- Outcomes a C++ program has no defined result for, or stops with.
`oob`: read outside a span, array or packet.  `overflow`: more elements written to
an inplace container than its capacity.  `assertion`: a failing `assert`. -/
inductive Fault where
  | oob
  | overflow
  | assertion
  deriving DecidableEq, Repr

deriving instance DecidableEq for Except

/-- Result of a function that may fault. -/
abbrev R := Except Fault

@[simp] theorem ok_bind {α β} (a : α) (f : α → R β) : ((Except.ok a : R α) >>= f) = f a := rfl
@[simp] theorem error_bind {α β} (e : Fault) (f : α → R β) :
    ((Except.error e : R α) >>= f) = Except.error e := rfl
@[simp] theorem pure_eq_ok {α} (a : α) : (pure a : R α) = Except.ok a := rfl

theorem bind_eq_ok {α β} {x : R α} {f : α → R β} {b : β} :
    (x >>= f) = Except.ok b ↔ ∃ a, x = Except.ok a ∧ f a = Except.ok b := by
  cases x with
  | error e => simp
  | ok a => simp

/-- `span::operator[]` / `array::operator[]` on a byte sequence: reading outside is a fault. -/
def byteAt (bs : List Byte) (i : Nat) : R Byte :=
  match bs[i]? with
  | some b => .ok b
  | none => .error .oob

/-- `DCC_MAX_PACKET_SIZE` (CMakeLists.txt:31, default 18). -/
def maxPacketSize : Nat := 18

end Dcc
