import Verif.Model.Basic
/-!
Model of include/dcc/address.hpp and include/dcc/addresses.hpp.
-/
namespace Dcc

/-- The unnamed enum `Address::type` (include/dcc/address.hpp:42-52). -/
inductive AddrType where
  | unknownService
  | broadcast
  | short
  | accessory
  | long
  | reserved
  | dataTransfer
  | automaticLogon
  | idleSystem
  deriving DecidableEq, Repr

/-- `struct Address` (include/dcc/address.hpp:22-55); the defaults are those of a
value-initialised object. -/
structure Address where
  value : BitVec 16 := 0
  type : AddrType := .unknownService
  reversed : Bool := false
  deriving DecidableEq, Repr

/-- `type == Short || type == Long`, the test used by `operator==`
(include/dcc/address.hpp:31-32). -/
def AddrType.isLoco (t : AddrType) : Bool := t == .short || t == .long

/-- `operator==(Address const&, Address const&)` (include/dcc/address.hpp:30-35). -/
def Address.eq (l r : Address) : Bool :=
  if l.type.isLoco && r.type.isLoco then l.value == r.value
  else l.value == r.value && l.type == r.type

/-- `Address::operator=(value_type const&)` (include/dcc/address.hpp:25-28): only the
value changes. -/
def Address.assignValue (a : Address) (v : BitVec 16) : Address := { a with value := v }

/-- `decode_address(InputIt)` (include/dcc/address.hpp:64-88).  The iterator is the list of
the bytes that may be read; dereferencing it behind the end is a fault. -/
def decodeAddress : List Byte → R Address
  | [] => .error .oob
  | b :: rest =>
    if b = 0#8 then .ok { value := b.setWidth 16, type := .broadcast }
    else if b ≤ 127#8 then .ok { value := b.setWidth 16, type := .short }
    else if b ≤ 191#8 then .ok { value := b.setWidth 16, type := .accessory }
    else if b ≤ 231#8 then
      match rest with
      | [] => .error .oob
      | c :: _ =>
        .ok { value := ((b.setWidth 16 <<< 8) ||| c.setWidth 16) &&& 0x3FFF#16, type := .long }
    else if b ≤ 252#8 then .ok { value := b.setWidth 16, type := .reserved }
    else if b = 253#8 then .ok { value := b.setWidth 16, type := .dataTransfer }
    else if b = 254#8 then .ok { value := b.setWidth 16, type := .automaticLogon }
    else .ok { value := b.setWidth 16, type := .idleSystem }

/-- `encode_address` (include/dcc/address.hpp:113-132).  The result is the list of the bytes
written; `Reserved` is an `assert(false)`. -/
def encodeAddress (a : Address) : R (List Byte) :=
  match a.type with
  | .unknownService => .ok []
  | .broadcast => .ok [0#8]
  | .short => .ok [a.value.setWidth 8]
  | .accessory => .ok []
  | .long => .ok [0xC0#8 ||| (a.value >>> 8).setWidth 8, a.value.setWidth 8]
  | .reserved => .error .assertion
  | .dataTransfer => .ok [253#8]
  | .automaticLogon => .ok [254#8]
  | .idleSystem => .ok [255#8]

/-- `struct Addresses` (include/dcc/addresses.hpp:17-22). -/
structure Addresses where
  primary : Address := {}
  consist : Address := {}
  logon : Address := {}
  received : Address := {}
  deriving DecidableEq, Repr

end Dcc
