import Verif.Spec.Main
import Verif.Spec.Throttle
/-!
Giving a locomotive another address on the programming track (RCN-225), and what it does then.  CVs are
numbered from zero.
-/
namespace Dcc.Spec

/-- What a programmer writes: CV1 and CV29 bit 5 for a short address, CV17, CV18 and CV29 bit 5 for a long
one. -/
def addressRequests (a times resets : Nat) : List Request :=
  if a < 128 then
    [⟨.write, .byte 0 (BitVec.ofNat 8 a), times, resets⟩, ⟨.write, .bit 28 false 5, times, resets⟩]
  else
    [⟨.write, .byte 16 (BitVec.ofNat 8 (192 + a / 256)), times, resets⟩,
      ⟨.write, .byte 17 (BitVec.ofNat 8 (a % 256)), times, resets⟩, ⟨.write, .bit 28 true 5, times, resets⟩]

/-- The packets: reset packets, the requests and an idle packet that ends service mode. -/
def addressItems (a times resets : Nat) : List ServiceItem :=
  List.replicate (resets + 1) .reset ++ (addressRequests a times resets).flatMap Request.items ++ [.idle]

/-- The programmer's packets, with idle packets before and behind them. -/
def sessionItems (a times resets before behind : Nat) : List ServiceItem :=
  List.replicate before .idle ++ addressItems a times resets ++ List.replicate behind .idle

/-- The calls a command asks of a decoder with these CVs: none unless it is for everyone, for the address or for
the consist address. -/
def Command.callsOf (c : BitVec 32 → Byte) (cmd : Command) : List Event :=
  let n := cmd.addr.value.toNat
  if n = 0 ∨ n = primaryNumber c ∨ n = consistNumber c then
    AddressedCall.asks (!(c 28#32).getLsbD 1)
      (if n = primaryNumber c then (c 28#32).getLsbD 0 else (c 18#32).getLsbD 7) cmd.addr.value cmd.call
  else []

/-- The CVs `c'` are `c` with another address. -/
structure Readdressed (c c' : BitVec 32 → Byte) (a : Nat) : Prop where
  number : primaryNumber c' = a
  selection : ∀ i, i ≠ 5 → (c' 28#32).getLsbD i = (c 28#32).getLsbD i
  others : ∀ cv, cv ≠ 0#32 → cv ≠ 16#32 → cv ≠ 17#32 → cv ≠ 28#32 → c' cv = c cv

end Dcc.Spec
