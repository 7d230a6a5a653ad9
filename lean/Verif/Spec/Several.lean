import Verif.Spec.Main
import Verif.Spec.Throttle
/-! Several decoders on one track. -/
namespace Dcc.Spec

/-- The decoder answers packets for the locomotive `n` in channel 2: it is its own address, or that of its
consist, and the CVs permit to answer for the consist. -/
def Responds (s : Rx) (n : Nat) : Prop :=
  (ownAddress s).type.isLoco = true ∧ (ownAddress s).value.toNat = n ∨
    s.cfg.ch2ConsistEnabled = true ∧ s.addrs.consist.type.isLoco = true ∧ s.addrs.consist.value.toNat = n

instance (s : Rx) (n : Nat) : Decidable (Responds s n) := by unfold Responds; exact inferInstance

/-- A call of `biDiChannel2` transmits something. -/
def Speaks (e : Env) (s : Rx) : Prop := sent (fun _ _ => true) e s [.biDiChannel2] ≠ []

instance (e : Env) (s : Rx) : Decidable (Speaks e s) := by unfold Speaks; exact inferInstance

/-- No two decoders share an address other than 0. -/
def Distinct {ι : Type} (listens : ι → Nat → Prop) : Prop :=
  ∀ i j n, n ≠ 0 → listens i n → listens j n → i = j

end Dcc.Spec
