import Verif.Spec.Rx
/-! Packets executed several at a time. -/
namespace Dcc.Spec

/-- What is called while no packet is executed, and then the arguments of calls of `execute`, one after the
other. -/
structure Batch where
  between : List RxOp
  calls : List (Int × Nat)

/-- The calls of `execute`. -/
def Batch.executes (b : Batch) : List RxOp := b.calls.map fun c => .execute c.1 c.2

/-- All calls. -/
def Batch.ops (b : Batch) : List RxOp := b.between ++ b.executes

/-- Between two batches the half bits take at most `pause` µs, each batch has at least `k` calls of `execute`, and
none begins directly behind a packet, where `packetEnd()` holds. -/
def Regular (e : Env) (k pause : Nat) : Rx → List Batch → Prop
  | _, [] => True
  | s, b :: bs => (recvTimes b.between).sum ≤ pause ∧ k ≤ b.calls.length ∧
    (∀ op ∈ b.between, op.isExecute = false ∧ op ≠ .disable) ∧
    (∀ s1, s.run e b.between = .ok s1 → s1.packetEnd = false) ∧ ∀ s2, s.run e b.ops = .ok s2 → Regular e k pause s2 bs

/-- `while (decoder.execute());`, but at most `n` calls. -/
def executeWhile (e : Env) (now : Int) (rand : Nat) : Nat → Rx → R Rx
  | 0, s => .ok s
  | n + 1, s => do
    let (s, ret) ← s.execute e now rand
    if ret then executeWhile e now rand n s else return s

end Dcc.Spec
