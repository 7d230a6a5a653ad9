import Verif.Model.RxMachine
/-!
`execute` in the thread, preempted by the calls made in interrupts.

`executeThreadMode` (include/dcc/rx/crtp_base.hpp:274-283) is taken apart into its calls, and `adr`
(include/dcc/rx/crtp_base.hpp:1011-1032) into its two `push_back`s.  Interrupts call `receive`,
`biDiChannel1` and `biDiChannel2`.  Simplification: an interrupt does not preempt in the middle of
one of these steps, and is not preempted itself.
-/
namespace Dcc

/-- The address `adr` reports; `_addrs` is read again for the second datagram
(include/dcc/rx/crtp_base.hpp:1015-1026). -/
inductive AdrRef where
  | logon | primary | consist
  deriving DecidableEq, Repr

/-- The member of `_addrs`. -/
def AdrRef.get (as : Addresses) : AdrRef → Address
  | .logon => as.logon
  | .primary => as.primary
  | .consist => as.consist

/-- The conditions of `adr` (include/dcc/rx/crtp_base.hpp:1012-1024). -/
def Rx.adrRef (s : Rx) : Option AdrRef :=
  if !s.cfg.ch1AddrEnabled || !s.q.adr.isEmpty then none
  else if s.addrs.logon.value ≠ 0#16 then some .logon
  else if s.addrs.consist.value = 0#16 then some .primary
  else if 0#16 < s.addrs.consist.value ∧ s.addrs.consist.value < 128#16 then some .consist
  else none

/-- `_adr_deque.push_back(adrHigh(...))` (include/dcc/rx/crtp_base.hpp:1015, 1020, 1025). -/
def Rx.pushHigh (s : Rx) (r : AdrRef) : R Rx := do
  let q ← pushBack 2 s.q.adr (← s.adrHigh (r.get s.addrs))
  return { s with q := { s.q with adr := q } }

/-- `_adr_deque.push_back(adrLow(...))` (include/dcc/rx/crtp_base.hpp:1016, 1021, 1026). -/
def Rx.pushLow (s : Rx) (r : AdrRef) : R Rx := do
  let q ← pushBack 2 s.q.adr (← s.adrLow (r.get s.addrs))
  return { s with q := { s.q with adr := q } }

/-- What the thread does next: nothing of `execute`, or one of its steps. -/
inductive Phase where
  | idle
  | adr
  | adrLow (r : AdrRef)
  | store
  | qos
  | timepoints
  | exec
  | pop
  deriving DecidableEq, Repr

/-- The object and where the thread is. -/
structure Task where
  s : Rx := {}
  phase : Phase := .idle

/-- One step of the thread (include/dcc/rx/crtp_base.hpp:275-282); `now` and `rand` are what the
clock and `rand()` return if asked. -/
def Task.thread (e : Env) (x : Task) (now : Int) (rand : Nat) : R Task :=
  match x.phase with
  | .idle =>
    if x.s.packetEnd || x.s.deque.isEmpty then .ok x else .ok { x with phase := .adr }
  | .adr =>
    match x.s.adrRef with
    | none => .ok { x with phase := .store }
    | some r => do return { s := ← x.s.pushHigh r, phase := .adrLow r }
  | .adrLow r => do return { s := ← x.s.pushLow r, phase := .store }
  | .store => .ok { s := x.s.logonStore e, phase := .qos }
  | .qos => .ok { s := x.s.updateQos, phase := .timepoints }
  | .timepoints => .ok { s := x.s.updateTimepoints now, phase := .exec }
  | .exec => do return { s := (← x.s.executeFront e rand).1, phase := .pop }
  | .pop => .ok { s := x.s.popFront, phase := .idle }

/-- What happens next: an interrupt, a call by the thread or a step of its call of `execute`. -/
inductive Micro where
  | receive (time rand : Nat)
  | biDiChannel1
  | biDiChannel2
  | call (op : RxOp)
  | thread (now : Int) (rand : Nat)
  deriving DecidableEq, Repr

/-- One step.  While the thread is in `execute` it makes no other call. -/
def Task.step (e : Env) (x : Task) : Micro → R Task
  | .receive time rand => do return { x with s := ← x.s.step e (.receive time rand) }
  | .biDiChannel1 => do return { x with s := ← x.s.step e .biDiChannel1 }
  | .biDiChannel2 => do return { x with s := ← x.s.step e .biDiChannel2 }
  | .call op => if x.phase = .idle then do return { x with s := ← x.s.step e op } else .ok x
  | .thread now rand => x.thread e now rand

/-- A sequence of steps. -/
def Task.run (e : Env) (x : Task) : List Micro → R Task
  | [] => .ok x
  | m :: ms => do
    let x ← x.step e m
    x.run e ms

end Dcc
