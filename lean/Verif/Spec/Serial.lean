import Verif.Spec.Exec
import Verif.Spec.Independence
import Verif.Spec.Thread
/-!
A decoder with interrupts between any two accesses of the thread, compared with one without interrupts that
gets the packets one by one.
-/
namespace Dcc.Spec

/-- What a decoder is without anything that has to do with BiDi, the reception of bits, the queue, the clock
and statistics.  Of the calls of the user's class those that transmit are left out. -/
def core (s : Rx) : Rx where
  lastOwnCvPacket := s.lastOwnCvPacket
  ownEqualCvPackets := s.ownEqualCvPackets
  addrs := { s.addrs with received := {} }
  cfg := s.cfg
  logon := { s.logon with backoff := {} }
  indexReg := s.indexReg
  mode := s.mode
  enabled := s.enabled
  man := s.man
  trace := visible s.trace
  callbacks := s.callbacks

/-- The packet fetched with an access in one of the lines 291 and 315 of include/dcc/rx/crtp_base.hpp
(`_deque.front()`). -/
def fetchedAt (line : Nat) (s : Rx) : List Packet := if line = 291 ∨ line = 315 then s.deque.take 1 else []

/-- The calls to a decoder without interrupts: whenever the thread calls `init`, `enable`, `disable` or a
callback the same call, and whenever the thread fetches a packet the half bits of this packet, then `execute`. -/
def inOrder (e : Env) : Preempted → List Beat → List RxOp :=
  collect e fun x _ m =>
    match m with
    | .start (.execute _ _) | .start (.datagram _) | .start (.receive _ _) | .start .biDiChannel1
    | .start .biDiChannel2 => []
    | .start op => if x.line = none then [op] else []
    | .access =>
      match x.line with
      | none => []
      | some l => (fetchedAt l x.s).flatMap fun p => hears p ++ [.execute 0 0]
    | _ => []

/-- No packet for automatic logon is accepted while logon is enabled. -/
def noLogon (e : Env) (x : Preempted) (m : Beat) : Prop :=
  ∀ x', x.step e m = .ok x' → m.isReceive = true → x'.s.packetEnd = true → isLogon x'.s.link.packet = true →
    x.s.cfg.logonEnabled = false

end Dcc.Spec
