import Verif.Spec.Throttle
/-! One disturbed bit on the track. -/
namespace Dcc.Spec

/-- The bits of a packet with bit number `k` the other way round. -/
def disturbed (preamble : Nat) (p : Packet) (k : Nat) : List Bool :=
  (frameBits preamble p).modify k not

/-- The half bits of several packets. -/
def followed (ps : List (TxConfig × Packet)) : List Nat :=
  ps.flatMap fun x => packetWave x.1 x.2

/-- All of them from transmitters with an accepted configuration, and with a valid checksum. -/
def Sound (ps : List (TxConfig × Packet)) : Prop :=
  ∀ x ∈ ps, x.1.accepted = true ∧ ValidPacket x.2

/-- A disturbed packet and what follows reach the decoder, whatever else is called meanwhile except
`disable`. -/
structure Disturbance (e : Env) (s s' : Rx) (ops : List RxOp) (cfg : TxConfig) (p : Packet) (k : Nat)
    (rest : List (TxConfig × Packet)) : Prop where
  reachable : Reachable e s
  waiting : s.link.state = .preamble
  run : s.run e ops = .ok s'
  enabled : .disable ∉ ops
  room : NeverFull e s ops
  config : cfg.accepted = true
  valid : ValidPacket p
  sound : Sound rest
  times : recvTimes ops = wave cfg (disturbed cfg.numPreamble.toNat p k) ++ followed rest

end Dcc.Spec
