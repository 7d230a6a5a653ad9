import Verif.Spec.Guest
/-! Several decoders that log on at the same time. -/
namespace Dcc.Spec

/-- A LOGON_ENABLE that locomotives answer when their backoff is over. -/
def GuestItem.Enquiry : GuestItem → Prop
  | .enable .all _ _ => True
  | .enable .loco _ _ => True
  | _ => False

/-- A SELECT or LOGON_ASSIGN for the decoder with this unique ID. -/
def GuestItem.names (uid : BitVec 32) : GuestItem → Bool
  | .select _ u _ => u = uid
  | .assign _ u _ => u = uid
  | _ => false

/-- A decoder that logs on: its class, what it has done, its state, its unique ID and what it hears. -/
structure Contender where
  env : Env
  ops : List RxOp
  state : Rx
  uid : BitVec 32
  rounds : List Round

/-- It hears the packets of the items. -/
def Contender.Hears (d : Contender) (items : List GuestItem) : Prop :=
  LogsOn d.env d.ops d.state d.uid d.rounds items

/-- Its backoff. -/
def Contender.pause (d : Contender) : Pause := logonPause d.env {} {} d.ops

/-- What it transmits in the cutout after packet `i`. -/
def Contender.transmits (d : Contender) (i : Nat) : Option (List Byte) := (heardRounds d.env d.state d.rounds)[i]?

/-- The random number it draws with packet `i`. -/
def Contender.draws (d : Contender) (i : Nat) : Nat := ((d.rounds[i]?).map Round.drawn).getD 0

/-- It transmits its ID in the cutout after packet `i`. -/
def Contender.Answers (d : Contender) (i : Nat) : Prop :=
  ∃ m, d.transmits i = some m ∧ inCutout m = some (some (idWord d.env d.state))

/-- It is silent there. -/
def Contender.Silent (d : Contender) (i : Nat) : Prop := d.transmits i = some []

end Dcc.Spec
