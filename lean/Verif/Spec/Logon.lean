import Verif.Spec.Bidi
import Verif.Spec.Codec
/-!
Automatic logon (RCN-218): the packets, and what they may change in a decoder.
-/
namespace Dcc.Spec

/-- The packets of automatic logon a decoder acts upon. -/
inductive LogonCommand where
  | enable (group cid session : Nat)
  | select (uid : List Byte)
  | assign (uid address : List Byte)
  deriving DecidableEq, Repr

/-- Packets to address 254: `1101....` is SELECT, `1110....` LOGON_ASSIGN, `111111GG` LOGON_ENABLE.
The unique ID is the last four of the six bytes that follow (the rest is the manufacturer). -/
def logonCommand : Packet → Option LogonCommand
  | a :: b :: rest =>
    if a.toNat ≠ 254 then none
    else if b.toNat / 16 = 13 then some (.select ((rest.drop 1).take 4))
    else if b.toNat / 16 = 14 then some (.assign ((rest.drop 1).take 4) (rest.drop 5))
    else if b.toNat / 16 = 15 then
      some (.enable (b.toNat % 4) ((rest.getD 0 0#8).toNat * 256 + (rest.getD 1 0#8).toNat)
        (rest.getD 2 0#8).toNat)
    else none
  | _ => none

/-- A packet is accepted if its checksum is right, and its CRC if it is longer than seven bytes. -/
def logonAccepted (p : Packet) : Prop :=
  3 ≤ p.length ∧ exor p = 0#8 ∧ (7 < p.length → crcMsg p.dropLast = 0#8)

/-- The number written with bytes, most significant first. -/
def number : List Byte → Nat
  | [] => 0
  | b :: bs => b.toNat * 256 ^ bs.length + number bs

/-- What automatic logon changes in a decoder: being selected, having an address assigned, having
something to store, the addresses and the answer waiting. -/
structure LogonView where
  selected : Bool
  assigned : Bool
  store : Bool
  primary : Address
  consist : Address
  logon : Address
  answer : List (List Byte)

/-- The view of a state. -/
def logonView (s : Rx) : LogonView :=
  { selected := s.logon.selected
    assigned := s.logon.assigned
    store := s.logon.store
    primary := s.addrs.primary
    consist := s.addrs.consist
    logon := s.addrs.logon
    answer := s.q.logon }

/-- A message of eight bytes that carries a number of 48 bits. -/
def Carries (m : List Byte) (w : Nat) : Prop :=
  m.length = 8 ∧ (∀ b ∈ m, popcount b = 4) ∧ read m = w

/-- The answer to LOGON_ENABLE: ID15, manufacturer and unique ID. -/
def idWord (e : Env) (s : Rx) : Nat :=
  15 * 2 ^ 44 + e.manufacturerId.toNat * 2 ^ 32 + number s.cfg.did

/-- Five bytes and their CRC. -/
def withCrc (bs : List Byte) : Nat := number (bs ++ [crcMsg bs])

/-- The answer to SELECT, the short info: a one, the address and three zero bytes, with CRC. -/
def infoWord (s : Rx) : Nat :=
  withCrc [BitVec.ofNat 8 (128 + s.addrs.primary.value.toNat / 256 % 128),
    BitVec.ofNat 8 (s.addrs.primary.value.toNat % 256), 0#8, 0#8, 0#8]

/-- The answer to LOGON_ASSIGN: ID13 with CRC. -/
def ackWord : Nat := withCrc [13 * 16#8, 0#8, 0#8, 0#8, 0#8]

/-- The command station is the one stored and its session the one stored or one of the next four. -/
def KnownSession (s : Rx) (cid session : Nat) : Prop :=
  cid = s.logon.cidFront.toNat ∧ s.logon.sessionFront.toNat ≤ session ∧
    session ≤ s.logon.sessionFront.toNat + 4

/-- The address assigned: with 0 to 39 in the lower six bits the bytes are a (long) address, with 56
the byte behind is a (short) address. -/
def AssignedAddress (bs : List Byte) (a : Address) : Prop :=
  ∃ b rest, bs = b :: rest ∧
    ((b.toNat % 64 < 40 ∧ decodeAddress bs = .ok a) ∨ (b.toNat % 64 = 56 ∧ decodeAddress rest = .ok a))

/-- What a packet may change. -/
inductive LogonStep (e : Env) (s : Rx) (v' : LogonView) : LogonCommand → Prop
  /-- LOGON_ENABLE of a known session: fast logon with the address stored in CV65300 and CV65301. -/
  | fast (g cid session : Nat) (hen : s.cfg.logonEnabled = true) (hsel : s.logon.selected = false)
      (hk : KnownSession s cid session) (c1 c2 : Byte) (tr : List Event)
      (h1 : c1 = e.readCv s.trace 65299#32)
      (h2 : tr = s.trace ++ [.readCv 65299#32 c1] ∧ c2 = e.readCv tr 65300#32) (a : Address)
      (ha : decodeAddress [c1, c2] = .ok a)
      (hv : v' = { logonView s with selected := true, assigned := true, store := true, logon := a }) :
      LogonStep e s v' (.enable g cid session)
  /-- Other LOGON_ENABLE: an old logon with the same command station is void, and the decoder may
  answer, unless the packet is for accessory decoders. -/
  | enable (g cid session : Nat) (hen : s.cfg.logonEnabled = true) (hsel : s.logon.selected = false)
      (hk : ¬ KnownSession s cid session) (v : LogonView)
      (hv : v = if cid = s.logon.cidFront.toNat then
        { logonView s with
          selected := false, assigned := false, store := false,
          logon := { s.addrs.logon with value := 0#16 } }
        else logonView s)
      (h : v' = v ∨ (g ≠ 2 ∧ v.answer = [] ∧ ∃ m, v' = { v with answer := [m] } ∧ Carries m (idWord e s))) :
      LogonStep e s v' (.enable g cid session)
  /-- SELECT for the decoder, which has no address assigned. -/
  | select (hen : s.cfg.logonEnabled = true) (has : s.logon.assigned = false) (he : s.q.logon = [])
      (m : List Byte) (hm : Carries m (infoWord s))
      (hv : v' = { logonView s with selected := true, answer := [m] }) :
      LogonStep e s v' (.select s.cfg.did)
  /-- LOGON_ASSIGN for the decoder: any consist is left; without `11` in the two upper bits the
  address also becomes the primary address. -/
  | assign (bs : List Byte) (hen : s.cfg.logonEnabled = true) (he : s.q.logon = []) (a : Address)
      (ha : AssignedAddress bs a) (m : List Byte) (hm : Carries m ackWord)
      (hv : v' = { logonView s with
        assigned := true, store := true, answer := [m], logon := a,
        consist := { s.addrs.consist with value := 0#16 },
        primary := if a.value.toNat ≠ 0 ∧ bs.head?.any (fun b => b.toNat / 64 ≠ 3) then a
          else s.addrs.primary }) :
      LogonStep e s v' (.assign s.cfg.did bs)

/-- The packet has the bytes its logon command reads. -/
def LogonLength (p : Packet) : LogonCommand → Prop
  | .enable _ _ _ => 5 ≤ p.length
  | .select _ => 7 ≤ p.length
  | .assign _ _ => 10 ≤ p.length

/-- The decoder answers the command (for LOGON_ENABLE unless the backoff prevents it). -/
def AnswerDue (s : Rx) : LogonCommand → Prop
  | .enable g cid session => g ≠ 2 ∧ s.logon.selected = false ∧ ¬ KnownSession s cid session
  | .select uid => uid = s.cfg.did ∧ s.logon.assigned = false
  | .assign uid _ => uid = s.cfg.did

/-- The duration completes the packet being received. -/
structure Completes (e : Env) (s : Rx) (t : Nat) : Prop where
  state : s.link.state = .endbit
  second : s.link.isHalfbit = true
  one : 52 ≤ t ∧ t ≤ 64
  room : s.deque.length < e.rxDeque

instance (e : Env) (s : Rx) (t : Nat) : Decidable (Completes e s t) :=
  decidable_of_iff (s.link.state = .endbit ∧ s.link.isHalfbit = true ∧ (52 ≤ t ∧ t ≤ 64) ∧
    s.deque.length < e.rxDeque) ⟨fun h => ⟨h.1, h.2.1, h.2.2.1, h.2.2.2⟩, fun h => ⟨h.1, h.2, h.3, h.4⟩⟩

instance (p : Packet) : Decidable (logonAccepted p) :=
  inferInstanceAs (Decidable (_ ∧ _ ∧ _))

instance (s : Rx) (cid session : Nat) : Decidable (KnownSession s cid session) :=
  inferInstanceAs (Decidable (_ ∧ _ ∧ _))

/-- The call completes a LOGON_ENABLE the decoder has to consider: logon is enabled, the decoder is not
selected and the session is unknown.  The result is the group of decoders addressed. -/
def enabling (e : Env) (s : Rx) : RxOp → Option Nat
  | .receive t _ =>
    if Completes e s t ∧ logonAccepted s.link.packet ∧ 5 ≤ s.link.packet.length ∧
      s.cfg.logonEnabled = true ∧ s.logon.selected = false then
      match logonCommand s.link.packet with
      | some (.enable g cid session) => if KnownSession s cid session then none else some g
      | _ => none
    else none
  | _ => none

/-- The backoff asked by LOGON_ENABLE: not for accessory decoders (2), from the start with NOW (3).  The
second component is true if there must be no answer. -/
def Pause.enable (p : Pause) (g rand : Nat) : Pause × Bool :=
  if g = 2 then (p, true) else Pause.query (if g = 3 then {} else p) rand

/-- The backoff of logon after a call. -/
def Pause.logon (p : Pause) (e : Env) (s : Rx) (op : RxOp) : Pause :=
  match enabling e s op, op with
  | some g, .receive _ rand => (p.enable g rand).1
  | _, _ => p

/-- The backoff of logon after a history. -/
def logonPause (e : Env) (s : Rx) (p : Pause) : List RxOp → Pause
  | [] => p
  | op :: ops =>
    match s.step e op with
    | .error _ => p
    | .ok s' => logonPause e s' (p.logon e s op) ops

end Dcc.Spec
