import Verif.Spec.Rx
import Verif.Spec.Builders
/-!
What executing packets means: which packets concern a decoder and which calls of the user's class
the RCN-212 instructions stand for.
-/
namespace Dcc

/-- The call writes a CV. -/
def Event.isWrite : Event → Bool
  | .writeCvByte _ _ _ | .writeCvBit _ _ _ _ | .asyncWriteCvByte _ _ | .asyncWriteCvBit _ _ _ => true
  | _ => false

/-- The CV a call writes. -/
def Event.writtenCv : Event → Option (BitVec 32)
  | .writeCvByte cv _ _ | .writeCvBit cv _ _ _ | .asyncWriteCvByte cv _ | .asyncWriteCvBit cv _ _ =>
    some cv
  | _ => none

/-- The call reads (verifies) a CV on behalf of a command. -/
def Event.isVerify : Event → Bool
  | .readCvByte _ _ _ | .readCvBit _ _ _ _ | .asyncReadCvByte _ _ | .asyncReadCvBit _ _ _ => true
  | _ => false

/-- The address a call for the locomotive carries. -/
def Event.locoAddr : Event → Option (BitVec 16)
  | .direction a _ | .speed a _ | .function a _ _ | .eastWestDirection a _ => some a
  | _ => none

namespace Spec

/-- The decoder number a packet is addressed to: 0 for broadcast, 1 to 127 with one byte, up to
10239 with two bytes.  Other packets are not for multi function decoders. -/
def locoNumber : Packet → Option Nat
  | [] => none
  | b :: rest =>
    if b.toNat ≤ 127 then some b.toNat
    else if 192 ≤ b.toNat ∧ b.toNat ≤ 231 then
      rest.head?.map fun c => (b.toNat - 192) * 256 + c.toNat
    else none

/-- The bytes behind the address. -/
def afterAddress : Packet → List Byte
  | [] => []
  | b :: rest => if b.toNat ≤ 127 then rest else rest.drop 1

/-- The decoder listens to this number: to the logon address if one is assigned, otherwise to the
primary and the consist address. -/
def Active (s : Rx) (n : Nat) : Prop :=
  if s.addrs.logon.value = 0#16 then
    (s.addrs.primary.type.isLoco = true ∧ n = s.addrs.primary.value.toNat) ∨
    (s.addrs.consist.type.isLoco = true ∧ n = s.addrs.consist.value.toNat)
  else s.addrs.logon.type.isLoco = true ∧ n = s.addrs.logon.value.toNat

instance (s : Rx) (n : Nat) : Decidable (Active s n) := by unfold Active; exact inferInstance

/-- The packet concerns the decoder: broadcast or an active address. -/
def ForDecoder (s : Rx) (p : Packet) : Prop :=
  ∃ n, locoNumber p = some n ∧ (n = 0 ∨ Active s n)

instance (s : Rx) (p : Packet) : Decidable (ForDecoder s p) :=
  match h : locoNumber p with
  | none => .isFalse fun ⟨_, hn, _⟩ => by simp [h] at hn
  | some n =>
    if hn : n = 0 ∨ Active s n then .isTrue ⟨n, h, hn⟩
    else .isFalse fun ⟨m, hm, hm2⟩ => by rw [h] at hm; cases hm; exact hn hm2

/-- The address passed to the user's class: the one in the packet, but the primary address for
packets to the logon address. -/
def target (s : Rx) (n : Nat) : BitVec 16 :=
  if n = 0 ∨ s.addrs.logon.value = 0#16 then BitVec.ofNat 16 n else s.addrs.primary.value

/-- The direction is reversed for the address. -/
def reversedAt (s : Rx) (addr : BitVec 16) : Bool :=
  if addr = s.addrs.primary.value then s.addrs.primary.reversed else s.addrs.consist.reversed

/-- The CVs an automatic logon stores data in: CV17, CV18 and CV29 (primary address), CV19 and CV20
(consist address), CV65297 to CV65301 (command station, session and address), numbered from zero. -/
def logonCvs : List (BitVec 32) :=
  [16#32, 17#32, 28#32, 18#32, 19#32, 65296#32, 65297#32, 65298#32, 65299#32, 65300#32]

/-- Calls storing the data of an automatic logon, which `execute` makes before it looks at the
packet: writes of these CVs, and none at all unless such data are waiting. -/
structure LogonStores (s : Rx) (evs : List Event) : Prop where
  writes : ∀ ev ∈ evs, ev.isWrite = true
  cvs : ∀ ev ∈ evs, ∃ cv ∈ logonCvs, ev.writtenCv = some cv
  none : s.logon.store = false → evs = []

/-- Speed step `k` of `n`, scaled to 0..255: step 0 is 0, step 1 is 2, the last one is 255. -/
def scaled (n k : Nat) : Int :=
  if k = 0 then 0
  else if n = 126 then (k * 255 / 126 : Nat)
  else (2 + (k - 1) * 253 / (n - 1) : Nat)

/-- Direction and speed. -/
def driveCalls (addr : BitVec 16) (dir : Bool) (speed : Int) : List Event :=
  [.direction addr dir, .speed addr speed]

/-- The emergency stop, which leaves the direction alone. -/
def estopCalls (addr : BitVec 16) : List Event := [.speed addr (-1)]

/-- RCN-212 2.2.1, 126 speed steps: bit 7 is the direction, code 0 stop, code 1 emergency stop, code
`n` step `n - 1`. -/
def speed126Calls (addr : BitVec 16) (reversed : Bool) (b : Byte) : List Event :=
  let dir := decide (128 ≤ b.toNat)
  let code := b.toNat % 128
  if code = 1 then estopCalls addr
  else driveCalls addr (dir != reversed) (scaled 126 (code - 1))

/-- RCN-212 2.2.2, 28 speed steps: bit 5 is the direction, bits 3 to 0 the code, bit 4 the
intermediate step; code 0 stop, code 1 emergency stop, code `n` step `2n-3` or `2n-2`. -/
def speed28Calls (addr : BitVec 16) (reversed : Bool) (b : Byte) : List Event :=
  let code := b.toNat % 16
  let step := if code = 0 then 0 else 2 * code - 3 + (if b.getLsbD 4 then 1 else 0)
  if code = 1 then estopCalls addr
  else driveCalls addr (b.getLsbD 5 != reversed) (scaled 28 step)

/-- RCN-212 2.2.2, 14 speed steps: bit 4 is F0; code 0 stop, code 1 emergency stop, code `n` step
`n - 1`. -/
def speed14Calls (addr : BitVec 16) (reversed : Bool) (b : Byte) : List Event :=
  let code := b.toNat % 16
  if code = 1 then estopCalls addr
  else .function addr 1#32 (if b.getLsbD 4 then 1#32 else 0#32) ::
    driveCalls addr (b.getLsbD 5 != reversed) (scaled 14 (code - 1))

/-- What a function call does to the 32 functions of a decoder. -/
def applyFunction (fs : BitVec 32) (mask state : BitVec 32) : BitVec 32 :=
  (fs &&& ~~~ mask) ||| (state &&& mask)

/-- The functions of a decoder after some calls. -/
def functionsAfter (addr : BitVec 16) : BitVec 32 → List Event → BitVec 32
  | fs, [] => fs
  | fs, .function a mask state :: evs =>
    functionsAfter addr (if a = addr then applyFunction fs mask state else fs) evs
  | fs, _ :: evs => functionsAfter addr fs evs

/-- The calls of the hooks for entering (true) and leaving (false) service mode. -/
def hooks (evs : List Event) : List Bool := evs.filterMap fun
  | .serviceModeHook b => some b
  | _ => none

/-- The packet `execute` handles: the oldest one in the queue, unless a packet has just been
received. -/
def front (s : Rx) : Option Packet := if s.packetEnd then none else s.deque.head?

/-- Executing a packet with address zero and instruction byte zero in operations mode.  The address
counts as zero also if the packet is for the logon address of a decoder whose primary address is
zero. -/
def Enters (s : Rx) (op : RxOp) : Prop :=
  op.isExecute = true ∧ s.serviceMode = false ∧
    ∃ p n, front s = some p ∧ locoNumber p = some n ∧
      (n = 0 ∨ (Active s n ∧ target s n = 0#16)) ∧ (afterAddress p).head? = some 0#8

/-- Executing a packet whose first byte is neither zero nor 0x70 to 0x7F in service mode. -/
def Leaves (s : Rx) (op : RxOp) : Prop :=
  op.isExecute = true ∧ s.serviceMode = true ∧
    ∃ p b, front s = some p ∧ p.head? = some b ∧ b.toNat ≠ 0 ∧ ¬ (112 ≤ b.toNat ∧ b.toNat ≤ 127)

/-- A list of hook calls that begins with `b` and alternates. -/
def Alternates : Bool → List Bool → Prop
  | _, [] => True
  | b, x :: xs => x = b ∧ Alternates (!b) xs

/-- Instruction bytes of the README's unsupported instructions: decoder control, the analog function
group and the undefined advanced operations, feature expansion other than F13-F28. -/
def Unsupported (b : Byte) : Prop :=
  b.toNat < 16 ∨ (32 ≤ b.toNat ∧ b.toNat < 64 ∧ b.toNat ≠ 0x3C ∧ b.toNat ≠ 0x3E ∧ b.toNat ≠ 0x3F) ∨
  (192 ≤ b.toNat ∧ b.toNat < 224 ∧ b.toNat ≠ 0xDE ∧ b.toNat ≠ 0xDF)

/-- The calls of `receive` for a packet sent by a transmitter with default timing and the first
duration after it (for examples). -/
def hears (p : Packet) : List RxOp :=
  recvOps ((packetWave {} p ++ [58]).map (·, 0))

/-- Addresses of multi function decoders a packet can carry. -/
def LocoAddress (a : Address) : Prop :=
  (a.type = .broadcast ∧ a.value.toNat = 0) ∨
  (a.type = .short ∧ 1 ≤ a.value.toNat ∧ a.value.toNat ≤ 127) ∨
  (a.type = .long ∧ a.value.toNat < 10240)

/-- The decoder is in operations mode, has nothing to execute and waits for a preamble. -/
structure Ready (e : Env) (s : Rx) : Prop where
  mode : s.serviceMode = false
  deque : s.deque = []
  room : 0 < e.rxDeque
  waiting : s.link.state = .preamble

/-- `execute` handles the packet at the front of the queue by making exactly these calls, after
those storing logon data that wait from before, and changes neither addresses, configuration nor
mode. -/
def Executes (e : Env) (s : Rx) (now : Int) (rand : Nat) (calls : List Event) : Prop :=
  ∃ s' stores, s.execute e now rand = .ok (s', true) ∧ LogonStores s stores ∧
    s'.trace = s.trace ++ stores ++ calls ∧ s'.deque = s.deque.tail ∧ s'.addrs = s.addrs ∧
    s'.cfg = s.cfg ∧ s'.mode = s.mode

/-- The half bits of the packet, one further duration and then `execute` lead to exactly these
calls, after those storing logon data that wait from before. -/
def Delivers (e : Env) (s : Rx) (cfg : TxConfig) (p : Packet) (calls : List Event) : Prop :=
  ∀ (xs : List (Nat × Nat)) (t r : Nat) (now : Int) (rand : Nat),
    bytes2timings p cfg = .ok (xs.map (·.1)) →
    ∃ s' stores, s.run e (recvOps xs ++ [.receive t r, .execute now rand]) = .ok s' ∧
      LogonStores s stores ∧ s'.trace = s.trace ++ stores ++ calls ∧ s'.deque = []

/-- A group of functions: the first one and how many. -/
structure Group where
  first : Nat
  count : Nat

/-- The function groups of the five function builders. -/
def groupOf : AddressedCall → Option (Group × Byte)
  | .f4f0 s => some (⟨0, 5⟩, s)
  | .f8f5 s => some (⟨5, 4⟩, s)
  | .f12f9 s => some (⟨9, 4⟩, s)
  | .f20f13 s => some (⟨13, 8⟩, s)
  | .f28f21 s => some (⟨21, 8⟩, s)
  | _ => none

/-- The call `function(addr, mask, state)` sets exactly the functions of the group, to the given
states, and leaves all others alone.  F0 is left alone if it belongs to the speed command (14 speed
steps). -/
def SetsGroup (g : Group) (f0Exception : Bool) (states : Byte) (mask state : BitVec 32) : Prop :=
  ∀ (fs : BitVec 32) (i : Nat), i < 32 → (applyFunction fs mask state).getLsbD i =
    if g.first ≤ i ∧ i < g.first + g.count ∧ ¬ (f0Exception = true ∧ i = 0) then
      states.getLsbD (i - g.first)
    else fs.getLsbD i

/-- The state of function `i` after setting the groups of eight functions F7-F0, F15-F8, ... -/
def groupsState (groups : List Byte) (fs : BitVec 32) (i : Nat) : Bool :=
  match groups[i / 8]? with
  | some b => b.getLsbD (i % 8)
  | none => fs.getLsbD i

end Spec
end Dcc
