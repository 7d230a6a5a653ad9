import Verif.Lemmas.RxSeveral
import Verif.Props.Main
import Verif.Props.Polling
import Verif.Props.RxInvalid
/-! Several decoders on one track: C81. -/
namespace Dcc
open Spec

/-! ### C81: who answers, who drives, who is programmed -/

/-- **C81** Decoders that get the same durations have received the same packet last, whatever else is called
on them, as long as none is disabled or meets a full queue. -/
theorem C81_same_packet (e₁ e₂ : Env) (s₁ s₂ t₁ t₂ : Rx) (ops₁ ops₂ : List RxOp)
    (h₁ : s₁.run e₁ ops₁ = .ok t₁) (h₂ : s₂.run e₂ ops₂ = .ok t₂) (hd₁ : .disable ∉ ops₁)
    (hd₂ : .disable ∉ ops₂) (hf₁ : NeverFull e₁ s₁ ops₁) (hf₂ : NeverFull e₂ s₂ ops₂)
    (ht : recvTimes ops₁ = recvTimes ops₂) (hl : s₁.link = s₂.link)
    (hr : s₁.addrs.received = s₂.addrs.received) :
    t₁.link = t₂.link ∧ t₁.addrs.received = t₂.addrs.received := by
  obtain ⟨o₁, a1, a2⟩ := run_received e₁ ops₁ s₁ t₁ h₁ hd₁ hf₁
  obtain ⟨o₂, b1, b2⟩ := run_received e₂ ops₂ s₂ t₂ h₂ hd₂ hf₂
  rw [hl, ht, b1] at a1
  simp only [Except.ok.injEq, Prod.mk.injEq] at a1
  obtain ⟨a3, rfl⟩ := a1
  exact ⟨a3.symm, by rw [a2, b2, hr]⟩

/-- The received address is that of the packet received last. -/
private theorem last_packet {os : List LinkOut} {p : Packet}
    (h : (os.filter (· ≠ .start)).getLast? = some (.packet p)) (a : Address) :
    os.foldl heardAddress a = addrOf p := by
  have key : ∀ (os : List LinkOut) (a : Address),
      os.foldl heardAddress a = (os.filter (· ≠ .start)).foldl heardAddress a := by
    intro os
    induction os with
    | nil => intro a; rfl
    | cons o os ih =>
      intro a
      rw [List.foldl_cons, List.filter_cons]
      cases o with
      | start => exact ih _
      | packet p => exact ih _
      | bad => exact ih _
  rw [key]
  obtain ⟨l, hl⟩ := List.getLast?_eq_some_iff.mp h
  rw [hl, List.foldl_append]
  rfl

/-- **C81** Two decoders that have got the same durations, the last packet being valid and for the locomotive
`n`, do not both transmit in channel 2 unless both respond to `n`. -/
theorem C81_channel2_partial (e₁ e₂ : Env) (s₁ s₂ t₁ t₂ : Rx) (ops₁ ops₂ : List RxOp)
    (h₁ : s₁.run e₁ ops₁ = .ok t₁) (h₂ : s₂.run e₂ ops₂ = .ok t₂) (hd₁ : .disable ∉ ops₁)
    (hd₂ : .disable ∉ ops₂) (hf₁ : NeverFull e₁ s₁ ops₁) (hf₂ : NeverFull e₂ s₂ ops₂)
    (ht : recvTimes ops₁ = recvTimes ops₂) (hl : s₁.link = s₂.link)
    (hr : s₁.addrs.received = s₂.addrs.received) (l : Link) (os : List LinkOut)
    (hos : s₁.link.run (recvTimes ops₁) = .ok (l, os)) (p : Packet)
    (hp : (os.filter (· ≠ .start)).getLast? = some (.packet p)) (n : Nat) (hn : locoNumber p = some n)
    (h0 : n ≠ 0) (ha₁ : Speaks e₁ t₁) (ha₂ : Speaks e₂ t₂) : Responds t₁ n ∧ Responds t₂ n := by
  obtain ⟨-, hsame⟩ := C81_same_packet e₁ e₂ s₁ s₂ t₁ t₂ ops₁ ops₂ h₁ h₂ hd₁ hd₂ hf₁ hf₂ ht hl hr
  obtain ⟨o₁, a1, a2⟩ := run_received e₁ ops₁ s₁ t₁ h₁ hd₁ hf₁
  rw [hos] at a1
  simp only [Except.ok.injEq, Prod.mk.injEq] at a1
  obtain ⟨-, rfl⟩ := a1
  rw [last_packet hp] at a2
  obtain ⟨a, b1, b2, b3, b4⟩ := decode_loco p n hn
  rw [addrOf_ok b1] at a2
  have hv : a.value.toNat = n := by rw [b2, BitVec.toNat_ofNat, Nat.mod_eq_of_lt (by omega)]
  have hty : a.type = .short ∨ a.type = .long := by
    rcases b4 with ⟨-, h, -⟩ | ⟨h, -⟩ | ⟨h, -⟩
    · exact absurd h h0
    · exact .inl h
    · exact .inr h
  have key : ∀ (e : Env) (t : Rx), t.addrs.received = a → Speaks e t → Responds t n := by
    intro e t hta hans
    rcases cutout_responds (speaks_cutout hans) with h | h | h
    · rw [hta] at h; rcases hty with h' | h' <;> rw [h'] at h <;> cases h
    · rw [hta] at h; rcases hty with h' | h' <;> rw [h'] at h <;> cases h
    · rw [hta, hv] at h; exact h.2
  exact ⟨key e₁ t₁ a2 ha₁, key e₂ t₂ (hsame ▸ a2) ha₂⟩

/-- Two decoders of different addresses, 3 and 5, that may report for their consist but are in none. -/
def secondEnv : Env := memEnv fun cv =>
  if cv = 0#32 then 5#8 else if cv = 19#32 then 0x80#8 else exampleCvs cv

/-- Both get a packet for locomotive 4, a report to transmit, and an invalid packet. -/
def bothHear : List RxOp :=
  .init :: hears [4#8, 0x3F#8, 0x80#8, 0xBB#8] ++ [.execute 0 0, .datagram [.kmh 50#16]] ++
    lastHalf wrongSum ++ [.receive 58 0]

/-- **C81** is false after an invalid packet: two decoders without consist and with different addresses both
transmit in channel 2, because the address of an invalid packet is taken for 0, and so is that of no
consist. -/
theorem C81_channel2_false : ∃ (t₁ t₂ : Rx), ({} : Rx).run consistChannelEnv bothHear = .ok t₁ ∧
    ({} : Rx).run secondEnv bothHear = .ok t₂ ∧ .disable ∉ bothHear ∧
    NeverFull consistChannelEnv {} bothHear ∧ NeverFull secondEnv {} bothHear ∧
    (ownAddress t₁).value ≠ (ownAddress t₂).value ∧ (∀ n, n ≠ 0 → ¬ (Responds t₁ n ∧ Responds t₂ n)) ∧
    Speaks consistChannelEnv t₁ ∧ Speaks secondEnv t₂ := by
  have key : (match ({} : Rx).run consistChannelEnv bothHear, ({} : Rx).run secondEnv bothHear with
      | .ok t₁, .ok t₂ => decide ((ownAddress t₁).value = 3#16 ∧ (ownAddress t₂).value = 5#16 ∧
        t₁.addrs.consist.value = 0#16 ∧ t₂.addrs.consist.value = 0#16 ∧
        Speaks consistChannelEnv t₁ ∧ Speaks secondEnv t₂)
      | _, _ => false) = true := by decide +kernel
  cases h1 : ({} : Rx).run consistChannelEnv bothHear with
  | error f => rw [h1] at key; cases key
  | ok t₁ =>
    cases h2 : ({} : Rx).run secondEnv bothHear with
    | error f => rw [h1, h2] at key; cases key
    | ok t₂ =>
      rw [h1, h2] at key
      obtain ⟨k1, k2, k3, k4, k5, k6⟩ := of_decide_eq_true key
      refine ⟨t₁, t₂, rfl, rfl, by decide +kernel, by decide +kernel, by decide +kernel, by rw [k1, k2]; decide,
        ?_, k5, k6⟩
      rintro n hn ⟨r1, r2⟩
      unfold Responds at r1 r2
      rw [k1, k3] at r1
      rw [k2, k4] at r2
      have e0 : (0#16).toNat = 0 := rfl
      have e3 : (3#16).toNat = 3 := rfl
      have e5 : (5#16).toNat = 5 := rfl
      omega

/-- **C81** Driving several locomotives: a command station accepted only commands for locomotives, no two
decoders listen to the same address, and each of them gets every duration and is polled in time.  Then
every decoder does exactly what it was told, and a command for a locomotive moves at most one. -/
theorem C81_drive {ι : Type} (n : Nat) (txOps : List TxOp) (h : TxHist)
    (ht : ({ s := {} } : TxHist).run n txOps = .ok h) (cmds : List Command) (hc : ∀ c ∈ cmds, c.Legal)
    (hacc : h.acc.map (fun a => Except.ok a.2) = cmds.map Command.packet)
    (e : ι → Env) (hroom : ∀ i, 2 ≤ (e i).rxDeque) (s : ι → Rx) (hr : ∀ i, Reachable (e i) (s i))
    (hready : ∀ i, Ready (e i) (s i)) (hdist : Distinct fun i => Active (s i))
    (start edge : ι → Nat) (xs : ι → List (Nat × RxOp))
    (hpt : ∀ i, Punctual 5885 (start i) (start i) (edge i) (xs i))
    (hops : ∀ i, ∀ op ∈ calls (xs i), op.isReceive = true ∨ op.isExecute = true)
    (htimes : ∀ i, recvTimes (calls (xs i)) = h.out.map (·.duration)) :
    (∀ i, ∃ s', (s i).run (e i) (calls (xs i)) = .ok s' ∧
      ∃ done waiting unsent : List Command, cmds = done ++ waiting ++ unsent ∧
        drivingCalls (s i) s' = done.flatMap (Command.calls (s i)) ∧ waiting.length ≤ 1 ∧
        (unsent.length = h.s.size n ∨
          unsent.length = h.s.size n + 1 ∧ h.s.packetCount < h.s.current.length)) ∧
    ∀ c ∈ cmds, c.addr.value ≠ 0#16 → ∀ i j, Command.calls (s i) c ≠ [] → Command.calls (s j) c ≠ [] → i = j := by
  refine ⟨fun i => C76_station n txOps h ht cmds hc hacc (e i) (hroom i) (s i) (hr i) (hready i) (start i) (edge i)
    5885 (Nat.le_refl _) (xs i) (hpt i) (hops i) (htimes i), ?_⟩
  intro c _ h0 i j hi hj
  have hz : c.addr.value.toNat ≠ 0 := fun hz => h0 (BitVec.eq_of_toNat_eq hz)
  have key : ∀ i, Command.calls (s i) c ≠ [] → Active (s i) c.addr.value.toNat := by
    intro i hi
    unfold Command.calls at hi
    dsimp only at hi
    split at hi
    · rename_i h; exact h.resolve_left hz
    · exact absurd rfl hi
  exact hdist i j _ hz (key i hi) (key j hj)

/-- **C81** Programming one of several locomotives: the requests are for the address of the decoder `i₀`.  All
of the decoders get all packets, with a cutout after each.  Then the CVs of the others stay as they are, the
station hears the answers of that decoder, and no others answer CV accesses. -/
theorem C81_program_partial {ι : Type} (i₀ : ι) (e : ι → Env) (m : ι → BitVec 32 → Byte)
    (hm : ∀ i, Memory (e i) (m i)) (s s' : ι → Rx) (hr : ∀ i, Reachable (e i) (s i))
    (hs : ∀ i, Settled (m i) (s i)) (hready : ∀ i, Ready (e i) (s i)) (hq : ∀ i, (s i).q.pom = [])
    (a : Address) (ha : LocoAddress a) (h0 : a.value ≠ 0#16) (ht : Talks (mem (m i₀) (s i₀).trace) a)
    (hdist : Distinct fun i n => ownNumber (mem (m i) (s i).trace) = some n)
    (reqs : List PomRequest) (hreqs : ∀ r ∈ reqs, r.Legal) (hch : Changing reqs)
    (hfirst : ∀ r ∈ reqs.head?, .ok (s i₀).lastOwnCvPacket ≠ r.packet a) (ps : List Packet)
    (hps : reqs.flatMap (fun r => List.replicate r.times (r.packet a)) = (ps.filter isPom).map .ok)
    (rs : ι → List Round) (hl : ∀ i, ∀ r ∈ rs i, r.Legal) (hsame : ∀ i, (rs i).map (·.packet) = ps)
    (h : ∀ i, (s i).run (e i) ((rs i).flatMap Round.ops) = .ok (s' i)) :
    (mem (m i₀) (s' i₀).trace = pomCvs (mem (m i₀) (s i₀).trace) reqs ∧
      (sent (inChannel2 .cv) (e i₀) (s i₀) ((rs i₀).flatMap Round.ops)).map understood =
        (pomMessages (mem (m i₀) (s i₀).trace) reqs).map some) ∧
    ∀ i, i ≠ i₀ → mem (m i) (s' i).trace = mem (m i) (s i).trace ∧
      sent (inChannel2 .cv) (e i) (s i) ((rs i).flatMap Round.ops) = [] := by
  have hz : a.value.toNat ≠ 0 := fun hz => h0 (BitVec.eq_of_toNat_eq hz)
  refine ⟨C80_talk_partial (e i₀) (m i₀) (hm i₀) (s i₀) (s' i₀) (hr i₀) (hs i₀) (hready i₀) (hq i₀) a ha ht reqs
    hreqs hch hfirst (rs i₀) (hl i₀) (by rw [hsame]; exact hps) (h i₀), fun i hi => ?_⟩
  obtain ⟨h1, h2⟩ := C80_rounds_partial (e i) (m i) (hm i) (s i) (s' i) (hr i) (hs i) (hready i) (hq i) (rs i)
    (hl i) (h i)
  have hother : (mainDeviceOf (m i) (s i)).hearAll (ps.filter isPom) = (mainDeviceOf (m i) (s i), []) := by
    have hno : ownNumber (mem (m i) (s i).trace) ≠ some a.value.toNat := fun hn =>
      hi (hdist i i₀ a.value.toNat hz hn ht.own)
    have hno : ownNumber (mainDeviceOf (m i) (s i)).cvs ≠ some a.value.toNat := by
      rw [show (mainDeviceOf (m i) (s i)).cvs = mem (m i) (s i).trace from rfl]
      exact hno
    refine hearAll_other (n := a.value.toNat) hz hno (ps.filter isPom) fun p hp => ?_
    have : (Except.ok p : R Packet) ∈ (ps.filter isPom).map .ok := List.mem_map.mpr ⟨p, hp, rfl⟩
    rw [← hps] at this
    obtain ⟨r, hr1, hr2⟩ := List.mem_flatMap.mp this
    have hr3 := (List.eq_of_mem_replicate hr2).symm
    exact (pom_packet ha r.kind r.access (hreqs r hr1).1 hr3).1
  rw [hsame, MainDevice.hearAll_filter, hother] at h1 h2
  exact ⟨h1, List.map_eq_nil_iff.mp h2⟩

/-! ### C81: examples -/

/-- A packet for locomotive 3, with a report to transmit. -/
def hearThree : List RxOp := [.init, .datagram [.kmh 50#16]] ++ hears [3#8, 0x3F#8, 0x80#8, 0xBC#8]

/-- Of the decoders with addresses 3 and 5 the first one answers. -/
example :
    (match ({} : Rx).run exampleEnv hearThree, ({} : Rx).run secondEnv hearThree,
      ({} : Link).run (recvTimes hearThree) with
    | .ok t₁, .ok t₂, .ok (_, os) =>
      decide (.disable ∉ hearThree ∧ NeverFull exampleEnv {} hearThree ∧ NeverFull secondEnv {} hearThree ∧
        (os.filter (· ≠ .start)).getLast? = some (.packet [3#8, 0x3F#8, 0x80#8, 0xBC#8]) ∧
        Speaks exampleEnv t₁ ∧ Responds t₁ 3 ∧ ¬ Speaks secondEnv t₂ ∧ ¬ Responds t₂ 3)
    | _, _, _ => false) = true := by decide +kernel

/-- These two have different addresses, for driving and for programming. -/
example (s : Bool → Rx) (h₁ : ({} : Rx).run exampleEnv [.init] = .ok (s true))
    (h₂ : ({} : Rx).run secondEnv [.init] = .ok (s false)) :
    Distinct fun i => Active (s i) := by
  have key : (match ({} : Rx).run exampleEnv [.init], ({} : Rx).run secondEnv [.init] with
      | .ok t₁, .ok t₂ => decide (t₁.addrs.logon.value = 0#16 ∧ t₂.addrs.logon.value = 0#16 ∧
        t₁.addrs.primary.value.toNat = 3 ∧ t₂.addrs.primary.value.toNat = 5 ∧
        t₁.addrs.consist.value.toNat = 0 ∧ t₂.addrs.consist.value.toNat = 0)
      | _, _ => false) = true := by decide +kernel
  rw [h₁, h₂] at key
  obtain ⟨k1, k2, k3, k4, k5, k6⟩ := of_decide_eq_true key
  intro i j n hn hi hj
  unfold Active at hi hj
  cases i <;> cases j
  · rfl
  · rw [if_pos k2, k4, k6] at hi
    rw [if_pos k1, k3, k5] at hj
    omega
  · rw [if_pos k1, k3, k5] at hi
    rw [if_pos k2, k4, k6] at hj
    omega
  · rfl

/-- The second one does not care about the requests for the first one. -/
example :
    (match ({} : Rx).run secondEnv [.init] with
    | .ok s => decide (s.serviceMode = false ∧ s.deque = [] ∧ s.link.state = .preamble ∧ s.q.pom = []) &&
      (match s.run secondEnv (mainRounds.flatMap Round.ops) with
      | .ok s' => decide (sent (inChannel2 .cv) secondEnv s (mainRounds.flatMap Round.ops) = [] ∧
          mem exampleCvs s'.trace 2#32 = 0#8)
      | .error _ => false)
    | .error _ => false) = true := by decide +kernel

end Dcc
