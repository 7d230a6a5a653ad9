import Verif.Lemmas.TxIdle
import Verif.Lemmas.RxHeard
import Verif.Lemmas.RxPolling
import Verif.Spec.Repl
/-! The example program. -/
namespace Dcc

open Spec

/-- The durations a station returns. -/
theorem out_duration {n : Nat} {ops : List TxOp} {h : TxHist} (ht : ({ s := {} } : TxHist).run n ops = .ok h)
    (hv : ∀ a ∈ h.acc, ValidPacket a.2) : ∀ o ∈ h.out, o.duration ≤ 261 := by
  obtain ⟨done, cur, i⟩ := TxInv.reachable ops h ht
  obtain ⟨gs, c, rest, hout, hok, -⟩ := inv_track (fun _ h => h) i hv
  intro o ho
  rw [hout] at ho
  obtain ⟨g, hg, ho⟩ := List.mem_flatMap.mp ho
  obtain ⟨h1, ⟨cf, hcf, hp, hw⟩, -⟩ := hok g hg
  rcases List.mem_append.mp ho with ho | ho
  · have h2 : o.duration ∈ g.1.halves.map (·.duration) := List.mem_map_of_mem ho
    rw [halves_times h1] at h2
    have h3 := List.mem_of_mem_take h2
    rw [hw] at h3
    rcases wave_halves cf hcf _ _ h3 with h4 | h4 <;> omega
  · have h2 : o.duration ∈ g.1.cut.map (·.duration) := List.mem_map_of_mem ho
    rw [cut_times h1] at h2
    have h3 := List.mem_of_mem_take h2
    simp only [cutTimes, List.mem_cons, List.not_mem_nil, or_false] at h3
    omega

/-- The packets of the prompt are those of the commands asked for. -/
theorem locoAddress_legal {a : BitVec 16} (h : a.toNat ≤ 127) : LocoAddress (locoAddress a) := by
  unfold locoAddress
  split
  · exact .inl ⟨rfl, rfl⟩
  · rename_i h0
    exact .inr (.inl ⟨rfl, by simp only; omega, h⟩)

theorem addressed_loco {a : BitVec 16} (h : a.toNat ≤ 127) (bs : List Byte) :
    addressed { value := a, type := .short } bs = addressed (locoAddress a) bs := by
  unfold locoAddress
  split
  · rename_i h0
    have : a = 0#16 := BitVec.eq_of_toNat_eq h0
    subst this
    rfl
  · rfl

theorem speed_byte (dir : Bool) (speed : Byte) (h : speed.toNat ≤ 127) :
    (BitVec.ofBool dir).setWidth 8 <<< 7 ||| speed =
      BitVec.ofNat 8 ((if dir then 128 else 0) + speed.toNat) := by
  have key : ∀ (dir : Bool) (speed : Byte), speed.toNat ≤ 127 → (BitVec.ofBool dir).setWidth 8 <<< 7 ||| speed =
      BitVec.ofNat 8 ((if dir then 128 else 0) + speed.toNat) := by decide +kernel
  exact key dir speed h

/-- The state between two steps. -/
structure ReplInv (s : ReplLine) (a : BitVec 16) (ops : List TxOp) (cmds : List Command) : Prop where
  tx : ({ s := {} } : TxHist).run replDeque (.init replConfig :: ops) = .ok s.tx
  addr : s.addr = { value := a, type := .short }
  short : a.toNat ≤ 127
  legal : ∀ c ∈ cmds, c.Legal
  packets : (s.tx.acc.map (·.2) ++ s.fifo).map Except.ok = cmds.map Command.packet
  room : s.fifo.length + s.tx.s.size replDeque ≤ 3

theorem ReplInv.valid {s a ops cmds} (i : ReplInv s a ops cmds) :
    (∀ x ∈ s.tx.acc, ValidPacket x.2) ∧ ∀ p ∈ s.fifo, ValidPacket p := by
  have key : ∀ p ∈ s.tx.acc.map (·.2) ++ s.fifo, ValidPacket p := by
    intro p hp
    have : (Except.ok p : R Packet) ∈ cmds.map Command.packet := by
      rw [← i.packets]; exact List.mem_map_of_mem hp
    obtain ⟨c, hm, hcp⟩ := List.mem_map.mp this
    exact Command.valid (i.legal c hm) hcp
  exact ⟨fun x hx => key _ (List.mem_append_left _ (List.mem_map_of_mem hx)),
    fun p hp => key p (List.mem_append_right _ hp)⟩

/-- A command is entered. -/
theorem ReplInv.push {s a ops cmds} (i : ReplInv s a ops cmds) (c : Command) (hc : c.Legal)
    (s' : ReplLine) (h : s.push 1 c.packet = .ok s')
    (hroom : s'.fifo.length + s'.tx.s.size replDeque ≤ 3) : ReplInv s' a ops (cmds ++ [c]) := by
  rw [ReplLine.push, bind_eq_ok] at h
  obtain ⟨p, hp, h⟩ := h
  simp only [pure_eq_ok, Except.ok.injEq] at h
  subst h
  refine ⟨i.tx, i.addr, i.short, ?_, ?_, hroom⟩
  · intro x hx
    rcases List.mem_append.mp hx with hx | hx
    · exact i.legal x hx
    · rw [List.mem_singleton.mp hx]; exact hc
  · have := i.packets
    simp only [List.map_append, List.replicate_one, List.map_cons, List.map_nil] at this ⊢
    rw [hp, ← this]
    simp

/-- The station's thread without the decoder. -/
theorem ReplInv.station {s a ops cmds} (i : ReplInv s a ops cmds) :
    ∃ s1 d s2 ops' o, s.transmit = .ok (s1, d) ∧ s1.feed = .ok s2 ∧ d ≤ 261 ∧
      ReplInv s2 a (ops ++ ops') cmds ∧ s2.tx.out = s.tx.out ++ [o] ∧ o.duration = d := by
  obtain ⟨done, cur, inv⟩ := TxInv.reachable _ _ i.tx
  obtain ⟨h2, d2, c2, e2, i2, hq⟩ := inv.transmit
  have hs := e2
  simp only [TxHist.step] at hs
  rw [bind_eq_ok] at hs
  obtain ⟨⟨t, o⟩, ht, hs⟩ := hs
  simp only [pure_eq_ok, Except.ok.injEq] at hs
  subst hs
  have h1 : s.transmit = .ok ({ s with tx := { s.tx with s := t, out := s.tx.out ++ [o] } }, o.duration) := by
    rw [ReplLine.transmit, ht]; rfl
  have htx : ({ s := {} } : TxHist).run replDeque (.init replConfig :: ops ++ [.transmit]) =
      .ok { s.tx with s := t, out := s.tx.out ++ [o] } := by
    rw [TxHist.run_append _ _ i.tx, TxHist.run, e2]; rfl
  have hd : o.duration ≤ 261 := out_duration htx i.valid.1 o (by simp)
  have hsize : t.size replDeque ≤ s.tx.s.size replDeque := by
    rw [← Tx.queue_length, ← Tx.queue_length]
    rcases hq with ⟨-, -, hq⟩ | ⟨-, -, -, hq⟩
    · simp only at hq; rw [hq]; omega
    · simp only at hq; rw [hq, List.length_tail]; omega
  cases hf : s.fifo with
  | nil =>
    refine ⟨_, _, { s with tx := { s.tx with s := t, out := s.tx.out ++ [o] } }, [.transmit], o, h1, ?_, hd,
      ⟨htx, i.addr, i.short, i.legal, i.packets, ?_⟩, rfl, rfl⟩
    · simp [ReplLine.feed, hf]
    · have := i.room
      simp only
      omega
  | cons p ps =>
    have hroom := i.room
    rw [hf, List.length_cons] at hroom
    have hnf : t.full replDeque = false := by
      simp only [Tx.full, replDeque, beq_eq_false_iff_ne, ne_eq] at hsize hroom ⊢
      omega
    have hlen : p.length ≤ maxPacketSize := by
      exact (i.valid.2 p (by rw [hf]; exact List.mem_cons_self)).max
    have hb : ({ s.tx with s := t, out := s.tx.out ++ [o] } : TxHist).step replDeque (.bytes p) =
        .ok { s := t.pushBack replDeque (Spec.packetWave t.cfg p), out := s.tx.out ++ [o],
              acc := s.tx.acc ++ [(t.cfg, p)] } := by
      simp only [TxHist.step, Tx.bytes, hnf, Bool.false_eq_true, if_false]
      rw [if_pos hlen, bytes2timings_ok _ _ hlen]
      rfl
    obtain ⟨-, hpq, -⟩ := Tx.pushBack_ok i2.ring hnf (Spec.packetWave t.cfg p)
    refine ⟨_, _, { s with
        tx := { s := t.pushBack replDeque (Spec.packetWave t.cfg p), out := s.tx.out ++ [o],
                acc := s.tx.acc ++ [(t.cfg, p)] },
        fifo := ps }, [.transmit, .bytes p], o, h1, ?_, hd,
      ⟨?_, i.addr, i.short, i.legal, ?_, ?_⟩, rfl, rfl⟩
    · simp only [ReplLine.feed, hf, hb]
      rfl
    · have : (TxOp.init replConfig :: (ops ++ [.transmit, .bytes p])) =
          (.init replConfig :: ops ++ [.transmit]) ++ [.bytes p] := by simp
      rw [this, TxHist.run_append _ _ htx, TxHist.run, hb]
      rfl
    · rw [← i.packets, hf]
      simp
    · have : (t.pushBack replDeque (Spec.packetWave t.cfg p)).size replDeque = t.size replDeque + 1 := by
        rw [← Tx.queue_length, hpq, List.length_append, Tx.queue_length]; rfl
      simp only
      rw [this]
      omega

/-- A step of the prompt. -/
theorem ReplInv.input {s a ops cmds} (i : ReplInv s a ops cmds) (x : ReplInput)
    (hx : DrivesShort (.input x)) :
    ∃ s' a' new, s.input x = .ok s' ∧ s'.tx = s.tx ∧
      (∀ xs, entered a (.input x :: xs) = new ++ entered a' xs) ∧
      (s'.fifo.length + s'.tx.s.size replDeque ≤ 3 → ReplInv s' a' ops (cmds ++ new)) := by
  have hcmd : ∀ (call : AddressedCall) (bs : List Byte), call.Driving →
      (∀ ad, call.run ad = addressed ad bs) →
      (∃ p, addressed { value := a, type := .short } bs = .ok p) →
      s.input x = s.push 1 (addressed s.addr bs) →
      (∀ xs, entered a (.input x :: xs) = ⟨locoAddress a, call⟩ :: entered a xs) →
      ∃ s' a' new, s.input x = .ok s' ∧ s'.tx = s.tx ∧
      (∀ xs, entered a (.input x :: xs) = new ++ entered a' xs) ∧
      (s'.fifo.length + s'.tx.s.size replDeque ≤ 3 → ReplInv s' a' ops (cmds ++ new)) := by
    intro call bs hd hrun hok hin hen
    have hl : Command.Legal ⟨locoAddress a, call⟩ := ⟨locoAddress_legal i.short, hd⟩
    have hpk : Command.packet ⟨locoAddress a, call⟩ = addressed s.addr bs := by
      rw [Command.packet, hrun, i.addr, addressed_loco i.short]
    obtain ⟨p, hp⟩ : ∃ p, addressed s.addr bs = .ok p := by rw [i.addr]; exact hok
    have hs : s.push 1 (addressed s.addr bs) = .ok { s with fifo := s.fifo ++ [p] } := by
      rw [ReplLine.push, hp]; rfl
    refine ⟨_, a, [⟨locoAddress a, call⟩], hin.trans hs, rfl, hen, fun hroom => ?_⟩
    exact i.push _ hl _ (by rw [hpk]; exact hs) hroom
  cases x with
  | address a' =>
    refine ⟨{ s with addr := { s.addr with value := a' } }, a', [], rfl, rfl, fun _ => rfl, fun hroom => ?_⟩
    rw [List.append_nil]
    exact ⟨i.tx, by simp only [i.addr], hx, i.legal, i.packets, hroom⟩
  | directionSpeed dir speed =>
    refine hcmd (.advancedSpeed (BitVec.ofNat 8 ((if dir then 128 else 0) + speed.toNat))) _ trivial
      (fun _ => rfl) ⟨_, rfl⟩ ?_ (fun _ => rfl)
    rw [ReplLine.input, speed_byte dir speed hx, makeAdvancedSpeedPacket]
  | f4f0 state => exact hcmd (.f4f0 state) _ trivial (fun _ => rfl) ⟨_, rfl⟩ rfl (fun _ => rfl)
  | f8f5 state => exact hcmd (.f8f5 state) _ trivial (fun _ => rfl) ⟨_, rfl⟩ rfl (fun _ => rfl)
  | readCvByte => exact hx.elim
  | writeCvByte => exact hx.elim
  | readCvBit => exact hx.elim
  | writeCvBit => exact hx.elim

/-- A session as calls of the decoder with their times. -/
theorem repl_run (e : Env) (steps : List ReplStep) : ∀ (l : ReplLine) (a : BitVec 16) (ops : List TxOp)
    (cmds : List Command) (k now last : Nat), ReplInv l a ops cmds → (∀ x ∈ steps, DrivesShort x) →
    Paced k steps → Patient l steps → now ≤ last + k * 261 → k ≤ 20 →
    ∃ l' a' ops' xs outs, ReplInv l' a' ops' (cmds ++ entered a steps) ∧
      Punctual 5885 now last now xs ∧
      (∀ op ∈ calls xs, op.isReceive = true ∨ op.isExecute = true) ∧
      l'.tx.out = l.tx.out ++ outs ∧ recvTimes (calls xs) = outs.map (·.duration) ∧
      ∀ rx rx', rx.run e (calls xs) = .ok rx' →
        Repl.run e { line := l, rx := rx, handler := true } steps =
          .ok { line := l', rx := rx', handler := true } := by
  induction steps with
  | nil =>
    intro l a ops cmds k now last i _ _ _ _ _
    refine ⟨l, a, ops, [], [], by rw [entered, List.append_nil]; exact i, trivial, nofun, by simp, rfl, ?_⟩
    intro rx rx' h
    cases h
    rfl
  | cons x steps ih =>
    intro l a ops cmds k now last i hdr hpc hpt hnow hk
    have hx := hdr x List.mem_cons_self
    have hdr' : ∀ x ∈ steps, DrivesShort x := fun y hy => hdr y (List.mem_cons_of_mem _ hy)
    cases x with
    | decoder => exact hx.elim
    | input x =>
      obtain ⟨l1, a1, new, h1, htx, hen, hi⟩ := i.input x hx
      obtain ⟨hroom, hpt'⟩ := hpt l1 h1
      obtain ⟨l', a', ops', xs, outs, j1, j2, j3, j4, j5, j6⟩ :=
        ih l1 a1 ops _ k now last (hi hroom) hdr' hpc hpt' hnow hk
      refine ⟨l', a', ops', xs, outs, by rw [hen, ← List.append_assoc]; exact j1, j2, j3,
        by rw [j4, htx], j5, fun rx rx' h => ?_⟩
      rw [Repl.run, Repl.step, h1]
      exact j6 rx rx' h
    | execute t r =>
      obtain ⟨l', a', ops', xs, outs, j1, j2, j3, j4, j5, j6⟩ :=
        ih l a ops cmds 0 now now i hdr' hpc hpt (by omega) (by omega)
      refine ⟨l', a', ops', (now, .execute t r) :: xs, outs, j1, ⟨Nat.le_refl _, by omega, j2⟩, ?_, j4, j5,
        fun rx rx' h => ?_⟩
      · intro op hop
        rcases List.mem_cons.mp hop with rfl | hop
        · exact .inr rfl
        · exact j3 op hop
      · rw [calls, List.map_cons, Rx.run, bind_eq_ok] at h
        obtain ⟨rx1, h1, h2⟩ := h
        rw [Repl.run, Repl.step, h1]
        exact j6 rx1 rx' h2
    | station r =>
      obtain ⟨l1, d, l2, ops1, o, e1, e2, hd, i2, ho, hod⟩ := i.station
      have hpt' := hpt l1 d l2 e1 e2
      obtain ⟨hk1, hpc'⟩ := hpc
      obtain ⟨l', a', ops', xs, outs, j1, j2, j3, j4, j5, j6⟩ :=
        ih l2 a _ cmds (k + 1) (now + d) last i2 hdr' hpc' hpt' (by omega) (by omega)
      refine ⟨l', a', ops', (now + d, .receive d r) :: xs, o :: outs, j1,
        ⟨by omega, by omega, Nat.le_refl _, j2⟩, ?_, by rw [j4, ho]; simp, ?_, fun rx rx' h => ?_⟩
      · intro op hop
        rcases List.mem_cons.mp hop with rfl | hop
        · exact .inl rfl
        · exact j3 op hop
      · simp only [calls, List.map_cons, recvTimes, List.filterMap_cons] at j5 ⊢
        rw [j5, hod]
      · rw [calls, List.map_cons, Rx.run, bind_eq_ok] at h
        obtain ⟨rx1, h1, h2⟩ := h
        rw [Repl.run, Repl.step]
        simp only [e1, ok_bind, h1, e2, if_true]
        exact j6 rx1 rx' h2

end Dcc
