import Verif.Lemmas.RxCvWrites
import Verif.Spec.Memory
/-! CV access: C39, C40, C66. -/
namespace Dcc
open Spec

/-! ### C39 -/

/-- **C39** What executing a long form CV packet in operations mode does, for every history: besides
the stores of a logon that wait from before and the reading of the configuration after a write, it
makes exactly the calls of the action that belongs to the number of times the packet has been
executed in a row among the decoder's CV packets: verifying on each of them, writing on the second
only. -/
theorem C39_cv_access_on_main (e : Env) (ops : List RxOp) (s s' : Rx) (now : Int) (rand : Nat)
    (ret : Bool) (p : Packet) (hr : ({} : Rx).run e ops = .ok s)
    (hm : s.serviceMode = false) (hf : front s = some p) (hc : cvRequest s p = true)
    (hl : ∀ b, (afterAddress p).head? = some b → b.toNat < 240) (h3 : 3 ≤ (afterAddress p).length)
    (h : s.execute e now rand = .ok (s', ret)) :
    ∃ stores quiet, LogonStores s stores ∧ (∀ ev ∈ quiet, ev.isQuiet = true) ∧
      s'.trace = s.trace ++ stores ++ actionCalls e (s.trace ++ stores) false s.cfg.cvsLocked
        (longAction (repeats (cvHistory e {} ops ++ [p])) (afterAddress p)) ++ quiet := by
  have hr' := Reachable.of_run hr
  obtain ⟨stores, quiet, h1, h2, h4, -⟩ :=
    execute_cvLong e s s' now rand ret p hr'.lengths hm hf hc hl h3 h
  rw [count_snoc e ops s hr p (cvRequest_ne_nil hc)] at h4
  exact ⟨stores, quiet, h1, h2, h4⟩

/-- **C39** In particular a write is performed exactly on the second of identical packets in a row
(unless the decoder is locked): one packet alone never writes, further ones never write again, and a
verify never writes. -/
theorem C39_writes_exactly_on_second (e : Env) (ops : List RxOp) (s s' : Rx) (now : Int) (rand : Nat)
    (ret : Bool) (p : Packet) (k : Kind) (a : Access) (hr : ({} : Rx).run e ops = .ok s)
    (hm : s.serviceMode = false) (hf : front s = some p) (hc : cvRequest s p = true)
    (hl : ∀ b, (afterAddress p).head? = some b → b.toNat < 240)
    (hq : longRequest (afterAddress p) = some (k, a))
    (h : s.execute e now rand = .ok (s', ret)) :
    ∃ stores, LogonStores s stores ∧ writes s'.trace = writes s.trace ++ writes stores ++
      (if k = .write ∧ repeats (cvHistory e {} ops ++ [p]) = 2 ∧ permitted s.cfg.cvsLocked .write a = true
        then [a] else []) := by
  have h3 : 3 ≤ (afterAddress p).length := by
    generalize afterAddress p = bs at hq
    obtain _ | ⟨b0, _ | ⟨b1, _ | ⟨b2, rest⟩⟩⟩ := bs
    · cases hq
    · cases hq
    · cases hq
    · simp
  obtain ⟨stores, quiet, h1, h2, h4⟩ :=
    C39_cv_access_on_main e ops s s' now rand ret p hr hm hf hc hl h3 h
  refine ⟨stores, h1, ?_⟩
  obtain ⟨hcv, hpos⟩ := longRequest_range hq
  rw [h4, writes_append, writes_append, writes_append, writes_quiet h2, List.append_nil]
  congr 1
  generalize repeats (cvHistory e {} ops ++ [p]) = n
  unfold longAction
  rw [hq]
  have hv : ∀ (a : Access), a.cv < 1024 → (∀ cv b pos, a = .bit cv b pos → pos < 8) →
      writes (actionCalls e (s.trace ++ stores) false s.cfg.cvsLocked (some (.verify, a))) = [] := by
    intro a h1 h2
    unfold actionCalls
    dsimp only
    split
    · rw [writes_accessCalls _ _ _ _ _ h1 h2]; rfl
    · rfl
  have hw : writes (actionCalls e (s.trace ++ stores) false s.cfg.cvsLocked (some (.write, a))) =
      if permitted s.cfg.cvsLocked .write a = true then [a] else [] := by
    unfold actionCalls
    dsimp only
    split
    · rw [writes_accessCalls _ _ _ _ _ hcv hpos]; rfl
    · rfl
  cases k with
  | verify =>
    dsimp only
    rw [hv a hcv hpos, if_neg (by simp)]
  | write =>
    by_cases hn : n = 2
    · cases a <;> dsimp only <;> rw [if_pos hn, hw] <;> simp [hn]
    · rw [if_neg (by simp [hn])]
      cases a with
      | byte cv b =>
        dsimp only
        rw [if_neg hn]
        split
        · rfl
        · exact hv _ hcv nofun
      | bit cv b pos =>
        dsimp only
        rw [if_neg hn]
        rfl

/-- A decoder with address 3 executes a CV packet (write 7 to CV23) twice; before the second time
the hypotheses of the theorems hold and the packet has been executed once. -/
example : holdsAfter (({} : Rx).run exampleEnv (.init ::
      hears [3#8, 0xEC#8, 22#8, 7#8, 0xFE#8] ++ [.execute 0 0] ++ hears [3#8, 0xEC#8, 22#8, 7#8, 0xFE#8]))
    (fun s => decide (s.serviceMode = false ∧ front s = some [3#8, 0xEC#8, 22#8, 7#8, 0xFE#8] ∧
      cvRequest s [3#8, 0xEC#8, 22#8, 7#8, 0xFE#8] = true ∧
      longRequest (afterAddress [3#8, 0xEC#8, 22#8, 7#8, 0xFE#8]) = some (.write, .byte 22 7#8))) &&
    decide (repeats (cvHistory exampleEnv {} (.init ::
      hears [3#8, 0xEC#8, 22#8, 7#8, 0xFE#8] ++ [.execute 0 0] ++
      hears [3#8, 0xEC#8, 22#8, 7#8, 0xFE#8]) ++ [[3#8, 0xEC#8, 22#8, 7#8, 0xFE#8]]) = 2) = true := by
  decide +kernel

/-- The packet has a consist control instruction. -/
def Spec.isConsistControl (p : Packet) : Bool :=
  (afterAddress p).head?.any (fun b => 16 ≤ b.toNat && b.toNat < 32)

/-- Besides the stores of automatic logon, no other packet than a CV packet for the decoder or a consist
control packet makes calls that read or write a CV. -/
theorem plain_calls (e : Env) (s s' : Rx) (hr : Reachable e s) (now : Int) (rand : Nat)
    (ret : Bool) (p : Packet) (hm : s.serviceMode = false) (hf : front s = some p)
    (hc : cvRequest s p = false) (hn : isConsistControl p = false)
    (h : s.execute e now rand = .ok (s', ret)) :
    ∃ calls, s'.trace = (s.prepared e now).trace ++ calls ∧
      ∀ ev ∈ calls, ev.isWrite = false ∧ ev.isVerify = false := by
  obtain ⟨m1, m2, m3⟩ := prepared_modes e s now
  cases exec_cases e s s' now rand ret hr.lengths h with
  | idle h _ _ => obtain ⟨h1, r, h2⟩ := front_eq.mp hf; rcases h with h | h <;> simp_all
  | foreign q rest hp hd hm' hfd hs' _ =>
    exact ⟨[], by rw [hs', List.append_nil]; rfl, by simp⟩
  | service q rest s2 hp hd hm' _ _ => rw [hm] at hm'; cases hm'
  | operations q rest n s2 hp hd hm' hn' ha h hs' _ =>
    have hfr := front_eq.mpr ⟨hp, rest, hd⟩
    rw [hf] at hfr; cases hfr
    have hs2 : s'.trace = s2.trace := by rw [hs']; rfl
    rw [hs2]
    obtain ⟨b, hb, hi⟩ := instruction_cases e _ s2 _ p _ rand h
    rw [cvRequest_operations s p n b hm hn' ha hb] at hc
    unfold isConsistControl at hn
    rw [hb] at hn
    simp only [Option.any_some, Bool.and_eq_false_iff, decide_eq_false_iff_not, Bool.not_eq_false',
      decide_eq_true_eq] at hn hc
    have nothing : s2.trace = (s.prepared e now).trace → ∃ calls,
        s2.trace = (s.prepared e now).trace ++ calls ∧
          ∀ ev ∈ calls, ev.isWrite = false ∧ ev.isVerify = false :=
      fun h => ⟨[], by rw [h, List.append_nil], by simp⟩
    cases hi with
    | enter _ hb h => exact ⟨[.serviceModeHook true], by rw [h]; rfl, by decide⟩
    | control hd' _ h => exact nothing (by rw [h])
    | consist hd' _ =>
      have : 16 ≤ b.toNat ∧ b.toNat < 32 := by
        clear hb hn hc
        revert b; decide +kernel
      omega
    | drives hd' h =>
      obtain ⟨evs, m, rfl, hq⟩ := h
      refine ⟨evs, rfl, fun ev hev => ?_⟩
      have := hq ev hev
      cases ev <;> first | (cases this; done) | exact ⟨rfl, rfl⟩
    | searches hd' _ _ h => obtain ⟨b, q, rfl⟩ := h; exact nothing rfl
    | cvShort hd' h =>
      have h2 := (decode_cv b).2.mp hd'
      unfold Rx.cvShort at h
      rw [if_pos (by rw [m3]; exact hc.resolve_right (by omega))] at h
      cases h
      exact nothing rfl
    | cvLong hd' h =>
      have h2 := ((decode_cv b).1.mp hd').1
      unfold Rx.cvLong at h
      rw [if_pos (by rw [m3]; exact hc.resolve_right (by omega))] at h
      cases h
      exact nothing rfl

/-- **C39** In operations mode no other packet than a CV packet for the decoder or a consist control
packet reads or writes a CV. -/
theorem C39_only_cv_packets (e : Env) (s s' : Rx) (hr : Reachable e s) (now : Int) (rand : Nat)
    (ret : Bool) (p : Packet) (hm : s.serviceMode = false) (hf : front s = some p)
    (hc : cvRequest s p = false) (hn : isConsistControl p = false)
    (h : s.execute e now rand = .ok (s', ret)) :
    ∃ stores calls, LogonStores s stores ∧ s'.trace = s.trace ++ stores ++ calls ∧
      ∀ ev ∈ calls, ev.isWrite = false ∧ ev.isVerify = false := by
  obtain ⟨stores, ht, hs⟩ := prepared_trace e s now
  obtain ⟨calls, h1, h2⟩ := plain_calls e s s' hr now rand ret p hm hf hc hn h
  exact ⟨stores, calls, hs, by rw [h1, ht], h2⟩

/-- The hypotheses hold for a speed command. -/
example : holdsAfter (({} : Rx).run exampleEnv (.init :: hears [3#8, 0x6A#8, 0x69#8])) (fun s =>
    decide (s.serviceMode = false ∧ front s = some [3#8, 0x6A#8, 0x69#8] ∧
      cvRequest s [3#8, 0x6A#8, 0x69#8] = false ∧ isConsistControl [3#8, 0x6A#8, 0x69#8] = false)) =
    true := by decide +kernel

/-! ### C40 -/

/-- **C40** What executing a direct mode packet in service mode does, for every history: the calls
of the access it asks for if it is the second identical one in a row, nothing otherwise (besides the
stores of a logon and the reading of the configuration after a write). -/
theorem C40_direct_mode (e : Env) (ops : List RxOp) (s s' : Rx) (now : Int) (rand : Nat)
    (ret : Bool) (p : Packet) (hr : ({} : Rx).run e ops = .ok s)
    (hm : s.serviceMode = true) (hf : front s = some p) (hc : cvRequest s p = true)
    (h : s.execute e now rand = .ok (s', ret)) :
    ∃ stores quiet, LogonStores s stores ∧ (∀ ev ∈ quiet, ev.isQuiet = true) ∧
      s'.trace = s.trace ++ stores ++ actionCalls e (s.trace ++ stores) true s.cfg.cvsLocked
        (directAction (repeats (cvHistory e {} ops ++ [p])) p) ++ quiet := by
  have hr' := Reachable.of_run hr
  obtain ⟨stores, quiet, h1, h2, h4, -⟩ := execute_direct e s s' now rand ret p hr'.lengths hm hf hc h
  rw [count_snoc e ops s hr p (cvRequest_ne_nil hc)] at h4
  exact ⟨stores, quiet, h1, h2, h4⟩

/-- The run of calls of `execute` at these times. -/
def Spec.executes (times : List (Int × Nat)) : List RxOp := times.map fun t => .execute t.1 t.2

theorem executes_again (e : Env) (p : Packet) (times : List (Int × Nat)) : ∀ (s s' : Rx)
    (rest : List Packet), Reachable e s → s.serviceMode = true → s.packetEnd = false →
    s.logon.store = false → s.deque = List.replicate times.length p ++ rest →
    p.length = 4 → (∃ b, p.head? = some b ∧ 112 ≤ b.toNat ∧ b.toNat ≤ 127) →
    s.lastOwnCvPacket = p → 2 ≤ s.ownEqualCvPackets →
    s.run e (executes times) = .ok s' → s'.trace = s.trace := by
  induction times with
  | nil => intro s s' rest _ _ _ _ _ _ _ _ _ h; cases h; rfl
  | cons t times ih =>
    intro s s' rest hr hm hp hs hd hl hb hlast hcount h
    simp only [executes, List.map_cons, Rx.run, bind_eq_ok] at h
    obtain ⟨s1, h1, h2⟩ := h
    have hr1 : Reachable e s1 := .step _ hr h1
    simp only [Rx.step, bind_eq_ok] at h1
    obtain ⟨⟨s2, ret⟩, h1, h3⟩ := h1
    cases h3
    rw [List.length_cons, List.replicate_succ, List.cons_append] at hd
    have hf : front s = some p := front_eq.mpr ⟨hp, _, hd⟩
    have hc : cvRequest s p = true := by
      obtain ⟨b, hb1, hb2⟩ := hb
      unfold cvRequest
      rw [hm, if_pos rfl, decide_eq_true hl, hb1]
      simp [hb2]
    obtain ⟨f1, f2, f3, f4⟩ := direct_frame e s s2 t.1 t.2 ret p hr.lengths hm hf hc h1
    obtain ⟨stores, quiet, g1, g2, g3, g4⟩ := execute_direct e s s2 t.1 t.2 ret p hr.lengths hm hf hc h1
    have hcount' := execute_count e s s2 t.1 t.2 ret hr.lengths h1
    rw [hf] at hcount'
    simp only [Option.toList_some, List.filter_cons, hc, if_true, List.filter_nil, List.foldl_cons,
      List.foldl_nil] at hcount'
    have hcp : countPacket s.cvCount p = (p, s.ownEqualCvPackets + 1) := by
      unfold countPacket Rx.cvCount
      simp [hlast]
    rw [hcp] at hcount' g3 g4
    have hn : directAction (s.ownEqualCvPackets + 1) p = none := by
      unfold directAction; rw [if_neg (by omega)]
    dsimp only at g3 g4
    rw [hn] at g3 g4
    rw [g1.none hs, g4 rfl] at g3
    simp only [actionCalls, List.append_nil] at g3
    have hk := congrArg Prod.snd hcount'
    have hk1 := congrArg Prod.fst hcount'
    simp only [Rx.cvCount] at hk hk1
    rw [← g3]
    refine ih s2 s' rest hr1 ?_ ?_ f4 ?_ hl hb hk1 (by omega) h2
    · rw [(serviceMode_iff s2).1, f1, ← (serviceMode_iff s).1]; exact hm
    · unfold Rx.packetEnd at hp ⊢; rw [f2]; exact hp
    · rw [f3, hd]; rfl

/-- **C40** A run of `n` identical direct mode packets (the CV packet executed before it, if any,
was a different one): no call at all for `n < 2`, otherwise exactly the calls of one access, followed
by reading the configuration if that was a write.  Locked decoders act only on CV15. -/
theorem C40_run (e : Env) (ops : List RxOp) (s s' : Rx) (p : Packet) (rest : List Packet)
    (times : List (Int × Nat)) (hr : ({} : Rx).run e ops = .ok s)
    (hm : s.serviceMode = true) (hp : s.packetEnd = false) (hs : s.logon.store = false)
    (hl : p.length = 4) (hb : ∃ b, p.head? = some b ∧ 112 ≤ b.toNat ∧ b.toNat ≤ 127)
    (hd : s.deque = List.replicate times.length p ++ rest)
    (hlast : (cvHistory e {} ops).getLast? ≠ some p)
    (h : s.run e (executes times) = .ok s') :
    ∃ quiet, (∀ ev ∈ quiet, ev.isQuiet = true) ∧ s'.trace = s.trace ++
      (if 2 ≤ times.length then
        actionCalls e s.trace true s.cfg.cvsLocked (longRequest p) ++ quiet else []) := by
  have hne : p ≠ [] := by rintro rfl; simp at hl
  have hr' := Reachable.of_run hr
  have hcr : ∀ s : Rx, s.serviceMode = true → cvRequest s p = true := by
    intro s hm
    obtain ⟨b, hb1, hb2⟩ := hb
    unfold cvRequest
    rw [hm, if_pos rfl, decide_eq_true hl, hb1]
    simp [hb2]
  obtain _ | ⟨t, times⟩ := times
  · cases h
    exact ⟨[], by simp, by simp⟩
  -- the first packet
  simp only [executes, List.map_cons, Rx.run, bind_eq_ok] at h
  obtain ⟨s1, h1, h2⟩ := h
  have hr1 : Reachable e s1 := .step _ hr' h1
  simp only [Rx.step, bind_eq_ok] at h1
  obtain ⟨⟨s2, ret⟩, h1, h3⟩ := h1
  cases h3
  rw [List.length_cons, List.replicate_succ, List.cons_append] at hd
  have hf : front s = some p := front_eq.mpr ⟨hp, _, hd⟩
  have hc := hcr s hm
  obtain ⟨f1, f2, f3, f4⟩ := direct_frame e s s2 t.1 t.2 ret p hr'.lengths hm hf hc h1
  obtain ⟨stores, quiet, g1, g2, g3, g4⟩ := execute_direct e s s2 t.1 t.2 ret p hr'.lengths hm hf hc h1
  have hcount' := execute_count e s s2 t.1 t.2 ret hr'.lengths h1
  rw [hf] at hcount'
  simp only [Option.toList_some, List.filter_cons, hc, if_true, List.filter_nil, List.foldl_cons,
    List.foldl_nil] at hcount'
  have hcp : countPacket s.cvCount p = (p, 1) := by
    rw [count_of_history e ops s hr]
    unfold countPacket
    dsimp only
    rw [if_neg]
    cases hg : (cvHistory e {} ops).getLast? with
    | none => exact fun h => hne h.symm
    | some q => rw [hg] at hlast; simpa using hlast
  rw [hcp] at hcount' g3 g4
  have hn : directAction 1 p = none := rfl
  dsimp only at g3 g4
  rw [hn] at g3 g4
  rw [g1.none hs, g4 rfl] at g3
  simp only [actionCalls, List.append_nil] at g3
  have hm2 : s2.serviceMode = true := by
    rw [(serviceMode_iff s2).1, f1, ← (serviceMode_iff s).1]; exact hm
  have hp2 : s2.packetEnd = false := by unfold Rx.packetEnd at hp ⊢; rw [f2]; exact hp
  have hd2 : s2.deque = List.replicate times.length p ++ rest := by rw [f3, hd]; rfl
  have hl2 : s2.cfg = s.cfg := by
    have hi : s.execute e t.1 t.2 = .ok (s2, ret) := h1
    cases exec_cases e s s2 t.1 t.2 ret hr'.lengths hi with
    | idle h _ _ => rcases h with h | h <;> simp_all
    | foreign q rest hp hd hm' hfd _ _ => rw [hm] at hm'; cases hm'
    | operations q rest n s2 hp hd hm' hn ha h hs' _ => rw [hm] at hm'; cases hm'
    | service q rest s3 hp hd' hm' h hs' =>
      rw [hd] at hd'; cases hd'
      cases (service_cases e _ s3 p ret h).1 with
      | ignored _ hs2 => rw [hs', hs2]; exact (prepare_total e s t.1).2.cfg
      | leave c r hc' _ hn _ =>
        obtain ⟨b, hb1, hb2⟩ := hb
        rw [hc'] at hb1; cases hb1
        exact absurd ((nibble7 _).mpr hb2) hn
      | register _ _ _ _ hl' _ => omega
      | direct c r _ _ _ h =>
        obtain ⟨m1, m2, m3⟩ := prepared_modes e s t.1
        unfold Rx.cvLong at h
        rw [if_neg (by simp)] at h
        dsimp only at h
        have hx : (Rx.countOwnEqualCvPackets (s.prepared e t.1) p).ownEqualCvPackets = 1 := by
          have := count_cvCount (s.prepared e t.1) p
          rw [prepared_cvCount, hcp] at this
          exact congrArg Prod.snd this
        have hy : (Rx.countOwnEqualCvPackets (s.prepared e t.1) p).serviceMode = true := by
          unfold Rx.serviceMode
          rw [(count_fields _ p).2.1]
          exact m1.trans hm
        rw [if_pos ⟨hy, by rw [hx]; decide⟩] at h
        cases h
        rw [hs']
        exact (count_fields _ p).2.2.1.trans m2
  obtain _ | ⟨t', times⟩ := times
  · cases h2
    exact ⟨[], by simp, by simp [g3]⟩
  -- the second one
  simp only [List.map_cons, Rx.run, bind_eq_ok] at h2
  obtain ⟨s3, k1, k2⟩ := h2
  have hr3 : Reachable e s3 := .step _ hr1 k1
  simp only [Rx.step, bind_eq_ok] at k1
  obtain ⟨⟨s4, ret'⟩, k1, k3⟩ := k1
  cases k3
  rw [List.length_cons, List.replicate_succ, List.cons_append] at hd2
  have hf2 : front s2 = some p := front_eq.mpr ⟨hp2, _, hd2⟩
  have hc2 := hcr s2 hm2
  obtain ⟨f1', f2', f3', f4'⟩ := direct_frame e s2 s4 t'.1 t'.2 ret' p hr1.lengths hm2 hf2 hc2 k1
  obtain ⟨stores', quiet', g1', g2', g3', g4'⟩ :=
    execute_direct e s2 s4 t'.1 t'.2 ret' p hr1.lengths hm2 hf2 hc2 k1
  have hcount2 := execute_count e s2 s4 t'.1 t'.2 ret' hr1.lengths k1
  rw [hf2] at hcount2
  simp only [Option.toList_some, List.filter_cons, hc2, if_true, List.filter_nil, List.foldl_cons,
    List.foldl_nil] at hcount2
  have hcp2 : countPacket s2.cvCount p = (p, 2) := by rw [hcount']; simp [countPacket]
  rw [hcp2] at hcount2 g3' g4'
  dsimp only at g3' g4'
  rw [g1'.none f4, g3, hl2, List.append_nil] at g3'
  refine ⟨quiet', g2', ?_⟩
  rw [if_pos (by simp)]
  have hk := congrArg Prod.snd hcount2
  have hk1 := congrArg Prod.fst hcount2
  simp only [Rx.cvCount] at hk hk1
  have := executes_again e p times s4 s' rest hr3
    (by rw [(serviceMode_iff s4).1, f1', ← (serviceMode_iff s2).1]; exact hm2)
    (by unfold Rx.packetEnd at hp2 ⊢; rw [f2']; exact hp2) f4' (by rw [f3', hd2]; rfl) hl hb hk1
    (by omega) k2
  rw [this, g3', List.append_assoc]
  rfl

/-- **C40** Exactly one access for `n ≥ 2` and none for `n < 2` (and none at all of a locked CV). -/
theorem C40_one_access (e : Env) (ops : List RxOp) (s s' : Rx) (p : Packet) (rest : List Packet)
    (times : List (Int × Nat)) (k : Kind) (a : Access) (hr : ({} : Rx).run e ops = .ok s)
    (hm : s.serviceMode = true) (hp : s.packetEnd = false) (hs : s.logon.store = false)
    (hl : p.length = 4) (hb : ∃ b, p.head? = some b ∧ 112 ≤ b.toNat ∧ b.toNat ≤ 127)
    (hd : s.deque = List.replicate times.length p ++ rest)
    (hlast : (cvHistory e {} ops).getLast? ≠ some p) (hq : longRequest p = some (k, a))
    (h : s.run e (executes times) = .ok s') :
    accesses s'.trace = accesses s.trace ++
      (if 2 ≤ times.length ∧ permitted s.cfg.cvsLocked k a = true then [(k, a)] else []) := by
  obtain ⟨quiet, h1, h2⟩ := C40_run e ops s s' p rest times hr hm hp hs hl hb hd hlast h
  obtain ⟨hcv, hpos⟩ := longRequest_range hq
  rw [h2, accesses_append, hq]
  congr 1
  by_cases hn : 2 ≤ times.length
  · rw [if_pos hn, accesses_append, accesses_quiet h1, List.append_nil]
    simp only [actionCalls]
    split
    · rename_i hperm
      rw [accesses_accessCalls _ _ _ _ _ hcv hpos, if_pos ⟨hn, hperm⟩]
    · rename_i hperm
      rw [if_neg (fun h => hperm h.2)]; rfl
  · rw [if_neg hn, if_neg (fun h => hn h.1)]; rfl

/-- **C40** The acknowledgement is given at most once in the run, and only if the access took place
and the user's class returned the value in the packet (at once; see `C40_callback` for classes that
answer later). -/
theorem C40_ack (e : Env) (ops : List RxOp) (s s' : Rx) (p : Packet) (rest : List Packet)
    (times : List (Int × Nat)) (k : Kind) (a : Access) (hr : ({} : Rx).run e ops = .ok s)
    (hm : s.serviceMode = true) (hp : s.packetEnd = false) (hs : s.logon.store = false)
    (hl : p.length = 4) (hb : ∃ b, p.head? = some b ∧ 112 ≤ b.toNat ∧ b.toNat ≤ 127)
    (hd : s.deque = List.replicate times.length p ++ rest)
    (hlast : (cvHistory e {} ops).getLast? ≠ some p) (hq : longRequest p = some (k, a))
    (h : s.run e (executes times) = .ok s') :
    ackCount s'.trace = ackCount s.trace +
      (if 2 ≤ times.length ∧ permitted s.cfg.cvsLocked k a = true ∧ deferred e k = false ∧
        matched e s.trace k a = true then 1 else 0) := by
  obtain ⟨quiet, h1, h2⟩ := C40_run e ops s s' p rest times hr hm hp hs hl hb hd hlast h
  rw [h2, hq]
  unfold ackCount
  rw [List.count_append]
  congr 1
  have h1' := ackCount_quiet h1
  unfold ackCount at h1'
  by_cases hn : 2 ≤ times.length
  · rw [if_pos hn, List.count_append, h1', Nat.add_zero]
    simp only [actionCalls, hn, true_and]
    split
    · rename_i hperm
      rw [hperm]
      have hk : ∀ m : Bool, List.count Event.serviceAck (ack true m) = if m = true then 1 else 0 := by
        decide
      cases k <;> cases a <;> simp only [accessCalls, deferred, matched, true_and] <;> split <;>
        rename_i hx <;> simp [hx, hk, decide_eq_true_eq]
    · rename_i hperm
      rw [if_neg (fun h => hperm h.1)]; rfl
  · rw [if_neg hn, if_neg (fun h => hn h.1)]; rfl

/-- **C40** A class that answers later: the callback acknowledges exactly if the decoder is in service
mode and the value is the one in the packet. -/
theorem C40_callback_byte (e : Env) (s : Rx) (i : Nat) (b v : Byte)
    (hi : s.callbacks[i]? = some (.byte b)) :
    ∃ s', s.step e (.callbackByte i v) = .ok s' ∧
      s'.trace = s.trace ++ (if s.serviceMode = true ∧ v = b then [.serviceAck] else []) := by
  refine ⟨s.answerByte b v, ?_, ?_⟩
  · simp only [Rx.step, hi, callbackByte_eq]
  · rw [answerByte_trace]
    unfold ack
    simp

theorem C40_callback_bit (e : Env) (s : Rx) (i : Nat) (b v : Bool)
    (hi : s.callbacks[i]? = some (.bit b)) :
    ∃ s', s.step e (.callbackBit i v) = .ok s' ∧
      s'.trace = s.trace ++ (if s.serviceMode = true ∧ v = b then [.serviceAck] else []) := by
  refine ⟨s.answerBit b v, ?_, ?_⟩
  · simp only [Rx.step, hi, callbackBit_eq]
  · rw [answerBit_trace]
    unfold ack
    simp

/-- Entering service mode by a broadcast reset packet, then a packet verifying CV1 = 3, three
times. -/
def Spec.serviceSession : List RxOp :=
  .init :: hears [0#8, 0#8, 0#8] ++ [.execute 0 0] ++
    hears [0x74#8, 0#8, 3#8, 0x77#8] ++ hears [0x74#8, 0#8, 3#8, 0x77#8] ++
    hears [0x74#8, 0#8, 3#8, 0x77#8]

/-- The hypotheses hold for a run of three packets, and exactly one acknowledgement follows. -/
example : holdsAfter (({} : Rx).run exampleEnv serviceSession) (fun s =>
    decide (s.serviceMode = true ∧ s.packetEnd = false ∧ s.logon.store = false ∧
      s.deque = List.replicate 3 [0x74#8, 0#8, 3#8, 0x77#8] ∧
      (cvHistory exampleEnv {} serviceSession).getLast? ≠ some [0x74#8, 0#8, 3#8, 0x77#8] ∧
      longRequest [0x74#8, 0#8, 3#8, 0x77#8] = some (.verify, .byte 0 3#8)) &&
    holdsAfter (s.run exampleEnv (executes [(0, 0), (0, 0), (0, 0)])) (fun s' =>
      decide (ackCount s'.trace = ackCount s.trace + 1 ∧
        accesses s'.trace = accesses s.trace ++ [(.verify, .byte 0 3#8)]))) = true := by
  decide +kernel

/-- The hypothesis of `C40_callback_byte` holds for a class with asynchronous access. -/
example : holdsAfter (({} : Rx).run { exampleEnv with asyncReadable := true }
    (serviceSession ++ executes [(0, 0), (0, 0)])) (fun s =>
    decide (s.callbacks[0]? = some (.byte 3#8) ∧ s.serviceMode = true)) = true := by decide +kernel

/-! ### C66 -/

/-- **C66** is false: a request that has been executed at least twice in a row is never answered
again, however often it is repeated and also if service mode is left and entered in between, as long
as no other CV packet is executed; every such execution makes no call at all. -/
theorem C66_repetition_answered_false (e : Env) (ops : List RxOp) (s s' : Rx) (now : Int) (rand : Nat)
    (ret : Bool) (p : Packet) (hr : ({} : Rx).run e ops = .ok s)
    (hm : s.serviceMode = true) (hf : front s = some p) (hc : cvRequest s p = true)
    (hs : s.logon.store = false) (h2 : 2 ≤ repeats (cvHistory e {} ops))
    (hlast : (cvHistory e {} ops).getLast? = some p)
    (h : s.execute e now rand = .ok (s', ret)) : s'.trace = s.trace := by
  have hr' := Reachable.of_run hr
  obtain ⟨stores, quiet, g1, g2, g3, g4⟩ := execute_direct e s s' now rand ret p hr'.lengths hm hf hc h
  rw [count_snoc e ops s hr p (cvRequest_ne_nil hc), repeats_snoc, if_pos hlast] at g3 g4
  have hn : directAction (repeats (cvHistory e {} ops) + 1) p = none := by
    unfold directAction; rw [if_neg (by omega)]
  rw [hn] at g3 g4
  rw [g1.none hs, g4 rfl] at g3
  simpa [actionCalls] using g3

/-- A decoder answers a verify request in one programming session.  The session is left by a speed
command and entered anew, and the same request is sent twice again: the hypotheses above hold, so
there is no answer. -/
def Spec.secondSession : List RxOp :=
  serviceSession ++ executes [(0, 0), (0, 0), (0, 0)] ++ hears [3#8, 0x60#8, 0x63#8] ++ [.execute 0 0] ++
    hears [0#8, 0#8, 0#8] ++ [.execute 0 0] ++
    hears [0x74#8, 0#8, 3#8, 0x77#8] ++ hears [0x74#8, 0#8, 3#8, 0x77#8]

example : holdsAfter (({} : Rx).run exampleEnv secondSession) (fun s =>
    decide (s.serviceMode = true ∧ front s = some [0x74#8, 0#8, 3#8, 0x77#8] ∧
      cvRequest s [0x74#8, 0#8, 3#8, 0x77#8] = true ∧ s.logon.store = false ∧
      2 ≤ repeats (cvHistory exampleEnv {} secondSession) ∧
      (cvHistory exampleEnv {} secondSession).getLast? = some [0x74#8, 0#8, 3#8, 0x77#8] ∧
      hooks s.trace = [true, false, true] ∧ ackCount s.trace = 1) &&
    holdsAfter (s.run exampleEnv (executes [(0, 0), (0, 0)])) (fun s' =>
      decide (s'.trace = s.trace))) = true := by
  decide +kernel

/-- **C66** The part that holds: after a different CV packet the request is answered again on its
second repetition, whatever happened before (missing: the answer if no other CV packet came in
between). -/
theorem C66_repetition_answered_partial (e : Env) (ops : List RxOp) (s s' : Rx) (now : Int) (rand : Nat)
    (ret : Bool) (p q : Packet) (k : Kind) (a : Access) (h0 : List Packet)
    (hr : ({} : Rx).run e ops = .ok s) (hm : s.serviceMode = true) (hf : front s = some p)
    (hc : cvRequest s p = true) (hs : s.logon.store = false)
    (hh : cvHistory e {} ops = h0 ++ [q, p]) (hqp : q ≠ p) (hq : longRequest p = some (k, a))
    (hk : permitted s.cfg.cvsLocked k a = true) (h : s.execute e now rand = .ok (s', ret)) :
    ∃ quiet, (∀ ev ∈ quiet, ev.isQuiet = true) ∧
      s'.trace = s.trace ++ accessCalls e s.trace true k a ++ quiet := by
  obtain ⟨stores, quiet, g1, g2, g3⟩ := C40_direct_mode e ops s s' now rand ret p hr hm hf hc h
  have : repeats (cvHistory e {} ops ++ [p]) = 2 := by
    have e1 : h0 ++ [q, p] = (h0 ++ [q]) ++ [p] := by simp
    rw [hh, repeats_snoc, if_pos (by simp), e1, repeats_snoc, if_neg]
    simpa using hqp
  rw [this, g1.none hs] at g3
  refine ⟨quiet, g2, ?_⟩
  rw [g3]
  simp [directAction, hq, actionCalls, hk]

/-- The hypotheses hold: verify CV1, another request, verify CV1 twice. -/
def Spec.otherBetween : List RxOp :=
  serviceSession ++ executes [(0, 0), (0, 0), (0, 0)] ++ hears [0x74#8, 1#8, 3#8, 0x76#8] ++
    [.execute 0 0] ++ hears [0x74#8, 0#8, 3#8, 0x77#8] ++ [.execute 0 0] ++
    hears [0x74#8, 0#8, 3#8, 0x77#8]

example : holdsAfter (({} : Rx).run exampleEnv otherBetween) (fun s =>
    decide (s.serviceMode = true ∧ front s = some [0x74#8, 0#8, 3#8, 0x77#8] ∧
      cvRequest s [0x74#8, 0#8, 3#8, 0x77#8] = true ∧ s.logon.store = false ∧
      cvHistory exampleEnv {} otherBetween =
        List.replicate 3 [0x74#8, 0#8, 3#8, 0x77#8] ++
          [[0x74#8, 1#8, 3#8, 0x76#8], [0x74#8, 0#8, 3#8, 0x77#8]] ∧
      permitted s.cfg.cvsLocked .verify (.byte 0 3#8) = true)) = true := by
  decide +kernel

end Dcc
