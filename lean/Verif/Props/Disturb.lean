import Verif.Lemmas.RxDisturb
import Verif.Lemmas.Checksum
import Verif.Lemmas.RxThrottle
import Verif.Spec.Engine
/-! One disturbed bit on the track: C91. -/
namespace Dcc
open Spec

variable {e : Env} {s s' : Rx} {ops : List RxOp} {cfg : TxConfig} {p : Packet}
  {rest : List (TxConfig × Packet)}

theorem Spec.Disturbance.synced {k : Nat} (h : Disturbance e s s' ops cfg p k rest) : s.link.Synced :=
  h.reachable.recvInv.link.synced h.waiting

/-- **C91** One data bit, bit `j` of byte `i`, is disturbed: the packet does not arrive, all packets behind
it do. -/
theorem C91_data_bit (i j : Nat) (hi : i < p.length) (hj : j < 8)
    (h : Disturbance e s s' ops cfg p (cfg.numPreamble.toNat + 9 * i + 1 + j) rest) :
    arrivals e s ops = (rest.map (·.2)).filter fun p => !isLogon p := by
  have hv := (accepted_iff cfg).mp h.config
  have hn := hv.1
  have hm := h.valid.max
  obtain ⟨l', os, h1, h2, -, h3⟩ := run_whole s.link cfg hv h.synced cfg.numPreamble.toNat (by omega)
    (p.set i (p[i] ^^^ (0x80#8 >>> j))) (by intro h'; simp at h'; simp [h'] at hi) (by simpa using hm)
  rw [arrivals_after h (by rw [disturbed_data _ _ _ _ hi hj]; exact h1) h2, h3, if_neg, List.nil_append]
  rintro ⟨h4, -⟩
  rw [exor_set p i _ hi, h.valid.sum, BitVec.zero_xor] at h4
  have key : ∀ (b : Byte) (j : Fin 8), b ^^^ (b ^^^ (0x80#8 >>> j.val)) ≠ 0#8 := by decide +kernel
  exact key p[i] ⟨j, hj⟩ h4

/-- **C91** The zero behind byte number `i` is disturbed: the bytes before it arrive if there are at least
three and their checksum is valid, otherwise nothing; all packets behind it arrive. -/
theorem C91_separator (i : Nat) (h0 : 0 < i) (hi : i < p.length)
    (h : Disturbance e s s' ops cfg p (cfg.numPreamble.toNat + 9 * i) rest) :
    arrivals e s ops = ((if exor (p.take i) = 0#8 ∧ 3 ≤ i then [p.take i] else []) ++ rest.map (·.2)).filter
      fun p => !isLogon p := by
  have hv := (accepted_iff cfg).mp h.config
  have hn := hv.1
  have hm := h.valid.max
  have hlen : (p.take i).length = i := by rw [List.length_take]; omega
  obtain ⟨l1, os, h1, h2, h2', h3⟩ := run_whole s.link cfg hv h.synced cfg.numPreamble.toNat (by omega)
    (p.take i) (by intro h'; rw [h'] at hlen; simp at hlen; omega) (by omega)
  obtain ⟨l2, h4, h5, h6⟩ := run_few (byteBits p[i]) l1 cfg hv h2 (by rw [h2']; simp [byteBits])
  have h6' : l2.bitCount ≤ 16 := by
    have : (byteBits p[i]).length = 8 := rfl
    omega
  obtain ⟨l3, h7, h8, h9⟩ := run_skip (p.drop (i + 1)) l2 cfg hv h5 (by omega)
  obtain ⟨l4, h10, h11, -⟩ := run_half_ones 2 l3 cfg hv h8
  have hrun : s.link.run (wave cfg (disturbed cfg.numPreamble.toNat p (cfg.numPreamble.toNat + 9 * i))) =
      .ok (l4, os) := by
    rw [disturbed_separator _ _ _ hi, wave_append, wave_append, wave_append, List.append_assoc,
      List.append_assoc, ← List.append_nil os]
    exact Link.run_append_ok _ _ h1 (Link.run_append_nil _ _ h4 (Link.run_append_nil _ _ h7 h10))
  rw [arrivals_after h hrun h11, h3, hlen]

/-- **C91** The end bit is disturbed: neither this packet nor, if its preamble has less than 19 bits, the
next one arrives; all others do.  The packet is not one of the longest. -/
theorem C91_end_bit (c : TxConfig) (q : Packet) (hlen : p.length < maxPacketSize)
    (h : Disturbance e s s' ops cfg p (cfg.numPreamble.toNat + 9 * p.length) ((c, q) :: rest)) :
    arrivals e s ops = ((if 19 ≤ c.numPreamble.toNat then [q] else []) ++ rest.map (·.2)).filter
      fun p => !isLogon p := by
  have hv := (accepted_iff cfg).mp h.config
  have hn := hv.1
  have hq := h.sound (c, q) (by simp)
  have hcv : ValidConfig c := (accepted_iff c).mp hq.1
  have hcn := hcv.1
  have hqne : q ≠ [] := by
    rintro rfl
    have := hq.2.min
    simp at this
  obtain ⟨b, bs, rfl⟩ : ∃ b bs, p = b :: bs := by
    cases p with
    | nil => have := h.valid.min; simp at this
    | cons b bs => exact ⟨b, bs, rfl⟩
  obtain ⟨l1, h1, a1, a2, a3, a4, a5, a6, a7⟩ := run_head s.link cfg hv h.synced cfg.numPreamble.toNat (by omega) b bs
    (by simp at hlen; omega)
  have h2 := run_separator l1 cfg hv a1 a2 a3
  have h3 := run_byte { l1 with state := .data } c hcv 0xFF#8 rfl a2 a3 a4 a5 (by rw [a6]; exact hlen)
  obtain ⟨l2, h4, h5, h6⟩ := run_end_bad { l1 with
      packet := l1.packet ++ [0xFF#8], checksum := l1.checksum ^^^ 0xFF#8, state := .endbit } c hcv rfl a2 (by
    rw [a7, h.valid.sum]
    exact fun h => absurd (show 0#8 ^^^ 0xFF#8 = 0#8 from h.1) (by decide))
  have hsplit : wave c (List.replicate 9 true) = wave c (byteBits 0xFF#8) ++ wave c [true] := by
    rw [← wave_append]; rfl
  have hq2 : packetWave c q = wave c (List.replicate 9 true) ++
      wave c (List.replicate (c.numPreamble.toNat - 9) true ++ framed q ++ [true]) := by
    rw [← wave_append, ← List.append_assoc, ← List.append_assoc, List.replicate_append_replicate,
      show 9 + (c.numPreamble.toNat - 9) = c.numPreamble.toNat by omega]
    rfl
  have key : ∃ l3 os, s.link.run (wave cfg (disturbed cfg.numPreamble.toNat (b :: bs) (cfg.numPreamble.toNat +
      9 * (b :: bs).length)) ++ packetWave c q) = .ok (l3, os) ∧ l3.Synced ∧
      packetsOf os = if 19 ≤ c.numPreamble.toNat then [q] else [] := by
    rw [disturbed_end, wave_append, hq2, hsplit, List.append_assoc, List.append_assoc]
    by_cases hc : 19 ≤ c.numPreamble.toNat
    · obtain ⟨l3, os, h7, h8, -, h9⟩ := run_whole l2 c hcv h5 (c.numPreamble.toNat - 9) (by omega) q hqne hq.2.max
      refine ⟨l3, _, Link.run_append_ok _ _ h1 (Link.run_append_nil _ _ h2 (Link.run_append_nil _ _ h3
        (Link.run_append_ok _ _ h4 h7))), h8, ?_⟩
      rw [if_pos ⟨hq.2.sum, hq.2.min⟩] at h9
      rw [if_pos hc, ← h9]
      rfl
    · obtain ⟨l3, h7, h8⟩ := run_short l2 c hcv h5 (c.numPreamble.toNat - 9) (by omega) q hqne
      exact ⟨l3, _, Link.run_append_ok _ _ h1 (Link.run_append_nil _ _ h2 (Link.run_append_nil _ _ h3
        (Link.run_append_ok _ _ h4 h7))), h8, by rw [if_neg hc]; rfl⟩
  obtain ⟨l3, os, h7, h8, h9⟩ := key
  obtain ⟨l', os', g1, g2⟩ := run_followed rest (fun x hx => h.sound x (by simp [hx])) l3 h8
  obtain ⟨os2, g3, g4⟩ := run_interleaved e ops s s' h.run h.enabled h.room
  have ht := h.times
  rw [show followed ((c, q) :: rest) = packetWave c q ++ followed rest from rfl, ← List.append_assoc] at ht
  rw [ht, Link.run_append_ok _ _ h7 g1] at g3
  simp only [Except.ok.injEq, Prod.mk.injEq] at g3
  rw [g4, ← g3.2, ← h9, ← g2]
  simp [packetsOf]

/-- **C91** One of the first bits of the preamble is disturbed: the packet arrives if ten more bits of the
preamble are left, otherwise it does not; all packets behind it arrive. -/
theorem C91_preamble (k : Nat) (hk : k < cfg.numPreamble.toNat) (hfirst : s.link.bitCount + 2 * k < 20)
    (h : Disturbance e s s' ops cfg p k rest) :
    arrivals e s ops = ((if k + 11 ≤ cfg.numPreamble.toNat then [p] else []) ++ rest.map (·.2)).filter
      fun p => !isLogon p := by
  have hv := (accepted_iff cfg).mp h.config
  have hm := h.valid.max
  have hne : p ≠ [] := by
    rintro rfl
    have := h.valid.min
    simp at this
  obtain ⟨l1, h1, h2, h3⟩ := run_few (List.replicate k true) s.link cfg hv h.synced (by simpa using hfirst)
  rw [List.length_replicate] at h3
  obtain ⟨l2, h4, h5, h6⟩ := run_zero l1 cfg hv h2 (by omega)
  have hsplit : ∀ l3 os, l2.run (wave cfg (List.replicate (cfg.numPreamble.toNat - k - 1) true ++ framed p ++
      [true])) = .ok (l3, os) → s.link.run (wave cfg (disturbed cfg.numPreamble.toNat p k)) = .ok (l3, os) := by
    intro l3 os h7
    rw [disturbed_preamble _ _ _ hk, wave_append, wave_cons]
    exact Link.run_append_nil _ _ h1 (Link.run_append_nil _ _ h4 h7)
  by_cases hc : k + 11 ≤ cfg.numPreamble.toNat
  · obtain ⟨l3, os, h7, h8, -, h9⟩ := run_whole l2 cfg hv h5 (cfg.numPreamble.toNat - k - 1) (by omega) p hne hm
    rw [arrivals_after h (hsplit _ _ h7) h8, h9, if_pos hc, if_pos ⟨h.valid.sum, h.valid.min⟩]
  · obtain ⟨l3, h7, h8⟩ := run_short l2 cfg hv h5 (cfg.numPreamble.toNat - k - 1) (by omega) p hne
    rw [arrivals_after h (hsplit _ _ h7) h8, if_neg hc]
    rfl

/-- **C91** Whatever happened before, if there is room for one more byte in the packet being assembled:
of the packets that follow undisturbed all but the first arrive, and before them at most two packets do. -/
theorem C91_recovers (hr : Reachable e s) (hlen : s.link.packet.length < maxPacketSize)
    (ho : s.run e ops = .ok s') (hd : .disable ∉ ops) (hf : NeverFull e s ops) (c : TxConfig) (q : Packet)
    (hsound : Sound ((c, q) :: rest)) (ht : recvTimes ops = followed ((c, q) :: rest)) :
    ∃ before, before.length ≤ 2 ∧
      arrivals e s ops = before ++ (rest.map (·.2)).filter fun p => !isLogon p := by
  have hq := hsound (c, q) (by simp)
  obtain ⟨l1, os, os', h3, h4, h5, h6⟩ := resync s.link c ((accepted_iff c).mp hq.1) q hq.2 hr.recvInv.link hlen
  obtain ⟨l2, os2, h7, h8⟩ := run_followed rest (fun x hx => hsound x (by simp [hx])) l1 h4
  obtain ⟨os3, h9, h10⟩ := run_interleaved e ops s s' ho hd hf
  rw [show followed ((c, q) :: rest) = packetWave c q ++ followed rest from rfl] at ht
  rw [ht, Link.run_append_ok _ _ h3 h7] at h9
  simp only [Except.ok.injEq, Prod.mk.injEq] at h9
  refine ⟨(packetsOf (os ++ os')).filter (fun p => !isLogon p), ?_, ?_⟩
  · refine Nat.le_trans (List.length_filter_le _ _) ?_
    have e1 : (packetsOf os).length ≤ 1 := by
      rcases h5 with ⟨_, h5⟩ | h5 | h5 | ⟨b, h5⟩ <;> rw [h5] <;> simp
    have e2 : (packetsOf os').length ≤ 1 := by rcases h6 with h6 | h6 <;> rw [h6] <;> simp
    simp only [packetsOf, List.filterMap_append, List.length_append] at e1 e2 ⊢
    omega
  · rw [h10, ← h9.2, ← h8, ← List.filter_append]
    simp [packetsOf]

/-! ### What one disturbed bit may lead to -/

/-- The half bits of a disturbed packet, one idle packet, then `execute` is called. -/
def overhears (p : Packet) (k : Nat) : List RxOp :=
  recvOps ((wave {} (disturbed 17 p k) ++ idleWave ++ [58]).map (·, 0)) ++ [.execute 0 0]

/-- **C91** "A packet with one disturbed bit moves a locomotive only as the packet was meant to" is false:
a command for F13 to F20 of locomotive 6 drives locomotive 3. -/
theorem C91_meant_false : ¬ ∀ (m : BitVec 32 → Byte) (s s' : Rx) (c : Command) (p : Packet) (k : Nat),
    ({} : Rx).run (memEnv m) [.init] = .ok s → c.Legal → c.packet = .ok p →
    s.run (memEnv m) (overhears p k) = .ok s' → drivingCalls s s' = [] ∨ drivingCalls s s' = c.calls s := by
  intro h
  have key : holdsAfter (({} : Rx).run exampleEnv [.init]) (fun s =>
      holdsAfter (s.run exampleEnv (overhears [6#8, 0xDE#8, 0xD9#8, 0x01#8] 16)) (fun s' =>
        decide (drivingCalls s s' = [.direction 3#16 true, .speed 3#16 245] ∧
          (Command.mk { value := 6, type := .short } (.f20f13 0xD9#8)).calls s = []))) = true := by
    decide +kernel
  obtain ⟨s, h1, h2⟩ := holdsAfter_ok key
  obtain ⟨s', h3, h4⟩ := holdsAfter_ok h2
  have h5 := of_decide_eq_true h4
  rcases h exampleCvs s s' ⟨{ value := 6, type := .short }, .f20f13 0xD9#8⟩ _ 16 h1
    ⟨.inr (.inl ⟨rfl, by decide, by decide⟩), trivial⟩ (by decide +kernel) h3 with h6 | h6
  · rw [h5.1] at h6; cases h6
  · rw [h5.1, h5.2] at h6; cases h6

/-- **C91** "A packet with one disturbed bit, made by a builder with legal arguments, does not make the
decoder read behind the end of the packet" is false: the separator in front of the fourth byte of a
request to verify CV232 of locomotive 3. -/
theorem C91_safe_false : ¬ ∀ (m : BitVec 32 → Byte) (s : Rx) (o : Order) (p : Packet) (k : Nat),
    ({} : Rx).run (memEnv m) [.init] = .ok s → o.Legal → o.packet = .ok p →
    s.run (memEnv m) (overhears p k) ≠ .error .oob := by
  intro h
  have key : holdsAfter (({} : Rx).run exampleEnv [.init]) (fun s =>
      match s.run exampleEnv (overhears [3#8, 0xE4#8, 0xE7#8, 0#8, 0#8] 44) with
      | .error .oob => true
      | _ => false) = true := by
    decide +kernel
  obtain ⟨s, h1, h2⟩ := holdsAfter_ok key
  refine h exampleCvs s (.long { value := 3, type := .short } .verify (.byte 231 0#8)) _ 44 h1
    ⟨.inr (.inl ⟨rfl, by decide, by decide⟩), show 231 < 1024 by decide⟩ (by decide +kernel)
    (show s.run exampleEnv (overhears [3#8, 0xE4#8, 0xE7#8, 0#8, 0#8] 44) = _ from ?_)
  revert h2
  split
  · intro _; assumption
  · intro h2; cases h2

/-! ### Examples -/

/-- A speed command for locomotive 3, disturbed in bit `k`, and two commands behind it with `execute` after
each half bit. -/
def disturbedOps (k : Nat) : List RxOp :=
  polled ((wave {} (disturbed 17 [3#8, 0x3F#8, 0x86#8, 0xBA#8] k) ++
    followed [({}, [3#8, 0x91#8, 0x92#8]), ({}, [3#8, 0x90#8, 0x93#8])]).map (·, 0, 0, 0))

/-- The packets that arrive. -/
def arrivedWith (k : Nat) : List Packet :=
  match ({} : Rx).run exampleEnv [.init] with
  | .ok s => arrivals exampleEnv s (disturbedOps k)
  | .error _ => []

/-- A data bit, a separator, the end bit, the first and the eighth bit of the preamble. -/
example : [26, 44, 53, 0, 7].map arrivedWith =
    [[[3#8, 0x91#8, 0x92#8], [3#8, 0x90#8, 0x93#8]], [[3#8, 0x91#8, 0x92#8], [3#8, 0x90#8, 0x93#8]],
      [[3#8, 0x90#8, 0x93#8]], [[3#8, 0x3F#8, 0x86#8, 0xBA#8], [3#8, 0x91#8, 0x92#8], [3#8, 0x90#8, 0x93#8]],
      [[3#8, 0x91#8, 0x92#8], [3#8, 0x90#8, 0x93#8]]] := by
  decide +kernel

/-- Late bits of the preamble and the start bit: the last packet arrives in any case. -/
example : [8, 9, 10, 16, 17].map (fun k => (arrivedWith k).getLast?) =
    List.replicate 5 (some [3#8, 0x90#8, 0x93#8]) := by
  decide +kernel

example (k : Nat) (s s' : Rx) (h1 : ({} : Rx).run exampleEnv [.init] = .ok s)
    (h2 : s.run exampleEnv (disturbedOps k) = .ok s') :
    Disturbance exampleEnv s s' (disturbedOps k) {} [3#8, 0x3F#8, 0x86#8, 0xBA#8] k
      [({}, [3#8, 0x91#8, 0x92#8]), ({}, [3#8, 0x90#8, 0x93#8])] := by
  have key : holdsAfter (({} : Rx).run exampleEnv [.init]) (fun s =>
      decide (s.link.state = .preamble ∧ s.deque = [])) = true := by decide +kernel
  rw [h1] at key
  have key := of_decide_eq_true key
  have hr : Reachable exampleEnv s := Reachable.run .start _ h1
  refine ⟨hr, key.1, h2, ?_, ?_, by decide +kernel, ⟨by decide, by decide, by decide⟩, ?_, ?_⟩
  · unfold disturbedOps polled
    intro hm
    obtain ⟨x, _, hm⟩ := List.mem_flatMap.mp hm
    simp at hm
  · exact (polled_neverFull _ (by decide) _ s hr (by simp [key.2]) (fun _ => key.2)).1
  · intro x hx
    simp only [List.mem_cons, List.not_mem_nil, or_false] at hx
    rcases hx with rfl | rfl <;> exact ⟨by decide +kernel, by decide, by decide, by decide⟩
  · have hp : ∀ ts : List Nat, recvTimes (polled (ts.map (·, 0, 0, 0))) = ts := by
      intro ts
      induction ts with
      | nil => rfl
      | cons x xs ih =>
        have : recvTimes (polled ((x :: xs).map (·, 0, 0, 0))) = x :: recvTimes (polled (xs.map (·, 0, 0, 0))) :=
          rfl
        rw [this, ih]
    exact hp _

end Dcc
