import Verif.Lemmas.RxTrack
/-! Getting back into step with a transmitter. -/
namespace Dcc

theorem wave_half_ones (cfg : TxConfig) (n : Nat) :
    Spec.wave cfg (List.replicate n true) = List.replicate (2 * n) cfg.bit1.toNat := by
  induction n with
  | zero => rfl
  | succ n ih =>
    rw [List.replicate_succ, wave_cons, ih]
    simp [Spec.wave, Nat.mul_succ, List.replicate_succ]

/-- Half ones in the preamble. -/
theorem run_half_ones (m : Nat) (l : Link) (cfg : TxConfig) (h : Spec.ValidConfig cfg) (hs : l.Synced) :
    ∃ l', l.run (List.replicate m cfg.bit1.toNat) = .ok (l', []) ∧ l'.Synced ∧
      l'.bitCount = l.bitCount + m := by
  have h1 := time2bit_bit1 h
  induction m generalizing l with
  | zero => exact ⟨l, rfl, hs, rfl⟩
  | succ m ih =>
    obtain ⟨l', h2, h3, h4⟩ := ih { l with bitCount := l.bitCount + 1, packetEnd := false }
      ⟨hs.state, hs.byte, hs.checksum⟩
    refine ⟨l', ?_, h3, by rw [h4]; simp only; omega⟩
    rw [List.replicate_succ, Link.run_cons (l1 := { l with bitCount := l.bitCount + 1, packetEnd := false })
      (po := none) _ ?_, h2]
    · rfl
    · simp [Link.step, h1, hs.state, LinkState.halves, Link.bit]

/-- A one bit in the middle of an end bit. -/
theorem flush_endbit (l : Link) (cfg : TxConfig) (h : Spec.ValidConfig cfg) (hs : l.state = .endbit) :
    ∃ k l' os, k ≤ 2 ∧ l.run (List.replicate k cfg.bit1.toNat) = .ok (l', os) ∧ l'.Synced ∧
      (os = [.bad] ∨ os = [.packet l.packet]) := by
  have h1 := time2bit_bit1 h
  obtain ⟨st, bc, by_, cs, ih, pe, pk⟩ := l
  simp only at hs
  subst hs
  have key : ∃ l' os, (⟨.endbit, bc, by_, cs, true, pe, pk⟩ : Link).run [cfg.bit1.toNat] = .ok (l', os) ∧
      l'.Synced ∧ (os = [.bad] ∨ os = [.packet pk]) := by
    by_cases hc : cs = 0#8 ∧ 3 ≤ pk.length
    · refine ⟨Link.reset ⟨.endbit, bc, by_, cs, false, true, pk⟩, [.packet pk], ?_, ⟨rfl, rfl, rfl⟩, .inr rfl⟩
      simp [Link.run, Link.step, h1, LinkState.halves, Link.bit, hc]
    · refine ⟨Link.reset ⟨.endbit, bc, by_, cs, false, false, []⟩, [.bad], ?_, ⟨rfl, rfl, rfl⟩, .inl rfl⟩
      simp [Link.run, Link.step, h1, LinkState.halves, Link.bit, hc]
  obtain ⟨l', os, h2, h3, h4⟩ := key
  cases ih
  · refine ⟨2, l', os, by decide, ?_, h3, h4⟩
    have h5 : (⟨.endbit, bc, by_, cs, false, pe, pk⟩ : Link).step cfg.bit1.toNat =
        .ok (⟨.endbit, bc, by_, cs, true, false, pk⟩, none) := by
      simp [Link.step, h1, LinkState.halves]
    have h6 : (⟨.endbit, bc, by_, cs, true, pe, pk⟩ : Link).run [cfg.bit1.toNat] =
        (⟨.endbit, bc, by_, cs, true, false, pk⟩ : Link).run [cfg.bit1.toNat] := rfl
    show Link.run _ [_, _] = _
    rw [Link.run_cons _ h5, ← h6, h2]
    rfl
  · exact ⟨1, l', os, by decide, h2, h3, h4⟩

/-- What can be left of a packet when ones fill it up: at most one more byte. -/
def Link.Leftover (l : Link) (os : List LinkOut) : Prop :=
  packetsOf os = [] ∨ packetsOf os = [l.packet] ∨ ∃ b, packetsOf os = [l.packet ++ [b]]

/-- Ones in the middle of a byte, at a bit boundary. -/
theorem flush_data (n : Nat) : ∀ (l : Link) (cfg : TxConfig), Spec.ValidConfig cfg → l.state = .data →
    l.isHalfbit = false → l.bitCount + n + 1 = 8 → l.packet.length < maxPacketSize →
    ∃ k l' os, k ≤ 2 * n + 4 ∧ l.run (List.replicate k cfg.bit1.toNat) = .ok (l', os) ∧ l'.Synced ∧
      (packetsOf os = [] ∨ ∃ b, packetsOf os = [l.packet ++ [b]]) := by
  have hw : ∀ cfg : TxConfig, Spec.wave cfg [true] = List.replicate 2 cfg.bit1.toNat := fun _ => rfl
  induction n with
  | zero =>
    intro l cfg h hs hh hc hl
    have h1 := run_data_last { l with packetEnd := false } cfg h true hs hh rfl (by simp only; omega) hl
    have h0 : ({ l with packetEnd := false } : Link).run (Spec.wave cfg [true]) = l.run (Spec.wave cfg [true]) := rfl
    rw [h0] at h1
    obtain ⟨k, l', os, h2, h3, h4, h5⟩ := flush_endbit (cfg := cfg) (h := h) (l := { l with
        packetEnd := false
        packet := l.packet ++ [(l.byte <<< 1) ||| (if true then 1#8 else 0#8)]
        checksum := l.checksum ^^^ ((l.byte <<< 1) ||| (if true then 1#8 else 0#8))
        bitCount := 0, byte := 0#8, state := .endbit }) rfl
    refine ⟨2 + k, l', os, by omega, ?_, h4, ?_⟩
    · rw [← List.replicate_append_replicate, ← hw]
      exact Link.run_append_nil _ _ h1 h3
    · rcases h5 with rfl | rfl
      · exact .inl rfl
      · exact .inr ⟨_, rfl⟩
  | succ n ih =>
    intro l cfg h hs hh hc hl
    have h1 := run_data_bit { l with packetEnd := false } cfg h true hs hh rfl (by simp only; omega)
    have h0 : ({ l with packetEnd := false } : Link).run (Spec.wave cfg [true]) = l.run (Spec.wave cfg [true]) := rfl
    rw [h0] at h1
    obtain ⟨k, l', os, h2, h3, h4, h5⟩ := ih { l with
        packetEnd := false
        byte := (l.byte <<< 1) ||| (if true then 1#8 else 0#8)
        bitCount := l.bitCount + 1 } cfg h hs hh (by simp only; omega) hl
    refine ⟨2 + k, l', os, by omega, ?_, h4, h5⟩
    rw [← List.replicate_append_replicate, ← hw]
    exact Link.run_append_nil _ _ h1 h3

/-- At most 19 half ones bring any state with room for a byte back to waiting for a preamble. -/
theorem flush (l : Link) (cfg : TxConfig) (h : Spec.ValidConfig cfg) (hi : LinkInv l)
    (hl : l.packet.length < maxPacketSize) :
    ∃ k l' os, k ≤ 19 ∧ l.run (List.replicate k cfg.bit1.toNat) = .ok (l', os) ∧ l'.Synced ∧
      (l.state = .startbit ∧ packetsOf os = [] ∨ l.Leftover os) := by
  have h1 := time2bit_bit1 h
  cases hs : l.state
  · exact ⟨0, l, [], by omega, rfl, hi.synced hs, .inr (.inl rfl)⟩
  · -- the second half of the start bit
    have hb := hi.idle (by rw [hs]; rfl)
    have h2 : l.step cfg.bit1.toNat = .ok ({ l with
        packetEnd := false, packet := [], bitCount := 0, isHalfbit := false, state := .data }, some .start) := by
      simp [Link.step, h1, hs, LinkState.halves, Link.bit]
    have hw : ∀ (ts : List Nat) (l1 : Link) (os : List LinkOut), Link.run { l with
        packetEnd := false, packet := [], bitCount := 0, isHalfbit := false, state := .data } ts = .ok (l1, os) →
        l.run (cfg.bit1.toNat :: ts) = .ok (l1, .start :: os) := by
      intro ts l1 os hr
      rw [Link.run_cons _ h2, hr]
      rfl
    -- eight ones and the end bit: a packet of one byte, which is too short
    have h3 := run_byte { l with
        packetEnd := false, packet := [], bitCount := 0, isHalfbit := false, state := .data } cfg h 255#8
        rfl rfl rfl rfl hb.1 (by simp [maxPacketSize])
    obtain ⟨k, l', os, h4, h5, h6, h7⟩ := flush_endbit (cfg := cfg) (h := h) (l := { l with
        packetEnd := false
        packet := [255#8]
        checksum := l.checksum ^^^ 255#8
        bitCount := 0, isHalfbit := false, state := .endbit }) rfl
    have hones : Spec.byteBits 255#8 = List.replicate 8 true := by decide
    have hfin : os = [.bad] := by
      rcases h7 with h7 | h7
      · exact h7
      · exfalso
        -- a packet of one byte is never reported
        have hi2 : LinkInv { l with
            packetEnd := false
            packet := [255#8]
            checksum := l.checksum ^^^ 255#8
            bitCount := 0, isHalfbit := false, state := .endbit } :=
          ⟨nofun, nofun, fun _ => ⟨rfl, hb.1⟩, fun _ => by simp [hb.2, exor], by simp [maxPacketSize], nofun⟩
        have hval := LinkInv.run_packets _ hi2 h5
        rw [h7] at hval
        have := (hval [255#8] (by simp [packetsOf])).min
        simp at this
    refine ⟨1 + (16 + k), l', .start :: os, by omega, ?_, h6, .inl ⟨rfl, by rw [hfin]; rfl⟩⟩
    have hrep : List.replicate (1 + (16 + k)) cfg.bit1.toNat = cfg.bit1.toNat ::
        (List.replicate 16 cfg.bit1.toNat ++ List.replicate k cfg.bit1.toNat) := by
      rw [List.replicate_append_replicate, Nat.add_comm 1, List.replicate_succ]
    rw [hrep]
    refine hw _ _ _ ?_
    rw [hones, wave_half_ones] at h3
    exact Link.run_append_nil _ _ h3 h5
  · have hc := hi.count hs
    cases hh : l.isHalfbit
    · obtain ⟨n, hn⟩ : ∃ n, l.bitCount + n + 1 = 8 := ⟨7 - l.bitCount, by omega⟩
      obtain ⟨k, l', os, h2, h3, h4, h5⟩ := flush_data n l cfg h hs hh hn hl
      exact ⟨k, l', os, by omega, h3, h4, .inr (h5.imp_right .inr)⟩
    · by_cases hc7 : l.bitCount + 1 < 8
      · have h2 : l.step cfg.bit1.toNat = .ok ({ l with
            packetEnd := false, isHalfbit := false
            byte := (l.byte <<< 1) ||| 1#8
            bitCount := l.bitCount + 1 }, none) := by
          simp [Link.step, h1, hs, hh, LinkState.halves, Link.bit, hc7]
        obtain ⟨n, hn⟩ : ∃ n, l.bitCount + 1 + n + 1 = 8 := ⟨6 - l.bitCount, by omega⟩
        obtain ⟨k, l', os, h3, h4, h5, h6⟩ := flush_data n (cfg := cfg) (l := { l with
            packetEnd := false, isHalfbit := false
            byte := (l.byte <<< 1) ||| 1#8
            bitCount := l.bitCount + 1 }) h hs rfl hn hl
        refine ⟨k + 1, l', os, by omega, ?_, h5, .inr (h6.imp_right .inr)⟩
        rw [List.replicate_succ, Link.run_cons _ h2, h4]
        rfl
      · have h2 : l.step cfg.bit1.toNat = .ok ({ l with
            packetEnd := false, isHalfbit := false
            packet := l.packet ++ [(l.byte <<< 1) ||| 1#8]
            checksum := l.checksum ^^^ ((l.byte <<< 1) ||| 1#8)
            bitCount := 0, byte := 0#8, state := .endbit }, none) := by
          simp [Link.step, h1, hs, hh, LinkState.halves, Link.bit, hc7, hl]
        obtain ⟨k, l', os, h3, h4, h5, h6⟩ := flush_endbit (cfg := cfg) (h := h) (l := { l with
            packetEnd := false, isHalfbit := false
            packet := l.packet ++ [(l.byte <<< 1) ||| 1#8]
            checksum := l.checksum ^^^ ((l.byte <<< 1) ||| 1#8)
            bitCount := 0, byte := 0#8, state := .endbit }) rfl
        refine ⟨k + 1, l', os, by omega, ?_, h5, .inr ?_⟩
        · rw [List.replicate_succ, Link.run_cons _ h2, h4]
          rfl
        · rcases h6 with rfl | rfl
          · exact .inl rfl
          · exact .inr (.inr ⟨_, rfl⟩)
  · obtain ⟨k, l', os, h2, h3, h4, h5⟩ := flush_endbit l cfg h hs
    refine ⟨k, l', os, by omega, h3, h4, .inr ?_⟩
    rcases h5 with rfl | rfl
    · exact .inl rfl
    · exact .inr (.inl rfl)

/-- Few bits while waiting for a preamble. -/
theorem run_few (bits : List Bool) : ∀ (l : Link) (cfg : TxConfig), Spec.ValidConfig cfg → l.Synced →
    l.bitCount + 2 * bits.length < 20 →
    ∃ l', l.run (Spec.wave cfg bits) = .ok (l', []) ∧ l'.Synced ∧
      l'.bitCount ≤ l.bitCount + 2 * bits.length := by
  induction bits with
  | nil => intro l cfg _ hs _; exact ⟨l, rfl, hs, by simp⟩
  | cons b bits ih =>
    intro l cfg h hs hc
    have h1 := time2bit_bit1 h
    have h0 := time2bit_bit0 h
    simp only [List.length_cons] at hc ⊢
    rw [wave_cons]
    cases b
    · have h2 : l.run (Spec.wave cfg [false]) = .ok ({ l with packetEnd := false }.reset, []) := by
        have hlt : l.bitCount < 20 := by omega
        simp [Spec.wave, Link.run, Link.step, h0, hs.state, LinkState.halves, Link.bit, Link.reset, hlt]
      obtain ⟨l', h3, h4, h5⟩ := ih ({ l with packetEnd := false }.reset) cfg h ⟨rfl, rfl, rfl⟩
        (by simp only [Link.reset]; omega)
      refine ⟨l', Link.run_append_nil _ _ h2 h3, h4, ?_⟩
      simp only [Link.reset] at h5
      omega
    · obtain ⟨l1, h2, h3, h4⟩ := run_half_ones 2 l cfg h hs
      obtain ⟨l', h5, h6, h7⟩ := ih l1 cfg h h3 (by omega)
      exact ⟨l', Link.run_append_nil _ _ h2 h5, h6, by omega⟩

/-- A zero while fewer than 20 half ones were counted. -/
theorem run_zero (l : Link) (cfg : TxConfig) (h : Spec.ValidConfig cfg) (hs : l.Synced)
    (hc : l.bitCount < 20) :
    ∃ l', l.run (Spec.wave cfg [false]) = .ok (l', []) ∧ l'.Synced ∧ l'.bitCount = 0 := by
  have h0 := time2bit_bit0 h
  refine ⟨{ l with packetEnd := false }.reset, ?_, ⟨rfl, rfl, rfl⟩, rfl⟩
  simp [Spec.wave, Link.run, Link.step, h0, hs.state, LinkState.halves, Link.bit, Link.reset, hc]

/-- The bytes of a packet are no preamble. -/
theorem run_skip (bs : List Byte) : ∀ (l : Link) (cfg : TxConfig), Spec.ValidConfig cfg → l.Synced →
    l.bitCount < 18 →
    ∃ l', l.run (Spec.wave cfg (bs.flatMap (fun b => false :: Spec.byteBits b))) = .ok (l', []) ∧
      l'.Synced ∧ l'.bitCount < 18 := by
  induction bs with
  | nil => intro l cfg _ hs hc; exact ⟨l, rfl, hs, hc⟩
  | cons b bs ih =>
    intro l cfg h hs hc
    obtain ⟨l1, h1, h2, h3⟩ := run_zero l cfg h hs (by omega)
    obtain ⟨l2, h4, h5, h6⟩ := run_few (Spec.byteBits b) l1 cfg h h2 (by rw [h3]; simp [Spec.byteBits])
    have h6' : l2.bitCount ≤ 16 := by
      have : (Spec.byteBits b).length = 8 := rfl
      omega
    obtain ⟨l3, h7, h8, h9⟩ := ih l2 cfg h h5 (by omega)
    refine ⟨l3, ?_, h8, h9⟩
    rw [List.flatMap_cons, List.cons_append, wave_cons, wave_append]
    exact Link.run_append_nil _ _ h1 (Link.run_append_nil _ _ h4 h7)

/-- What follows the preamble of a packet, after a sufficient preamble. -/
theorem run_frame (l : Link) (cfg : TxConfig) (h : Spec.ValidConfig cfg) (p : Packet)
    (hp : ValidPacket p) (hs : l.Synced) (hc : 20 ≤ l.bitCount) :
    l.run (Spec.wave cfg (p.flatMap (fun b => false :: Spec.byteBits b) ++ [true])) =
      .ok (Link.after p, [.start, .packet p]) := by
  obtain _ | ⟨b, bs⟩ := p
  · have := hp.min; simp at this
  rw [List.flatMap_cons, List.cons_append, List.cons_append, wave_cons, List.append_assoc, wave_append,
    wave_append]
  refine Link.run_append_ok (ps' := [.packet (b :: bs)]) _ _ (run_start _ cfg h hs.state hc) ?_
  have hm := hp.max
  refine Link.run_append_nil _ _ (run_byte _ cfg h b rfl rfl rfl rfl hs.byte (by simp [maxPacketSize])) ?_
  refine Link.run_append_nil _ _ (run_bytes bs _ cfg h rfl rfl rfl rfl hs.byte
    (by simp at hm ⊢; omega)) ?_
  show Link.run _ ([cfg.bit1.toNat] ++ [cfg.bit1.toNat]) = _
  refine Link.run_append_nil _ _ (run_end_half _ cfg h rfl rfl) ?_
  have hx := hp.sum
  rw [exor_cons] at hx
  rw [run_end_last _ cfg h rfl rfl (by simp [hs.checksum, hx]) (by simpa using hp.min)]
  simp [Link.after, Link.reset]

/-- After one packet of a legal transmitter any state with room for a byte is back in step. -/
theorem resync (l : Link) (cfg : TxConfig) (h : Spec.ValidConfig cfg) (p : Packet)
    (hp : ValidPacket p) (hi : LinkInv l) (hl : l.packet.length < maxPacketSize) :
    ∃ l' os os', l.run (Spec.packetWave cfg p) = .ok (l', os ++ os') ∧ l'.Synced ∧
      (l.state = .startbit ∧ packetsOf os = [] ∨ l.Leftover os) ∧
      (packetsOf os' = [] ∨ packetsOf os' = [p]) := by
  obtain ⟨k, l1, os, hk, h1, h2, h3⟩ := flush l cfg h hi hl
  have hv := h.1
  obtain ⟨m, hm⟩ : ∃ m, 2 * cfg.numPreamble.toNat = k + m := ⟨2 * cfg.numPreamble.toNat - k, by omega⟩
  obtain ⟨l2, h4, h5, h6⟩ := run_half_ones m l1 cfg h h2
  have hsplit : Spec.packetWave cfg p = List.replicate k cfg.bit1.toNat ++
      (List.replicate m cfg.bit1.toNat ++
        Spec.wave cfg (p.flatMap (fun b => false :: Spec.byteBits b) ++ [true])) := by
    rw [← List.append_assoc, List.replicate_append_replicate, ← hm, ← wave_half_ones, ← wave_append]
    simp [Spec.packetWave, Spec.frameBits]
  rw [hsplit]
  by_cases hc : 20 ≤ l2.bitCount
  · have h7 := run_frame l2 cfg h p hp h5 hc
    exact ⟨Link.after p, os, [.start, .packet p],
      Link.run_append_ok _ _ h1 (Link.run_append_nil _ _ h4 h7), Link.synced_after p, h3, .inr rfl⟩
  · obtain _ | ⟨b, bs⟩ := p
    · have := hp.min; simp at this
    obtain ⟨l3, h7, h8, h9⟩ := run_zero l2 cfg h h5 (by omega)
    obtain ⟨l4, h10, h11, h12⟩ := run_few (Spec.byteBits b) l3 cfg h h8 (by rw [h9]; simp [Spec.byteBits])
    have h12' : l4.bitCount ≤ 16 := by
      have : (Spec.byteBits b).length = 8 := rfl
      omega
    obtain ⟨l5, h13, h14, h15⟩ := run_skip bs l4 cfg h h11 (by omega)
    obtain ⟨l6, h16, h17, _⟩ := run_half_ones 2 l5 cfg h h14
    refine ⟨l6, os, [], ?_, h17, h3, .inl rfl⟩
    refine Link.run_append_ok _ _ h1 (Link.run_append_nil _ _ h4 ?_)
    rw [List.flatMap_cons, List.cons_append, List.cons_append, wave_cons, List.append_assoc, wave_append,
      wave_append]
    exact Link.run_append_nil _ _ h7 (Link.run_append_nil _ _ h10 (Link.run_append_nil _ _ h13 h16))

/-- `packetEnd` can only be set by the last half bit. -/
theorem Link.run_packetEnd (ts : List Nat) : ∀ {l l' : Link} {os : List LinkOut}, ts ≠ [] → LinkInv l →
    l.run ts = .ok (l', os) → l'.packetEnd = true → ∃ p, p ∈ packetsOf os := by
  induction ts with
  | nil => intro _ _ _ h; exact absurd rfl h
  | cons t ts ih =>
    intro l l' os _ hi h hp
    simp only [Link.run, bind_eq_ok] at h
    obtain ⟨⟨l1, o⟩, h1, ⟨l2, os2⟩, h2, h3⟩ := h
    simp only [pure_eq_ok, Except.ok.injEq, Prod.mk.injEq] at h3
    obtain ⟨rfl, rfl⟩ := h3
    obtain ⟨i1, _, i3⟩ := hi.step h1
    have happ : packetsOf (o.toList ++ os2) = packetsOf o.toList ++ packetsOf os2 := by simp [packetsOf]
    cases ts with
    | nil =>
      cases h2
      obtain ⟨p, rfl⟩ := i3 hp
      exact ⟨p, by simp [packetsOf]⟩
    | cons t' ts =>
      obtain ⟨p, h4⟩ := ih (by simp) i1 h2 hp
      exact ⟨p, by rw [happ]; exact List.mem_append_right _ h4⟩

/-- Nineteen bytes are too many. -/
theorem run_overflow (l : Link) (cfg : TxConfig) (h : Spec.ValidConfig cfg) (bs : List Byte)
    (hb : maxPacketSize < bs.length) (hs : l.Synced) :
    ∃ w t w', Spec.packetWave cfg bs = w ++ t :: w' ∧ ∃ l1, l.run w = .ok (l1, [.start]) ∧
      l1.step t = .error .overflow := by
  have hv := h.1
  obtain _ | ⟨b, bs⟩ := bs
  · simp at hb
  simp only [List.length_cons, maxPacketSize] at hb
  have hsplit : bs = bs.take 17 ++ bs.drop 17 := (List.take_append_drop 17 bs).symm
  cases hd : bs.drop 17 with
  | nil =>
    have := congrArg List.length hd
    simp at this
    omega
  | cons x r =>
    rw [hd] at hsplit
    have hlen : (bs.take 17).length = 17 := by rw [List.length_take]; omega
    generalize bs.take 17 = as at hsplit hlen
    subst hsplit
    obtain ⟨d, hdd⟩ : ∃ d, Spec.wave cfg [x.getLsbD 0] = [d, d] := by
      cases x.getLsbD 0 <;> exact ⟨_, rfl⟩
    -- up to the first half of the last bit of the 19th byte
    let bits7 := [x.getLsbD 7, x.getLsbD 6, x.getLsbD 5, x.getLsbD 4, x.getLsbD 3, x.getLsbD 2, x.getLsbD 1]
    have hbits : Spec.byteBits x = bits7 ++ [x.getLsbD 0] := rfl
    refine ⟨Spec.wave cfg (List.replicate cfg.numPreamble.toNat true) ++ (Spec.wave cfg [false] ++
        (Spec.wave cfg (Spec.byteBits b) ++
          (Spec.wave cfg (as.flatMap (fun b => false :: Spec.byteBits b)) ++ (Spec.wave cfg [false] ++
            (Spec.wave cfg bits7 ++ [d]))))), d,
      Spec.wave cfg (r.flatMap (fun b => false :: Spec.byteBits b) ++ [true]), ?_, ?_⟩
    · simp only [Spec.packetWave, Spec.frameBits, List.flatMap_cons, List.flatMap_append, List.cons_append, wave_append,
        hbits]
      rw [wave_cons cfg false (Spec.byteBits b ++ _), wave_append, wave_append, wave_cons cfg false (_ ++ _)]
      simp only [wave_append, List.append_assoc, List.cons_append, List.nil_append]
      rw [wave_cons cfg (x.getLsbD 0), hdd]
      rfl
    · have hsev : ∀ l0 : Link, l0.state = .data → l0.isHalfbit = false → l0.packetEnd = false →
          l0.bitCount = 0 → ∃ l1, l0.run (Spec.wave cfg bits7) = .ok (l1, []) ∧ l1.state = .data ∧
            l1.isHalfbit = false ∧ l1.packetEnd = false ∧ l1.bitCount = 7 ∧ l1.packet = l0.packet := by
        intro l0 a1 a2 a3 a4
        obtain ⟨st, bc, by_, cs, ih, pe, pk⟩ := l0
        simp only at a1 a2 a3 a4
        subst a1 a2 a3 a4
        have : ∃ y, (⟨.data, 0, by_, cs, false, false, pk⟩ : Link).run (Spec.wave cfg bits7) =
            .ok (⟨.data, 7, y, cs, false, false, pk⟩, []) := by
          show ∃ y, Link.run _ (Spec.wave cfg [_, _, _, _, _, _, _]) = _
          refine ⟨?_, ?_⟩
          rotate_left
          rw [wave_cons]
          refine Link.run_append_nil _ _ (run_data_bit _ cfg h _ rfl rfl rfl (by simp)) ?_
          rw [wave_cons]
          refine Link.run_append_nil _ _ (run_data_bit _ cfg h _ rfl rfl rfl (by simp)) ?_
          rw [wave_cons]
          refine Link.run_append_nil _ _ (run_data_bit _ cfg h _ rfl rfl rfl (by simp)) ?_
          rw [wave_cons]
          refine Link.run_append_nil _ _ (run_data_bit _ cfg h _ rfl rfl rfl (by simp)) ?_
          rw [wave_cons]
          refine Link.run_append_nil _ _ (run_data_bit _ cfg h _ rfl rfl rfl (by simp)) ?_
          rw [wave_cons]
          refine Link.run_append_nil _ _ (run_data_bit _ cfg h _ rfl rfl rfl (by simp)) ?_
          rw [run_data_bit _ cfg h _ rfl rfl rfl (by simp)]
        obtain ⟨y, hy⟩ := this
        exact ⟨_, hy, rfl, rfl, rfl, rfl, rfl⟩
      have hbeg : ∃ l0, l.run (Spec.wave cfg (List.replicate cfg.numPreamble.toNat true) ++ (Spec.wave cfg [false] ++
        (Spec.wave cfg (Spec.byteBits b) ++
          (Spec.wave cfg (as.flatMap (fun b => false :: Spec.byteBits b)) ++ Spec.wave cfg [false])))) =
            .ok (l0, [.start]) ∧ l0.state = .data ∧ l0.isHalfbit = false ∧ l0.packetEnd = false ∧
            l0.bitCount = 0 ∧ l0.packet.length = 18 := by
        refine ⟨_, Link.run_append_nil _ _ (run_ones _ l cfg h hs.state)
          (Link.run_append_ok (ps' := []) _ _ (run_start _ cfg h (by exact hs.state)
            (Nat.le_trans (by omega : 20 ≤ 2 * cfg.numPreamble.toNat) (Nat.le_add_left _ _)))
          (Link.run_append_nil _ _ (run_byte _ cfg h b rfl rfl rfl rfl hs.byte (by simp [maxPacketSize]))
          (Link.run_append_nil _ _ (run_bytes as _ cfg h rfl rfl rfl rfl hs.byte
            (by simp [maxPacketSize]; omega)) (run_separator _ cfg h rfl rfl rfl)))), rfl, rfl, rfl, rfl, ?_⟩
        simp [hlen]
      obtain ⟨l0, b1, b2, b3, b4, b5, b6⟩ := hbeg
      obtain ⟨l1, c1, c2, c3, c4, c5, c6⟩ := hsev l0 b2 b3 b4 b5
      have hstep : l1.step d = .ok ({ l1 with isHalfbit := true }, none) ∧
          ({ l1 with isHalfbit := true } : Link).step d = .error .overflow := by
        obtain ⟨st, bc, by_, cs, ih, pe, pk⟩ := l1
        simp only at c2 c3 c4 c5 c6
        subst c2 c3 c4 c5 c6
        have hv : time2bit d ≠ .invalid := by
          cases hx : x.getLsbD 0 <;> rw [hx] at hdd <;> simp [Spec.wave] at hdd <;> rw [← hdd]
          · rw [time2bit_bit0 h]; decide
          · rw [time2bit_bit1 h]; decide
        cases ht : time2bit d
        · simp [Link.step, ht, LinkState.halves, Link.bit, b6, maxPacketSize]
        · simp [Link.step, ht, LinkState.halves, Link.bit, b6, maxPacketSize]
        · exact absurd ht hv
      refine ⟨_, ?_, hstep.2⟩
      have h5 : l1.run [d] = .ok ({ l1 with isHalfbit := true }, []) := by
        rw [Link.run_cons _ hstep.1]; rfl
      have h6 := Link.run_append_ok (ps' := []) _ _ b1 (Link.run_append_nil _ _ c1 h5)
      simpa only [List.append_assoc, List.append_nil] using h6

/-- `receive` faults if the assembly does. -/
theorem receive_overflow (e : Env) (s : Rx) (time rand : Nat)
    (h : s.link.step time = .error .overflow) (hf : s.deque.length < e.rxDeque) :
    s.receive e time rand = .error .overflow := by
  have key : ∀ (s2 : Rx) (v : Bool), s2.link.bit v = .error .overflow →
      s2.receiveBit e v rand = .error .overflow := by
    intro s2 v hb
    unfold Link.bit at hb
    unfold Rx.receiveBit
    dsimp only
    cases hs : s2.link.state <;> rw [hs] at hb <;> dsimp only at hb ⊢
    · split at hb
      · cases hb
      · split at hb <;> cases hb
    · cases hb
    · split at hb
      · cases hb
      · rename_i hc
        rw [if_neg hc]
        split at hb
        · cases hb
        · rename_i hc
          simp [pushBack, hc]
    · split at hb
      · cases hb
      · split at hb <;> cases hb
  unfold Link.step at h
  unfold Rx.receive
  dsimp only at h ⊢
  have hne : s.deque.length ≠ e.rxDeque := by omega
  cases ht : time2bit time <;> rw [ht] at h <;> dsimp only at h ⊢
  case invalid => cases h
  all_goals
    split at h
    · cases h
    · rename_i hh
      rw [if_neg hh]
      cases hst : s.link.state.halves
      · simp only [hst, Bool.false_eq_true, if_false] at h ⊢
        rw [if_neg hne]
        exact key _ _ h
      · simp only [hst, if_true] at h ⊢
        rw [if_neg hne]
        exact key _ _ h

end Dcc
