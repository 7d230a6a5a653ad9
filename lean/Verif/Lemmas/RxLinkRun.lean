import Verif.Lemmas.RxLink
/-! Assembling a packet from the durations of a legal transmitter. -/
namespace Dcc

/-- Feed durations; what they lead to. -/
def Link.run (l : Link) : List Nat → R (Link × List LinkOut)
  | [] => .ok (l, [])
  | t :: ts => do
    let r ← l.step t
    let r' ← r.1.run ts
    return (r'.1, r.2.toList ++ r'.2)

@[simp] theorem Link.run_nil (l : Link) : l.run [] = .ok (l, []) := rfl

theorem Link.run_cons {l l1 : Link} {po : Option LinkOut} {t : Nat} (ts : List Nat)
    (h : l.step t = .ok (l1, po)) :
    l.run (t :: ts) = (do let r ← l1.run ts; return (r.1, po.toList ++ r.2)) := by
  simp [Link.run, h]

theorem Link.run_append {l l1 : Link} {ps : List LinkOut} (as bs : List Nat)
    (h : l.run as = .ok (l1, ps)) :
    l.run (as ++ bs) = (do let r ← l1.run bs; return (r.1, ps ++ r.2)) := by
  induction as generalizing l ps with
  | nil =>
    cases h
    cases hb : l1.run bs <;> simp [hb]
  | cons t ts ih =>
    simp only [Link.run, bind_eq_ok] at h
    obtain ⟨⟨l2, po⟩, h1, ⟨l3, ps'⟩, h2, h3⟩ := h
    simp only [pure_eq_ok, Except.ok.injEq, Prod.mk.injEq] at h3
    obtain ⟨rfl, rfl⟩ := h3
    rw [List.cons_append, Link.run_cons _ h1, ih h2]
    cases hb : l3.run bs <;> simp

theorem Link.run_append_nil {l l1 l2 : Link} {ps : List LinkOut} (as bs : List Nat)
    (h : l.run as = .ok (l1, [])) (h' : l1.run bs = .ok (l2, ps)) :
    l.run (as ++ bs) = .ok (l2, ps) := by
  rw [Link.run_append as bs h, h']; rfl

theorem Link.run_append_ok {l l1 l2 : Link} {ps ps' : List LinkOut} (as bs : List Nat)
    (h : l.run as = .ok (l1, ps)) (h' : l1.run bs = .ok (l2, ps')) :
    l.run (as ++ bs) = .ok (l2, ps ++ ps') := by
  rw [Link.run_append as bs h, h']; rfl

/-- A prefix of a run that yields nothing yields nothing. -/
theorem Link.run_prefix_nil {l l1 : Link} (as bs : List Nat) (h : l.run (as ++ bs) = .ok (l1, [])) :
    ∃ l2, l.run as = .ok (l2, []) ∧ l2.run bs = .ok (l1, []) := by
  induction as generalizing l with
  | nil => exact ⟨l, rfl, h⟩
  | cons t ts ih =>
    simp only [List.cons_append, Link.run, bind_eq_ok] at h
    obtain ⟨⟨l2, po⟩, h1, ⟨l3, ps'⟩, h2, h3⟩ := h
    simp only [pure_eq_ok, Except.ok.injEq, Prod.mk.injEq, List.append_eq_nil_iff] at h3
    obtain ⟨rfl, h4, rfl⟩ := h3
    obtain ⟨l4, h5, h6⟩ := ih h2
    exact ⟨l4, by rw [Link.run_cons _ h1, h5]; simp [h4], h6⟩

theorem time2bit_bit1 {cfg : TxConfig} (h : Spec.ValidConfig cfg) : time2bit cfg.bit1.toNat = .b1 := by
  obtain ⟨_, _, h1, h2, _, _⟩ := h
  unfold time2bit
  rw [if_pos ⟨by omega, by omega⟩]

theorem time2bit_bit0 {cfg : TxConfig} (h : Spec.ValidConfig cfg) : time2bit cfg.bit0.toNat = .b0 := by
  obtain ⟨_, _, _, _, h1, h2⟩ := h
  unfold time2bit
  rw [if_neg (by omega), if_pos ⟨by omega, by omega⟩]

/-- Two half bits of the same value in a state that counts half bits. -/
theorem run_bit (l : Link) (cfg : TxConfig) (h : Spec.ValidConfig cfg) (b : Bool)
    (hs : l.state.halves = true) (hh : l.isHalfbit = false) :
    l.run (Spec.wave cfg [b]) = (do
      let r ← ({ l with packetEnd := false } : Link).bit b
      return (r.1, r.2.toList)) := by
  have h1 := time2bit_bit1 h
  have h0 := time2bit_bit0 h
  obtain ⟨st, bc, by_, cs, ih, pe, pk⟩ := l
  simp only at hs hh
  subst hh
  cases b
  · simp only [Spec.wave, List.flatMap_cons, List.flatMap_nil, List.append_nil, Bool.false_eq_true,
      if_false, Link.run, Link.step, h0, hs, Bool.not_false, Bool.and_self, if_true, ok_bind,
      Bool.not_true, Bool.and_false, reduceCtorEq, decide_false]
    cases Link.bit { state := st, bitCount := bc, byte := by_, checksum := cs, isHalfbit := false,
                     packetEnd := false, packet := pk } false <;> simp
  · simp only [Spec.wave, List.flatMap_cons, List.flatMap_nil, List.append_nil, Bool.false_eq_true,
      if_false, Link.run, Link.step, h1, hs, Bool.not_false, Bool.and_self, if_true, ok_bind,
      Bool.not_true, Bool.and_false, decide_true]
    cases Link.bit { state := st, bitCount := bc, byte := by_, checksum := cs, isHalfbit := false,
                     packetEnd := false, packet := pk } true <;> simp

/-- Data bits with the bits collected so far. -/
theorem run_data_bit (l : Link) (cfg : TxConfig) (h : Spec.ValidConfig cfg) (b : Bool)
    (hs : l.state = .data) (hh : l.isHalfbit = false) (hp : l.packetEnd = false)
    (hc : l.bitCount + 1 < 8) :
    l.run (Spec.wave cfg [b]) =
      .ok ({ l with byte := (l.byte <<< 1) ||| (if b then 1#8 else 0#8), bitCount := l.bitCount + 1 }, []) := by
  rw [run_bit l cfg h b (by rw [hs]; rfl) hh]
  obtain ⟨st, bc, by_, cs, ih, pe, pk⟩ := l
  simp only at hs hp hc
  subst hs hp
  simp [Link.bit, hc]

/-- The byte collected from its bits, most significant first. -/
theorem byte_of_bits : ∀ b : Byte,
    ((((((((0#8 <<< 1 ||| (if b.getLsbD 7 then 1#8 else 0#8)) <<< 1 |||
      (if b.getLsbD 6 then 1#8 else 0#8)) <<< 1 ||| (if b.getLsbD 5 then 1#8 else 0#8)) <<< 1 |||
      (if b.getLsbD 4 then 1#8 else 0#8)) <<< 1 ||| (if b.getLsbD 3 then 1#8 else 0#8)) <<< 1 |||
      (if b.getLsbD 2 then 1#8 else 0#8)) <<< 1 ||| (if b.getLsbD 1 then 1#8 else 0#8)) <<< 1 |||
      (if b.getLsbD 0 then 1#8 else 0#8)) = b := by decide +kernel

theorem run_data_last (l : Link) (cfg : TxConfig) (h : Spec.ValidConfig cfg) (b : Bool)
    (hs : l.state = .data) (hh : l.isHalfbit = false) (hp : l.packetEnd = false)
    (hc : l.bitCount = 7) (hl : l.packet.length < maxPacketSize) :
    l.run (Spec.wave cfg [b]) =
      .ok ({ l with
        packet := l.packet ++ [(l.byte <<< 1) ||| (if b then 1#8 else 0#8)]
        checksum := l.checksum ^^^ ((l.byte <<< 1) ||| (if b then 1#8 else 0#8))
        bitCount := 0, byte := 0#8, state := .endbit }, []) := by
  rw [run_bit l cfg h b (by rw [hs]; rfl) hh]
  obtain ⟨st, bc, by_, cs, ih, pe, pk⟩ := l
  simp only at hs hp hc hl
  subst hs hp hc
  simp [Link.bit, hl]

theorem wave_cons (cfg : TxConfig) (b : Bool) (bs : List Bool) :
    Spec.wave cfg (b :: bs) = Spec.wave cfg [b] ++ Spec.wave cfg bs := wave_append cfg [b] bs

theorem wave_nil (cfg : TxConfig) : Spec.wave cfg [] = [] := rfl

/-- A whole data byte. -/
theorem run_byte (l : Link) (cfg : TxConfig) (h : Spec.ValidConfig cfg) (b : Byte)
    (hs : l.state = .data) (hh : l.isHalfbit = false) (hp : l.packetEnd = false)
    (hc : l.bitCount = 0) (hb : l.byte = 0#8) (hl : l.packet.length < maxPacketSize) :
    l.run (Spec.wave cfg (Spec.byteBits b)) =
      .ok ({ l with packet := l.packet ++ [b], checksum := l.checksum ^^^ b, state := .endbit }, []) := by
  obtain ⟨st, bc, by_, cs, ih, pe, pk⟩ := l
  simp only at hs hh hp hc hb hl
  subst hs hh hp hc hb
  unfold Spec.byteBits
  rw [wave_cons]
  refine Link.run_append_nil _ _ (run_data_bit _ cfg h _ rfl rfl rfl (by simp)) ?_
  rw [wave_cons]
  refine Link.run_append_nil _ _ (run_data_bit _ cfg h _ rfl rfl rfl (by simp)) ?_
  rw [wave_cons]
  refine Link.run_append_nil _ _ (run_data_bit _ cfg h _ rfl rfl rfl (by simp)) ?_
  rw [wave_cons]
  refine Link.run_append_nil _ _ (run_data_bit _ cfg h _ rfl rfl rfl (by simp)) ?_
  rw [wave_cons]
  refine Link.run_append_nil _ _ (run_data_bit _ cfg h _ rfl rfl rfl (by simp)) ?_
  rw [wave_cons]
  refine Link.run_append_nil _ _ (run_data_bit _ cfg h _ rfl rfl rfl (by simp)) ?_
  rw [wave_cons]
  refine Link.run_append_nil _ _ (run_data_bit _ cfg h _ rfl rfl rfl (by simp)) ?_
  have key := byte_of_bits b
  rw [run_data_last _ cfg h _ rfl rfl rfl (by simp) hl]
  dsimp only
  rw [key]

/-- The separator zero in front of a further byte. -/
theorem run_separator (l : Link) (cfg : TxConfig) (h : Spec.ValidConfig cfg)
    (hs : l.state = .endbit) (hh : l.isHalfbit = false) (hp : l.packetEnd = false) :
    l.run (Spec.wave cfg [false]) = .ok ({ l with state := .data }, []) := by
  rw [run_bit l cfg h false (by rw [hs]; rfl) hh]
  obtain ⟨st, bc, by_, cs, ih, pe, pk⟩ := l
  simp only at hs hp
  subst hs hp
  simp [Link.bit]

/-- Further bytes. -/
theorem run_bytes (bs : List Byte) (l : Link) (cfg : TxConfig) (h : Spec.ValidConfig cfg)
    (hs : l.state = .endbit) (hh : l.isHalfbit = false) (hp : l.packetEnd = false)
    (hc : l.bitCount = 0) (hb : l.byte = 0#8) (hl : l.packet.length + bs.length ≤ maxPacketSize) :
    l.run (Spec.wave cfg (bs.flatMap (fun b => false :: Spec.byteBits b))) =
      .ok ({ l with packet := l.packet ++ bs, checksum := l.checksum ^^^ exor bs }, []) := by
  induction bs generalizing l with
  | nil => simp [wave_nil]
  | cons b bs ih =>
    rw [List.flatMap_cons, List.cons_append, wave_cons]
    refine Link.run_append_nil _ _ (run_separator l cfg h hs hh hp) ?_
    rw [wave_append]
    refine Link.run_append_nil _ _ (run_byte { l with state := .data } cfg h b rfl hh hp hc hb
      (by simp at hl ⊢; omega)) ?_
    rw [ih { l with packet := l.packet ++ [b], checksum := l.checksum ^^^ b, state := .endbit }
      rfl hh hp hc hb (by simp at hl ⊢; omega)]
    simp [exor_cons, hs, BitVec.xor_assoc]

/-- Ones in the preamble. -/
theorem run_ones (n : Nat) (l : Link) (cfg : TxConfig) (h : Spec.ValidConfig cfg)
    (hs : l.state = .preamble) :
    l.run (Spec.wave cfg (List.replicate n true)) =
      .ok ({ l with bitCount := l.bitCount + 2 * n, packetEnd := l.packetEnd && n == 0 }, []) := by
  have h1 := time2bit_bit1 h
  induction n generalizing l with
  | zero => simp [wave_nil]
  | succ n ih =>
    obtain ⟨st, bc, by_, cs, ih', pe, pk⟩ := l
    simp only at hs
    subst hs
    rw [List.replicate_succ, wave_cons]
    refine Link.run_append_nil (l1 := ⟨.preamble, bc + 2, by_, cs, ih', false, pk⟩) _ _ ?_ ?_
    · simp [Spec.wave, Link.run, Link.step, h1, LinkState.halves, Link.bit]
    · rw [ih _ rfl]
      simp
      omega

/-- The start bit after a sufficient preamble. -/
theorem run_start (l : Link) (cfg : TxConfig) (h : Spec.ValidConfig cfg)
    (hs : l.state = .preamble) (hc : 20 ≤ l.bitCount) :
    l.run (Spec.wave cfg [false]) =
      .ok (⟨.data, 0, l.byte, l.checksum, false, false, []⟩, [.start]) := by
  have h0 := time2bit_bit0 h
  obtain ⟨st, bc, by_, cs, ih', pe, pk⟩ := l
  simp only at hs hc
  subst hs
  have : ¬ bc < 20 := by omega
  simp [Spec.wave, Link.run, Link.step, h0, LinkState.halves, Link.bit, this]

/-- The end bit, up to its last half. -/
theorem run_end_half (l : Link) (cfg : TxConfig) (h : Spec.ValidConfig cfg)
    (hs : l.state = .endbit) (hh : l.isHalfbit = false) :
    l.run [cfg.bit1.toNat] = .ok ({ l with isHalfbit := true, packetEnd := false }, []) := by
  have h1 := time2bit_bit1 h
  obtain ⟨st, bc, by_, cs, ih', pe, pk⟩ := l
  simp only at hs hh
  subst hs hh
  simp [Link.run, Link.step, h1, LinkState.halves]

/-- The last half of the end bit. -/
theorem run_end_last (l : Link) (cfg : TxConfig) (h : Spec.ValidConfig cfg)
    (hs : l.state = .endbit) (hh : l.isHalfbit = true) (hc : l.checksum = 0#8)
    (hl : 3 ≤ l.packet.length) :
    l.run [cfg.bit1.toNat] = .ok (Link.reset { l with isHalfbit := false, packetEnd := true }, [.packet l.packet]) := by
  have h1 := time2bit_bit1 h
  obtain ⟨st, bc, by_, cs, ih', pe, pk⟩ := l
  simp only at hs hh hc hl
  subst hs hh hc
  simp [Link.run, Link.step, h1, LinkState.halves, Link.bit, hl]

/-- The state after a packet. -/
def Link.after (p : Packet) : Link := { packet := p, packetEnd := true }

/-- The state before the last half bit of a packet. -/
def Link.beforeEnd (p : Packet) : Link := { packet := p, state := .endbit, isHalfbit := true }

theorem packetWave_split (cfg : TxConfig) (b : Byte) (bs : List Byte) :
    Spec.packetWave cfg (b :: bs) =
      (Spec.wave cfg (List.replicate cfg.numPreamble.toNat true) ++ (Spec.wave cfg [false] ++
        (Spec.wave cfg (Spec.byteBits b) ++
          (Spec.wave cfg (bs.flatMap (fun b => false :: Spec.byteBits b)) ++ [cfg.bit1.toNat])))) ++
        [cfg.bit1.toNat] := by
  simp only [Spec.packetWave, Spec.frameBits, List.flatMap_cons, List.cons_append, wave_append]
  rw [wave_cons]
  simp [Spec.wave]

/-- Everything but the last half bit of a packet completes nothing. -/
theorem run_packet_init (l : Link) (cfg : TxConfig) (h : Spec.ValidConfig cfg) (p : Packet)
    (hp : ValidPacket p) (hs : l.state = .preamble) (hb : l.byte = 0#8) (hc : l.checksum = 0#8) :
    ∃ w, Spec.packetWave cfg p = w ++ [cfg.bit1.toNat] ∧
      l.run w = .ok (Link.beforeEnd p, [.start]) := by
  obtain _ | ⟨b, bs⟩ := p
  · have := hp.min; simp at this
  refine ⟨_, packetWave_split cfg b bs, ?_⟩
  have hv := h.1
  refine Link.run_append_nil _ _ (run_ones _ l cfg h hs) ?_
  refine Link.run_append_ok (ps' := []) _ _ (run_start _ cfg h (by exact hs)
    (Nat.le_trans (by omega : 20 ≤ 2 * cfg.numPreamble.toNat) (Nat.le_add_left _ _))) ?_
  refine Link.run_append_nil _ _ (run_byte _ cfg h b rfl rfl rfl rfl hb (by simp [maxPacketSize])) ?_
  have hm := hp.max
  refine Link.run_append_nil _ _ (run_bytes bs _ cfg h rfl rfl rfl rfl hb
    (by simp at hm ⊢; omega)) ?_
  rw [run_end_half _ cfg h rfl rfl]
  have hx := hp.sum
  rw [exor_cons] at hx
  simp [Link.beforeEnd, hc, hb, hx]

theorem run_packet (l : Link) (cfg : TxConfig) (h : Spec.ValidConfig cfg) (p : Packet)
    (hp : ValidPacket p) (hs : l.state = .preamble) (hb : l.byte = 0#8) (hc : l.checksum = 0#8) :
    l.run (Spec.packetWave cfg p) = .ok (Link.after p, [.start, .packet p]) := by
  obtain ⟨w, hw, h1⟩ := run_packet_init l cfg h p hp hs hb hc
  rw [hw]
  refine Link.run_append_ok (ps' := [.packet p]) _ _ h1 ?_
  rw [run_end_last _ cfg h rfl rfl rfl hp.min]
  rfl

end Dcc
