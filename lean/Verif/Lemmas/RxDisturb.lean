import Verif.Lemmas.RxSync
import Verif.Spec.Disturb
/-! What the receiver makes of a disturbed packet. -/
namespace Dcc
open Spec

theorem modify_right {α} (f : α → α) (as bs : List α) (k : Nat) :
    (as ++ bs).modify (as.length + k) f = as ++ bs.modify k f := by
  induction as with
  | nil => simp
  | cons a as ih =>
    rw [List.cons_append, List.length_cons, show as.length + 1 + k = (as.length + k) + 1 by omega,
      List.modify_succ_cons, ih, List.cons_append]

theorem modify_left {α} (f : α → α) (as bs : List α) (k : Nat) (h : k < as.length) :
    (as ++ bs).modify k f = as.modify k f ++ bs := by
  induction as generalizing k with
  | nil => simp at h
  | cons a as ih =>
    cases k with
    | zero => rfl
    | succ k =>
      rw [List.cons_append, List.modify_succ_cons, ih k (by simpa using h), List.modify_succ_cons,
        List.cons_append]

/-- The bits of bytes, each with a zero in front. -/
def framed (bs : List Byte) : List Bool := bs.flatMap fun b => false :: byteBits b

theorem framed_length (bs : List Byte) : (framed bs).length = 9 * bs.length := by
  induction bs with
  | nil => rfl
  | cons b bs ih =>
    show ((false :: byteBits b) ++ framed bs).length = _
    rw [List.length_append, ih]
    simp [byteBits]
    omega

theorem framed_append (as bs : List Byte) : framed (as ++ bs) = framed as ++ framed bs := by
  simp [framed]

theorem framed_cons (b : Byte) (bs : List Byte) : framed (b :: bs) = false :: byteBits b ++ framed bs := rfl

theorem byteBits_modify : ∀ (b : Byte) (j : Fin 8),
    (byteBits b).modify j not = byteBits (b ^^^ (0x80#8 >>> j.val)) := by
  decide +kernel

/-- A data bit. -/
theorem disturbed_data (n : Nat) (p : Packet) (i j : Nat) (hi : i < p.length) (hj : j < 8) :
    disturbed n p (n + 9 * i + 1 + j) = frameBits n (p.set i (p[i] ^^^ (0x80#8 >>> j))) := by
  have hp : p = p.take i ++ p[i] :: p.drop (i + 1) := by simp
  have hs : p.set i (p[i] ^^^ (0x80#8 >>> j)) = p.take i ++ (p[i] ^^^ (0x80#8 >>> j)) :: p.drop (i + 1) := by
    rw [List.set_eq_take_append_cons_drop, if_pos hi]
  rw [hs]
  have hl : (p.take i).length = i := by rw [List.length_take]; omega
  unfold disturbed
  generalize p[i] = b at *
  generalize p.take i = as at *
  generalize p.drop (i + 1) = bs at *
  subst hp
  have e : ∀ x, frameBits n (as ++ x :: bs) =
      (List.replicate n true ++ framed as ++ [false]) ++ (byteBits x ++ (framed bs ++ [true])) := by
    intro x
    show List.replicate n true ++ framed (as ++ x :: bs) ++ [true] = _
    rw [framed_append, framed_cons]
    simp
  rw [e, e, show n + 9 * i + 1 + j = (List.replicate n true ++ framed as ++ [false]).length + j by
    simp [framed_length, hl]; omega, modify_right, modify_left _ _ _ _ (by simpa [byteBits] using hj),
    byteBits_modify b ⟨j, hj⟩]

/-- A separator. -/
theorem disturbed_separator (n : Nat) (p : Packet) (i : Nat) (hi : i < p.length) :
    disturbed n p (n + 9 * i) =
      List.replicate n true ++ framed (p.take i) ++ [true] ++ byteBits p[i] ++ framed (p.drop (i + 1)) ++
        [true] := by
  have hp : p = p.take i ++ p[i] :: p.drop (i + 1) := by simp
  have hl : (p.take i).length = i := by rw [List.length_take]; omega
  unfold disturbed
  generalize p[i] = b at *
  generalize p.take i = as at *
  generalize p.drop (i + 1) = bs at *
  subst hp
  have e : frameBits n (as ++ b :: bs) =
      (List.replicate n true ++ framed as) ++ (false :: (byteBits b ++ (framed bs ++ [true]))) := by
    show List.replicate n true ++ framed (as ++ b :: bs) ++ [true] = _
    rw [framed_append, framed_cons]
    simp
  rw [e, show n + 9 * i = (List.replicate n true ++ framed as).length + 0 by simp [framed_length, hl],
    modify_right]
  simp

/-- The end bit. -/
theorem disturbed_end (n : Nat) (p : Packet) :
    disturbed n p (n + 9 * p.length) = List.replicate n true ++ framed p ++ [false] := by
  unfold disturbed
  show (List.replicate n true ++ framed p ++ [true]).modify _ not = _
  rw [show n + 9 * p.length = (List.replicate n true ++ framed p).length + 0 by simp [framed_length],
    modify_right]
  rfl

/-- A bit of the preamble. -/
theorem disturbed_preamble (n : Nat) (p : Packet) (k : Nat) (hk : k < n) :
    disturbed n p k =
      List.replicate k true ++ false :: (List.replicate (n - k - 1) true ++ framed p ++ [true]) := by
  unfold disturbed
  obtain ⟨m, rfl⟩ : ∃ m, n = k + (m + 1) := ⟨n - k - 1, by omega⟩
  have e : frameBits (k + (m + 1)) p =
      List.replicate k true ++ (true :: (List.replicate m true ++ framed p ++ [true])) := by
    show List.replicate (k + (m + 1)) true ++ framed p ++ [true] = _
    rw [← List.replicate_append_replicate, List.replicate_succ]
    simp
  have h := modify_right not (List.replicate k true) (true :: (List.replicate m true ++ framed p ++ [true])) 0
  rw [List.length_replicate] at h
  rw [e, show k + (m + 1) - k - 1 = m by omega]
  exact h

/-! ### Runs of the receiver -/

/-- The last half of an end bit behind bytes that are no packet. -/
theorem run_end_bad (l : Link) (cfg : TxConfig) (h : ValidConfig cfg) (hs : l.state = .endbit)
    (hh : l.isHalfbit = false) (hc : ¬ (l.checksum = 0#8 ∧ 3 ≤ l.packet.length)) :
    ∃ l', l.run (wave cfg [true]) = .ok (l', [.bad]) ∧ l'.Synced ∧ l'.bitCount = 0 := by
  refine ⟨Link.reset { l with packetEnd := false, packet := [] }, ?_, ⟨rfl, rfl, rfl⟩, rfl⟩
  rw [run_bit l cfg h true (by rw [hs]; rfl) hh]
  obtain ⟨st, bc, by_, cs, ih', pe, pk⟩ := l
  simp only at hs hc
  subst hs
  simp only [Link.bit, Bool.not_true, Bool.false_eq_true, if_false, if_neg hc, ok_bind]
  rfl

theorem run_end_good (l : Link) (cfg : TxConfig) (h : ValidConfig cfg) (hs : l.state = .endbit)
    (hh : l.isHalfbit = false) (hc : l.checksum = 0#8 ∧ 3 ≤ l.packet.length) :
    ∃ l', l.run (wave cfg [true]) = .ok (l', [.packet l.packet]) ∧ l'.Synced ∧ l'.bitCount = 0 := by
  refine ⟨Link.reset { l with packetEnd := true }, ?_, ⟨rfl, rfl, rfl⟩, rfl⟩
  rw [run_bit l cfg h true (by rw [hs]; rfl) hh]
  obtain ⟨st, bc, by_, cs, ih', pe, pk⟩ := l
  simp only at hs hc
  subst hs
  simp only [Link.bit, Bool.not_true, Bool.false_eq_true, if_false, if_pos hc, ok_bind]
  rfl

/-- Preamble and bytes. -/
theorem run_head (l : Link) (cfg : TxConfig) (h : ValidConfig cfg) (hl : l.Synced) (n : Nat)
    (hn : 20 ≤ l.bitCount + 2 * n) (b : Byte) (bs : List Byte) (hlen : bs.length < maxPacketSize) :
    ∃ l', l.run (wave cfg (List.replicate n true ++ framed (b :: bs))) = .ok (l', [.start]) ∧
      l'.state = .endbit ∧ l'.isHalfbit = false ∧ l'.packetEnd = false ∧ l'.bitCount = 0 ∧ l'.byte = 0#8 ∧
      l'.packet = b :: bs ∧ l'.checksum = exor (b :: bs) := by
  rw [framed_cons, wave_append, List.cons_append, wave_cons, wave_append]
  have h1 := run_ones n l cfg h hl.state
  have h2 := run_start { l with
    bitCount := l.bitCount + 2 * n, packetEnd := l.packetEnd && n == 0 } cfg h hl.state hn
  have h3 := run_byte ⟨.data, 0, l.byte, l.checksum, false, false, []⟩ cfg h b rfl rfl rfl rfl hl.byte
    (by simp [maxPacketSize])
  have h4 := run_bytes bs ⟨.endbit, 0, l.byte, l.checksum ^^^ b, false, false, [b]⟩ cfg h rfl rfl rfl rfl hl.byte
    (by simp [maxPacketSize] at hlen ⊢; omega)
  exact ⟨_, Link.run_append_nil _ _ h1 (Link.run_append_ok (ps' := []) _ _ h2 (Link.run_append_nil _ _ h3 h4)),
    rfl, rfl, rfl, rfl, hl.byte, rfl, by simp [hl.checksum, exor_cons]⟩

/-- Preamble, bytes and end bit: a packet if the checksum says so. -/
theorem run_whole (l : Link) (cfg : TxConfig) (h : ValidConfig cfg) (hl : l.Synced) (n : Nat)
    (hn : 20 ≤ l.bitCount + 2 * n) (bs : List Byte) (hb : bs ≠ []) (hlen : bs.length ≤ maxPacketSize) :
    ∃ l' os, l.run (wave cfg (List.replicate n true ++ framed bs ++ [true])) = .ok (l', os) ∧ l'.Synced ∧
      l'.bitCount = 0 ∧ packetsOf os = if exor bs = 0#8 ∧ 3 ≤ bs.length then [bs] else [] := by
  obtain _ | ⟨b, bs⟩ := bs
  · exact absurd rfl hb
  obtain ⟨l1, h1, h2, h3, -, -, -, h7, h8⟩ := run_head l cfg h hl n hn b bs (by simp at hlen; omega)
  rw [wave_append]
  by_cases hc : exor (b :: bs) = 0#8 ∧ 3 ≤ (b :: bs).length
  · obtain ⟨l2, g1, g2, g3⟩ := run_end_good l1 cfg h h2 h3 (by rw [h7, h8]; exact hc)
    exact ⟨l2, _, Link.run_append_ok _ _ h1 g1, g2, g3, by rw [if_pos hc, h7]; rfl⟩
  · obtain ⟨l2, g1, g2, g3⟩ := run_end_bad l1 cfg h h2 h3 (by rw [h7, h8]; exact hc)
    exact ⟨l2, _, Link.run_append_ok _ _ h1 g1, g2, g3, by rw [if_neg hc]; rfl⟩

/-- A packet behind a preamble that is too short is skipped. -/
theorem run_short (l : Link) (cfg : TxConfig) (h : ValidConfig cfg) (hl : l.Synced) (n : Nat)
    (hn : l.bitCount + 2 * n < 20) (bs : List Byte) (hb : bs ≠ []) :
    ∃ l', l.run (wave cfg (List.replicate n true ++ framed bs ++ [true])) = .ok (l', []) ∧ l'.Synced := by
  obtain _ | ⟨b, bs⟩ := bs
  · exact absurd rfl hb
  obtain ⟨l1, h1, h2, h3⟩ := run_few (List.replicate n true) l cfg h hl (by simpa using hn)
  rw [List.length_replicate] at h3
  obtain ⟨l2, h4, h5, h6⟩ := run_zero l1 cfg h h2 (by omega)
  obtain ⟨l3, h7, h8, h9⟩ := run_few (byteBits b) l2 cfg h h5 (by rw [h6]; simp [byteBits])
  have h9' : l3.bitCount ≤ 16 := by
    have : (byteBits b).length = 8 := rfl
    omega
  obtain ⟨l4, h10, h11, h12⟩ := run_skip bs l3 cfg h h8 (by omega)
  obtain ⟨l5, h13, h14, _⟩ := run_half_ones 2 l4 cfg h h11
  refine ⟨l5, ?_, h14⟩
  rw [wave_append, wave_append, framed_cons, List.cons_append, wave_cons, wave_append, List.append_assoc,
    List.append_assoc, List.append_assoc]
  exact Link.run_append_nil _ _ h1 (Link.run_append_nil _ _ h4 (Link.run_append_nil _ _ h7
    (Link.run_append_nil _ _ h10 h13)))

/-- Several packets. -/
theorem run_followed (ps : List (TxConfig × Packet)) (hp : Sound ps) : ∀ (l : Link), l.Synced →
    ∃ l' os, l.run (followed ps) = .ok (l', os) ∧ packetsOf os = ps.map (·.2) := by
  induction ps with
  | nil => intro l _; exact ⟨l, [], rfl, rfl⟩
  | cons x ps ih =>
    intro l hl
    have hx := hp x (by simp)
    have h1 := run_packet l x.1 ((accepted_iff x.1).mp hx.1) x.2 hx.2 hl.state hl.byte hl.checksum
    obtain ⟨l', os, h2, h3⟩ := ih (fun y hy => hp y (by simp [hy])) _ (Link.synced_after x.2)
    refine ⟨l', _, Link.run_append_ok _ _ h1 h2, ?_⟩
    simp [packetsOf] at h3 ⊢
    exact h3

/-- What arrives, from what the receiver makes of the disturbed packet. -/
theorem arrivals_after {e : Env} {s s' : Rx} {ops : List RxOp} {cfg : TxConfig} {p : Packet} {k : Nat}
    {rest : List (TxConfig × Packet)} (h : Disturbance e s s' ops cfg p k rest) {l : Link} {os : List LinkOut}
    (hr : s.link.run (wave cfg (disturbed cfg.numPreamble.toNat p k)) = .ok (l, os)) (hl : l.Synced) :
    arrivals e s ops = (packetsOf os ++ rest.map (·.2)).filter fun p => !isLogon p := by
  obtain ⟨l', os', h1, h2⟩ := run_followed rest h.sound l hl
  obtain ⟨os2, h3, h4⟩ := run_interleaved e ops s s' h.run h.enabled h.room
  rw [h.times, Link.run_append_ok _ _ hr h1] at h3
  simp only [Except.ok.injEq, Prod.mk.injEq] at h3
  rw [h4, ← h3.2, ← h2]
  simp [packetsOf]

end Dcc
