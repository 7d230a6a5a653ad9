import Verif.Props.RmtLink
import Verif.Spec.Esp32
/-! C86: which packets sent by the ESP32 example arrive at a decoder. -/
namespace Dcc

/-- Everything between the preamble and the last half bit of a packet completes nothing. -/
theorem packetWave_body (cfg : TxConfig) (h : Spec.ValidConfig cfg) (p : Packet) (hp : ValidPacket p) :
    ∃ w, Spec.packetWave cfg p =
        (Spec.wave cfg (List.replicate cfg.numPreamble.toNat true) ++ w) ++ [cfg.bit1.toNat] ∧
      ∀ l : Link, l.Synced → 20 ≤ l.bitCount → l.run w = .ok (Link.beforeEnd p, [.start]) := by
  obtain _ | ⟨b, bs⟩ := p
  · have := hp.min; simp at this
  refine ⟨_, packetWave_split cfg b bs, fun l hl hn => ?_⟩
  refine Link.run_append_ok (ps' := []) _ _ (run_start _ cfg h hl.state hn) ?_
  refine Link.run_append_nil _ _ (run_byte _ cfg h b rfl rfl rfl rfl hl.byte (by simp [maxPacketSize])) ?_
  have hm := hp.max
  refine Link.run_append_nil _ _ (run_bytes bs _ cfg h rfl rfl rfl rfl hl.byte
    (by simp at hm ⊢; omega)) ?_
  rw [run_end_half _ cfg h rfl rfl]
  have hx := hp.sum
  rw [exor_cons] at hx
  simp [Link.beforeEnd, hl.byte, hl.checksum, hx]

end Dcc

namespace Dcc.Rmt
open Dcc.Spec

/-- The half bits in front of the first start bit. -/
def espLead (first : Bool) : List Nat :=
  (if first then [] else List.replicate 8 60) ++ [100, 100] ++ List.replicate 34 58

theorem espConfig_documented : espConfig.Documented := (accepted_documented _).mp (by decide)

theorem esp_halves (p : Packet) (hp : ValidPacket p) : ∃ w,
    (∀ first, halves (espConfig.packet first p) = espLead first ++ (w ++ [34])) ∧
      ∀ l : Link, l.Synced → 20 ≤ l.bitCount → l.run w = .ok (Link.beforeEnd p, [.start]) := by
  obtain ⟨w, h1, h2⟩ := packetWave_body espConfig.tx (tx_valid espConfig_documented) p hp
  refine ⟨w, fun first => ?_, h2⟩
  rw [halves_packet espConfig first p _ h1]
  have h3 : espLead first = halves (espConfig.front first) ++
      wave espConfig.tx (List.replicate espConfig.tx.numPreamble.toNat true) := by
    revert first; decide
  rw [h3]
  simp only [List.append_assoc]
  rfl

/-- The decoder waits for a start bit. -/
def Ready (l : Link) : Prop := l.Synced ∧ 20 ≤ l.bitCount

/-- From `l` the times lead to a decoder waiting for a start bit, with these packets received. -/
def LeadsTo (l : Link) (ts : List Nat) (ps : List Packet) : Prop :=
  ∃ l' os, l.run ts = .ok (l', os) ∧ packetsOf os = ps ∧ Ready l'

theorem LeadsTo.step {l l1 : Link} {t : Nat} {ts : List Nat} {ps : List Packet} (h1 : l.step t = .ok (l1, none))
    (h2 : LeadsTo l1 ts ps) : LeadsTo l (t :: ts) ps := by
  obtain ⟨l', os, h3, h4, h5⟩ := h2
  exact ⟨l', os, by rw [Link.run_cons _ h1, h3]; rfl, h4, h5⟩

theorem time2bit_cases (t : Nat) : (time2bit t = .b1 ∧ 52 ≤ t ∧ t ≤ 64) ∨ (time2bit t = .b0 ∧ 90 ≤ t ∧ t ≤ 10000) ∨
    (time2bit t = .invalid ∧ ¬ (90 ≤ t ∧ t ≤ 10000)) := by
  unfold time2bit
  split
  · exact .inl ⟨rfl, by assumption⟩
  · split
    · exact .inr (.inl ⟨rfl, by assumption⟩)
    · exact .inr (.inr ⟨rfl, by assumption⟩)

theorem step_invalid (l : Link) {t : Nat} (h : time2bit t = .invalid) :
    l.step t = .ok ({ l with packetEnd := false }, none) := by
  simp [Link.step, h]

/-- Enough ones. -/
theorem leads_ones (l : Link) (hl : l.Synced) (n : Nat) (hn : 20 ≤ n) : LeadsTo l (List.replicate n 58) [] := by
  obtain ⟨pe, h⟩ := run_ones_any (List.replicate n 58) (fun t ht => by rw [List.eq_of_mem_replicate ht]; rfl) l
    hl.state
  exact ⟨_, _, h, rfl, ⟨hl.state, hl.byte, hl.checksum⟩, by simp only [List.length_replicate]; omega⟩

/-- Ones of the cutout, ZIMO 0 and the preamble. -/
theorem leads_lead (l : Link) (hl : l.Synced) (n : Nat) (hn : l.bitCount + n < 20) :
    LeadsTo l (List.replicate n 60 ++ ([100, 100] ++ List.replicate 34 58)) [] := by
  obtain ⟨pe, h1⟩ := run_ones_any (List.replicate n 60) (fun t ht => by rw [List.eq_of_mem_replicate ht]; rfl) l
    hl.state
  obtain ⟨l2, h2, h3, h4, h5, -⟩ := run_zero_any
    { l with bitCount := l.bitCount + (List.replicate n 60).length, packetEnd := pe } espConfig.tx (tx_valid espConfig_documented) hl.state (by simpa using hn)
  obtain ⟨l3, os, h6, h7, h8⟩ := leads_ones l2 ⟨h3, h4, h5⟩ 34 (by decide)
  exact ⟨l3, os, Link.run_append_nil _ _ h1 (Link.run_append_nil _ _ h2 h6), h7, h8⟩

/-- A half bit that ends a packet. -/
theorem leads_end (p : Packet) (h3 : 3 ≤ p.length) {t : Nat} (ht : time2bit t = .b1) {ts : List Nat}
    (h : LeadsTo (Link.after p) ts []) : LeadsTo (Link.beforeEnd p) (t :: ts) [p] := by
  obtain ⟨l', os, h1, h2, h4⟩ := h
  refine ⟨l', .packet p :: os, ?_, by rw [← List.singleton_append, ← h2]; rfl, h4⟩
  have h5 := run_end_any (Link.beforeEnd p) t ht rfl rfl rfl h3
  exact Link.run_append_ok [t] ts h5 h1

theorem step_zero (p : Packet) {t : Nat} (ht : time2bit t = .b0) :
    (Link.beforeEnd p).step t = .ok ({ packet := p, state := .data }, none) := by
  simp [Link.step, ht, Link.beforeEnd, LinkState.halves, Link.bit]

/-- A bit of a byte: its second half counts. -/
theorem run_pair (p : Packet) (n : Nat) (hn : n + 1 < 8) (byte : Byte) (t u : Nat) (ht : time2bit t ≠ .invalid)
    (hu : time2bit u ≠ .invalid) (ts : List Nat) :
    ({ packet := p, state := .data, bitCount := n, byte := byte } : Link).run (t :: u :: ts) =
      ({ packet := p, state := .data, bitCount := n + 1,
         byte := byte <<< 1 ||| (if time2bit u = .b1 then 1#8 else 0#8) } : Link).run ts := by
  have h1 : ({ packet := p, state := .data, bitCount := n, byte := byte } : Link).step t =
      .ok ({ packet := p, state := .data, bitCount := n, byte := byte, isHalfbit := true }, none) := by
    cases h : time2bit t <;> simp_all [Link.step, LinkState.halves]
  have h2 : ({ packet := p, state := .data, bitCount := n, byte := byte, isHalfbit := true } : Link).step u =
      .ok ({ packet := p, state := .data, bitCount := n + 1,
             byte := byte <<< 1 ||| (if time2bit u = .b1 then 1#8 else 0#8) }, none) := by
    cases h : time2bit u <;> simp_all [Link.step, LinkState.halves, Link.bit]
  rw [Link.run_cons _ h1, Link.run_cons _ h2]
  cases Link.run _ ts <;> rfl

/-- A half bit taken for a zero behind a packet lets the decoder go on with a byte that spoils the packet. -/
theorem leads_lost (p : Packet) (hl : p.length < maxPacketSize) (a c : List Nat) (byte : Byte)
    (hb : byte <<< 1 ||| 1#8 ≠ 0#8)
    (h1 : ({ packet := p, state := .data } : Link).run a =
      .ok ({ packet := p, state := .data, bitCount := 7, byte := byte, isHalfbit := true }, []))
    (h2 : LeadsTo {} c []) : LeadsTo { packet := p, state := .data } (a ++ 58 :: 58 :: 58 :: c) [] := by
  have ht : time2bit 58 = .b1 := rfl
  have h3 : ({ packet := p, state := .data, bitCount := 7, byte := byte, isHalfbit := true } : Link).run
      [58, 58, 58] = .ok ({}, [.bad]) := by
    simp [Link.run, Link.step, ht, LinkState.halves, Link.bit, Link.reset, hl, hb]
  obtain ⟨l', os, h4, h5, h6⟩ := h2
  refine ⟨l', .bad :: os, ?_, by rw [← h5]; rfl, h6⟩
  exact Link.run_append_nil _ _ h1 (Link.run_append_ok [58, 58, 58] c h3 h4)

/-- The level is held in the pause. -/
theorem leads_held (p : Packet) (h3 : 3 ≤ p.length) (hl : p.length < maxPacketSize) (g : Nat) :
    LeadsTo (Link.beforeEnd p) ((34 + g) :: espLead false) (if pauseHeard true g then [p] else []) := by
  rcases time2bit_cases (34 + g) with ⟨h1, h2, h4⟩ | ⟨h1, h2, h4⟩ | ⟨h1, h2⟩
  · rw [if_pos (by simp [pauseHeard]; omega)]
    exact leads_end p h3 h1 (leads_lead _ (Link.synced_after p) 8 (by show 0 + 8 < 20; decide))
  · rw [if_neg (by simp [pauseHeard]; omega)]
    refine LeadsTo.step (step_zero p h1) ?_
    exact leads_lost p hl (List.replicate 8 60 ++ [100, 100] ++ List.replicate 5 58) (List.replicate 26 58) 0x7B#8
      (by decide) (by
        simp only [List.replicate, List.cons_append, List.nil_append]
        repeat rw [run_pair _ _ (by decide) _ _ _ (by decide) (by decide)]
        rfl) (leads_ones {} ⟨rfl, rfl, rfl⟩ 26 (by decide))
  · rw [if_pos (by simp [pauseHeard]; omega)]
    refine LeadsTo.step (step_invalid _ h1) ?_
    exact leads_end p h3 (t := 60) rfl (leads_lead _ (Link.synced_after p) 7 (by show 0 + 7 < 20; decide))

/-- The level falls in the pause. -/
theorem leads_low (p : Packet) (h3 : 3 ≤ p.length) (hl : p.length < maxPacketSize) (g : Nat) :
    LeadsTo (Link.beforeEnd p) ((g + 60) :: (espLead false).tail) (if pauseHeard false g then [p] else []) := by
  rcases time2bit_cases (g + 60) with ⟨h1, h2, h4⟩ | ⟨h1, h2, h4⟩ | ⟨h1, h2⟩
  · rw [if_pos (by simp [pauseHeard]; omega)]
    exact leads_end p h3 h1 (leads_lead _ (Link.synced_after p) 7 (by show 0 + 7 < 20; decide))
  · rw [if_neg (by simp [pauseHeard]; omega)]
    refine LeadsTo.step (step_zero p h1) ?_
    exact leads_lost p hl (List.replicate 7 60 ++ [100, 100] ++ List.replicate 6 58) (List.replicate 25 58) 0x77#8
      (by decide) (by
        simp only [List.replicate, List.cons_append, List.nil_append]
        repeat rw [run_pair _ _ (by decide) _ _ _ (by decide) (by decide)]
        rfl) (leads_ones {} ⟨rfl, rfl, rfl⟩ 25 (by decide))
  · rw [if_pos (by simp [pauseHeard]; omega)]
    refine LeadsTo.step (step_invalid _ h1) ?_
    exact leads_end p h3 (t := 60) rfl (leads_lead _ (Link.synced_after p) 6 (by show 0 + 6 < 20; decide))

/-- The symbols begin with the level `l` and end with the other one. -/
def Alternating (l : Bool) (ss : List Symbol) : Prop := ∀ s ∈ ss, s.level0 = l ∧ s.level1 = !l

theorem packet_alternating (c : Config) (first : Bool) (data : List Byte) :
    Alternating c.level0 (c.packet first data) := by
  have hl : ∀ a b, (c.levels a b).level0 = c.level0 ∧ (c.levels a b).level1 = !c.level0 := fun _ _ => ⟨rfl, rfl⟩
  have hb : ∀ b, (c.bit b).level0 = c.level0 ∧ (c.bit b).level1 = !c.level0 := fun b => by
    cases b <;> exact ⟨rfl, rfl⟩
  intro s hs
  simp only [Config.packet, Config.header, Config.cutout, List.mem_append, List.mem_flatMap, List.mem_cons,
    List.mem_map, List.mem_replicate, List.not_mem_nil, or_false] at hs
  rcases hs with ((((h | h) | ⟨-, rfl⟩) | ⟨b, -, rfl | ⟨x, -, rfl⟩⟩) | rfl)
  · split at h
    · cases h
    · rw [List.eq_of_mem_replicate h]; exact hl ..
  · split at h
    · rw [List.mem_singleton.mp h]; exact hb _
    · cases h
  · exact hb _
  · exact hb _
  · exact hb _
  · exact hl ..

theorem pulses_cons (s : Symbol) (ss : List Symbol) : pulses (s :: ss) =
    (s.level0, s.duration0.toNat) :: (s.level1, s.duration1.toNat) :: pulses ss := rfl

theorem halves_cons (s : Symbol) (ss : List Symbol) :
    halves (s :: ss) = s.duration0.toNat :: s.duration1.toNat :: halves ss := rfl

/-- Changes of symbols behind the other level. -/
theorem changes_other (l : Bool) (rest : List (Bool × Nat)) : ∀ (ss : List Symbol), Alternating l ss →
    ∀ (acc : Nat) (hs : List Nat) (t : Nat), halves ss = hs ++ [t] →
    changes (!l) acc (pulses ss ++ rest) = acc :: hs ++ changes (!l) t rest := by
  intro ss
  induction ss with
  | nil => intro _ acc hs t h; simp [halves] at h
  | cons s ss ih =>
    intro ha acc hs t h
    obtain ⟨h0, h1⟩ := ha s (List.mem_cons_self ..)
    have hne : ¬ l = !l := by cases l <;> decide
    have hne' : ¬ (!l) = l := by cases l <;> decide
    rw [pulses_cons, h0, h1, List.cons_append, List.cons_append, changes, if_neg hne, changes, if_neg hne']
    rw [halves_cons] at h
    cases ss with
    | nil =>
      have h2 : [s.duration0.toNat] ++ [s.duration1.toNat] = hs ++ [t] := h
      obtain ⟨rfl, h3⟩ := List.append_inj' h2 rfl
      rw [List.cons.inj h3 |>.1]
      rfl
    | cons s2 ss =>
      match hs, h with
      | [], h => simp [halves_cons] at h
      | [_], h => simp [halves_cons] at h
      | a :: b :: hs, h =>
        simp only [List.cons_append, List.cons.injEq] at h
        obtain ⟨rfl, rfl, h⟩ := h
        rw [ih (fun x hx => ha x (List.mem_cons_of_mem _ hx)) _ hs t h]
        rfl

/-- Changes of symbols behind their first level, which comes back afterwards. -/
theorem changes_same (l : Bool) (g : Nat) (rest : List (Bool × Nat)) (ss : List Symbol) (ha : Alternating l ss)
    (acc d : Nat) (hs : List Nat) (t : Nat) (h : halves ss = d :: hs ++ [t]) :
    changes l acc (pulses ss ++ (l, g) :: rest) = (acc + d) :: hs ++ t :: changes l g rest := by
  have hne : ¬ l = !l := by cases l <;> decide
  have hne' : ¬ (!l) = l := by cases l <;> decide
  cases ss with
  | nil => simp [halves] at h
  | cons s ss =>
    obtain ⟨h0, h1⟩ := ha s (List.mem_cons_self ..)
    rw [pulses_cons, h0, h1, List.cons_append, List.cons_append, changes, if_pos rfl, changes, if_neg hne']
    rw [halves_cons] at h
    simp only [List.cons_append, List.cons.injEq] at h
    obtain ⟨rfl, h⟩ := h
    cases ss with
    | nil =>
      have h2 : [] ++ [s.duration1.toNat] = hs ++ [t] := h
      obtain ⟨rfl, h3⟩ := List.append_inj' h2 rfl
      rw [List.cons.inj h3 |>.1]
      show (acc + s.duration0.toNat) :: changes (!l) t ((l, g) :: rest) = _
      rw [changes, if_neg hne]
      rfl
    | cons s2 ss =>
      match hs, h with
      | [], h => simp [halves_cons] at h
      | b :: hs, h =>
        simp only [List.cons_append, List.cons.injEq] at h
        obtain ⟨rfl, h⟩ := h
        rw [changes_other l _ _ (fun x hx => ha x (List.mem_cons_of_mem _ hx)) _ hs t h, changes, if_neg hne]
        simp

/-- Packets as they are put out, with the pauses behind them. -/
def espOut (eot : Bool) (qs : List (Packet × Nat)) : List (Bool × Nat) :=
  output eot (qs.map fun q => (espConfig.packet false q.1, q.2))

/-- The packets that arrive: the last one is not over. -/
def espHeard (eot : Bool) (qs : List (Packet × Nat)) : List Packet :=
  (qs.dropLast.filter fun q => pauseHeard eot q.2).map (·.1)

theorem espHeard_cons (eot : Bool) (q r : Packet × Nat) (qs : List (Packet × Nat)) :
    espHeard eot (q :: r :: qs) = (if pauseHeard eot q.2 then [q.1] else []) ++ espHeard eot (r :: qs) := by
  rw [espHeard, List.dropLast_cons_cons, List.filter_cons]
  split <;> rfl

theorem LeadsTo.packet {l : Link} {ts : List Nat} {ps : List Packet} (h : LeadsTo l ts ps) {w : List Nat} {p : Packet}
    (hw : ∀ l : Link, l.Synced → 20 ≤ l.bitCount → l.run w = .ok (Link.beforeEnd p, [.start])) (rest : List Nat)
    {l' : Link} {os : List LinkOut} (hr : (Link.beforeEnd p).run rest = .ok (l', os)) :
    ∃ os', l.run (ts ++ (w ++ rest)) = .ok (l', os') ∧ packetsOf os' = ps ++ packetsOf os := by
  obtain ⟨l1, o1, h1, h2, h3, h4⟩ := h
  refine ⟨o1 ++ ([.start] ++ os), Link.run_append_ok _ _ h1 (Link.run_append_ok _ _ (hw l1 h3 h4) hr), ?_⟩
  rw [← h2]
  simp [packetsOf]

theorem rest_held : ∀ (qs : List (Packet × Nat)) (q : Packet × Nat),
    (∀ r ∈ q :: qs, ValidPacket r.1 ∧ r.1.length < maxPacketSize) →
    ∃ l' os, (Link.beforeEnd q.1).run (changes true (34 + q.2) (espOut true qs)) = .ok (l', os) ∧
      packetsOf os = espHeard true (q :: qs)
  | [], q, _ => ⟨_, [], rfl, rfl⟩
  | r :: qs, q, h => by
    obtain ⟨l', os, h1, h2⟩ := rest_held qs r (fun x hx => h x (List.mem_cons_of_mem _ hx))
    obtain ⟨hq, hl⟩ := h q (List.mem_cons_self ..)
    obtain ⟨w, h3, h4⟩ := esp_halves r.1 (h r (by simp)).1
    obtain ⟨os', h5, h6⟩ := (leads_held q.1 hq.min hl q.2).packet h4 _ h1
    refine ⟨l', os', ?_, by rw [h6, h2, espHeard_cons]⟩
    rw [← h5, espOut, List.map_cons, output,
      show changes true = changes (!false) from rfl, changes_other false _ _ (packet_alternating espConfig _ _) _
        (espLead false ++ w) 34 (by rw [h3, List.append_assoc]), changes, if_pos (by rfl)]
    simp only [List.cons_append, List.append_assoc]
    rfl

theorem rest_low : ∀ (qs : List (Packet × Nat)) (q : Packet × Nat),
    (∀ r ∈ q :: qs, ValidPacket r.1 ∧ r.1.length < maxPacketSize) →
    ∃ l' os, (Link.beforeEnd q.1).run (34 :: changes false q.2 (espOut false qs)) = .ok (l', os) ∧
      packetsOf os = espHeard false (q :: qs)
  | [], q, _ => ⟨_, [], rfl, rfl⟩
  | r :: qs, q, h => by
    obtain ⟨l', os, h1, h2⟩ := rest_low qs r (fun x hx => h x (List.mem_cons_of_mem _ hx))
    obtain ⟨hq, hl⟩ := h q (List.mem_cons_self ..)
    obtain ⟨w, h3, h4⟩ := esp_halves r.1 (h r (by simp)).1
    obtain ⟨os', h5, h6⟩ := (LeadsTo.step (step_invalid (Link.beforeEnd q.1) (t := 34) rfl)
      (leads_low q.1 hq.min hl q.2)).packet h4 _ h1
    refine ⟨l', os', ?_, by rw [h6, h2, espHeard_cons]⟩
    rw [← h5, espOut, List.map_cons, output, changes_same false _ _ _ (packet_alternating espConfig _ _) _ 60
        ((espLead false).tail ++ w) 34 (by rw [h3]; simp [espLead, List.replicate])]
    simp only [List.cons_append, List.append_assoc]
    rfl

theorem step_zero_early (l : Link) (hl : l.Synced) (hb : l.bitCount < 20) {t : Nat} (ht : time2bit t = .b0) :
    ∃ l', l.step t = .ok (l', none) ∧ l'.Synced ∧ l'.bitCount = 0 := by
  refine ⟨Link.reset { l with packetEnd := false }, ?_, ⟨rfl, rfl, rfl⟩, rfl⟩
  simp [Link.step, ht, hl.state, LinkState.halves, Link.bit, hb]

theorem first_held (l : Link) (hl : l.Synced) (hb : l.bitCount < 19) (t : Nat) : LeadsTo l (t :: espLead true) [] := by
  rcases time2bit_cases t with ⟨h1, -⟩ | ⟨h1, -⟩ | ⟨h1, -⟩
  · have h2 : l.step t = .ok ({ l with bitCount := l.bitCount + 1, packetEnd := false }, none) := by
      simp [Link.step, h1, Link.bit, hl.state, LinkState.halves]
    refine LeadsTo.step h2 (leads_lead { l with bitCount := l.bitCount + 1, packetEnd := false }
      ⟨hl.state, hl.byte, hl.checksum⟩ 0 ?_)
    show l.bitCount + 1 + 0 < 20
    omega
  · obtain ⟨l', h2, h3, h4⟩ := step_zero_early l hl (by omega) h1
    exact LeadsTo.step h2 (leads_lead _ h3 0 (by omega))
  · refine LeadsTo.step (step_invalid l h1) (leads_lead _ ⟨hl.state, hl.byte, hl.checksum⟩ 0 ?_)
    show l.bitCount + 0 < 20
    omega

theorem first_low (l : Link) (hl : l.Synced) (hb : l.bitCount < 19) (t : Nat) :
    LeadsTo l ((t + 100) :: (espLead true).tail) [] := by
  have key : ∀ l : Link, l.Synced → l.bitCount < 20 → LeadsTo l (100 :: List.replicate 34 58) [] := by
    intro l hl hb
    obtain ⟨l', h2, h3, -⟩ := step_zero_early l hl hb (t := 100) rfl
    exact LeadsTo.step h2 (leads_ones _ h3 34 (by decide))
  rcases time2bit_cases (t + 100) with ⟨-, h1, h2⟩ | ⟨h1, -⟩ | ⟨h1, -⟩
  · omega
  · obtain ⟨l', h2, h3, h4⟩ := step_zero_early l hl (by omega) h1
    exact LeadsTo.step h2 (key _ h3 (by omega))
  · exact LeadsTo.step (step_invalid l h1) (key _ ⟨hl.state, hl.byte, hl.checksum⟩ (by show l.bitCount < 20; omega))

/-- All symbols of the packets, the first one without a cutout. -/
def espSymbols (qs : List (Packet × Nat)) : List (List Symbol × Nat) :=
  match qs with
  | [] => []
  | q :: qs => (espConfig.packet true q.1, q.2) :: qs.map fun q => (espConfig.packet false q.1, q.2)

theorem run_esp (eot : Bool) (acc : Nat) (qs : List (Packet × Nat))
    (hv : ∀ q ∈ qs, ValidPacket q.1 ∧ q.1.length < maxPacketSize) (l : Link) (hl : l.Synced) (hb : l.bitCount < 19) :
    ∃ l' os, l.run (changes eot acc (output eot (espSymbols qs))) = .ok (l', os) ∧
      packetsOf os = espHeard eot qs := by
  cases qs with
  | nil => exact ⟨l, [], rfl, rfl⟩
  | cons q qs =>
    obtain ⟨w, h3, h4⟩ := esp_halves q.1 (hv q (by simp)).1
    cases eot with
    | true =>
      obtain ⟨l', os, h1, h2⟩ := rest_held qs q hv
      obtain ⟨os', h5, h6⟩ := (first_held l hl hb acc).packet h4 _ h1
      refine ⟨l', os', ?_, by rw [h6, h2]; rfl⟩
      rw [← h5, espSymbols, output,
        show changes true = changes (!false) from rfl, changes_other false _ _ (packet_alternating espConfig _ _) _
          (espLead true ++ w) 34 (by rw [h3, List.append_assoc]), changes, if_pos (by rfl)]
      simp only [List.cons_append, List.append_assoc]
      rfl
    | false =>
      obtain ⟨l', os, h1, h2⟩ := rest_low qs q hv
      obtain ⟨os', h5, h6⟩ := (first_low l hl hb acc).packet h4 _ h1
      refine ⟨l', os', ?_, by rw [h6, h2]; rfl⟩
      rw [← h5, espSymbols, output, changes_same false _ _ _ (packet_alternating espConfig _ _) _ 100
          ((espLead true).tail ++ w) 34 (by rw [h3]; simp [espLead, List.replicate])]
      simp only [List.cons_append, List.append_assoc]
      rfl

theorem espSymbols_sent (ps : List (Packet × List Nat)) (gs : List Nat) :
    (ps.zipIdx.map fun p => espConfig.packet (true && p.2 == 0) p.1.1).zip gs =
      espSymbols ((ps.map (·.1)).zip gs) := by
  have rest : ∀ (ps : List (Packet × List Nat)) (gs : List Nat) (k : Nat), 0 < k →
      ((ps.zipIdx k).map fun p => espConfig.packet (true && p.2 == 0) p.1.1).zip gs =
        ((ps.map (·.1)).zip gs).map fun q => (espConfig.packet false q.1, q.2) := by
    intro ps
    induction ps with
    | nil => intros; rfl
    | cons p ps ih =>
      intro gs k hk
      have h0 : (k == 0) = false := by simp; omega
      cases gs with
      | nil => rfl
      | cons g gs => simp [List.zipIdx_cons, ← ih gs (k + 1) (by omega), h0]
  cases ps with
  | nil => rfl
  | cons p ps =>
    cases gs with
    | nil => rfl
    | cons g gs =>
      rw [List.zipIdx_cons, List.map_cons, List.zip_cons_cons, rest ps gs (0 + 1) (by omega)]
      rfl

/-- **C86** The RMT channel of the ESP32 example sends valid packets that leave room for one more byte in a
decoder.  Behind each packet there is a pause in which the output has the level `eot`.  A decoder that waits for
a preamble gets the times between the changes of the level, the first of them counted from any time before, with
any other calls (except `disable()`) in between and never with a full queue.  Then a packet arrives if and only if
another one follows it and the pause between them does not make a zero of a half bit. -/
theorem C86_esp32_pauses (eot : Bool) (ps : List (Packet × List Nat)) (gs : List Nat)
    (hv : ∀ p ∈ ps, ValidPacket p.1 ∧ p.1.length < maxPacketSize)
    (hsizes : ∀ p ∈ ps.zipIdx, (espConfig.packet (p.2 == 0) p.1.1).length ≤ p.1.2.sum ∧
      ¬ EndsBehindByte espConfig (p.2 == 0) p.1.1 p.1.2)
    (e : Env) (s s' : Rx) (hr : Reachable e s) (hs : s.link.state = .preamble) (hb : s.link.bitCount < 19)
    (ops : List RxOp) (ho : s.run e ops = .ok s') (hd : .disable ∉ ops) (hf : NeverFull e s ops) :
    ∃ enc rs, sendAll ps espConfig.encoder = .ok (enc, rs) ∧
      ∀ acc, recvTimes ops = changes eot acc (output eot ((rs.map (·.symbols)).zip gs)) →
        arrivals e s ops =
          ((((ps.map (·.1)).zip gs).dropLast.filter fun q => pauseHeard eot q.2).map (·.1)).filter fun p =>
            !isLogon p := by
  obtain ⟨enc, rs, h1, h2, -⟩ := sendAll_packets espConfig espConfig_documented ps true (fun p hp h => by
    have := (hv p hp).1.min
    rw [h] at this
    simp at this) (by simpa using hsizes)
  refine ⟨enc, rs, h1, fun acc ht => ?_⟩
  rw [h2, espSymbols_sent] at ht
  have hsync := hr.recvInv.link.synced hs
  obtain ⟨l', os, h3, h4⟩ := run_esp eot acc ((ps.map (·.1)).zip gs) (fun q hq => by
    obtain ⟨p, hp, h⟩ := List.mem_map.mp (List.of_mem_zip hq).1
    rw [← h]; exact hv p hp) s.link hsync hb
  obtain ⟨os', h6, h7⟩ := run_interleaved e ops s s' ho hd hf
  rw [ht, h3] at h6
  cases h6
  rw [h7, h4]
  rfl

theorem idle_length : ∀ first, (espConfig.packet first makeIdlePacket).length ≤ 50 := by decide

/-- The packets of the example fit into the memory. -/
theorem espPackets_fit (k mem : Nat) (hm : 50 ≤ mem) : ∀ p ∈ (espPackets k mem).zipIdx,
    (espConfig.packet (p.2 == 0) p.1.1).length ≤ p.1.2.sum ∧ ¬ EndsBehindByte espConfig (p.2 == 0) p.1.1 p.1.2 := by
  intro p hp
  have h1 : p.1 ∈ espPackets k mem := by
    obtain ⟨x, i⟩ := p
    exact (List.mem_zipIdx_iff_getElem?.mp hp) |> List.mem_of_getElem?
  have h2 := List.eq_of_mem_replicate h1
  rw [h2]
  refine ⟨Nat.le_trans (idle_length _) (by simpa using hm), ?_⟩
  rintro ⟨pre, n, h3, h4, h5, h6⟩
  have h7 : n < 3 := h5
  have h8 : ∀ first, (espConfig.header first).length ≤ 22 ∧ 18 ≤ (espConfig.header first).length := by decide
  have h9 := h8 (p.2 == 0)
  have h10 : pre.sum = 0 ∨ pre.sum = mem := by
    obtain ⟨t, ht⟩ := h3
    match pre, ht with
    | [], _ => exact .inl rfl
    | [a], ht => simp at ht; right; simp [ht.1]
    | _ :: _ :: _, ht => simp at ht
  omega

theorem idle_valid : ValidPacket makeIdlePacket := ⟨by decide, by decide, by decide⟩

/-- **C86** The example itself: the idle packets arrive if and only if the pause behind them is short (or very
long), whatever the level in the pause. -/
theorem C86_esp32_example (eot : Bool) (mem : Nat) (hm : 50 ≤ mem) (gs : List Nat)
    (e : Env) (s s' : Rx) (hr : Reachable e s) (hs : s.link.state = .preamble) (hb : s.link.bitCount < 19)
    (ops : List RxOp) (ho : s.run e ops = .ok s') (hd : .disable ∉ ops) (hf : NeverFull e s ops) :
    ∃ enc rs, sendAll (espPackets gs.length mem) espConfig.encoder = .ok (enc, rs) ∧
      ∀ acc, recvTimes ops = changes eot acc (output eot ((rs.map (·.symbols)).zip gs)) →
        arrivals e s ops = List.replicate (gs.dropLast.countP (pauseHeard eot)) makeIdlePacket := by
  obtain ⟨enc, rs, h1, h2⟩ := C86_esp32_pauses eot (espPackets gs.length mem) gs
    (fun p hp => by rw [List.eq_of_mem_replicate hp]; exact ⟨idle_valid, by show 3 < maxPacketSize; decide⟩) (espPackets_fit _ _ hm)
    e s s' hr hs hb ops ho hd hf
  refine ⟨enc, rs, h1, fun acc ht => ?_⟩
  rw [h2 acc ht]
  have h3 : ∀ gs : List Nat, (((espPackets gs.length mem).map (·.1)).zip gs) = gs.map fun g => (makeIdlePacket, g) := by
    intro gs
    induction gs with
    | nil => rfl
    | cons g gs ih => simpa [espPackets, List.replicate_succ] using ih
  have h5 : ∀ l : List Nat, ((l.map fun g => (makeIdlePacket, g)).filter fun q => pauseHeard eot q.2).map (·.1) =
      (l.filter (pauseHeard eot)).map fun _ => makeIdlePacket := by
    intro l
    rw [List.filter_map, List.map_map]
    rfl
  rw [h3, ← List.map_dropLast, h5, List.countP_eq_length_filter]
  have h4 : ∀ l : List Nat, (l.map fun _ => makeIdlePacket).filter (fun p => !isLogon p) =
      List.replicate l.length makeIdlePacket := by
    intro l
    rw [List.map_const', List.filter_replicate, if_pos (by decide)]
  exact h4 _

/-- **C86** As the example is: the output is low in the pauses.  Pauses below 30 us, like the 24 us the end bit is
shortened by, do no harm: all packets but the last one arrive. -/
theorem C86_short_pauses (mem : Nat) (hm : 50 ≤ mem) (gs : List Nat) (hg : ∀ g ∈ gs, g < 30)
    (e : Env) (s s' : Rx) (hr : Reachable e s) (hs : s.link.state = .preamble) (hb : s.link.bitCount < 19)
    (ops : List RxOp) (ho : s.run e ops = .ok s') (hd : .disable ∉ ops) (hf : NeverFull e s ops) :
    ∃ enc rs, sendAll (espPackets gs.length mem) espConfig.encoder = .ok (enc, rs) ∧
      ∀ acc, recvTimes ops = changes false acc (output false ((rs.map (·.symbols)).zip gs)) →
        arrivals e s ops = List.replicate (gs.length - 1) makeIdlePacket := by
  obtain ⟨enc, rs, h1, h2⟩ := C86_esp32_example false mem hm gs e s s' hr hs hb ops ho hd hf
  refine ⟨enc, rs, h1, fun acc ht => ?_⟩
  rw [h2 acc ht, List.countP_eq_length.mpr fun g h => by simp [pauseHeard, hg g (List.dropLast_subset _ h)],
    List.length_dropLast]

/-- **C86** Pauses from 30 us to 9940 us: no packet arrives at all. -/
theorem C86_long_pauses_false (mem : Nat) (hm : 50 ≤ mem) (gs : List Nat) (hg : ∀ g ∈ gs, 30 ≤ g ∧ g ≤ 9940)
    (e : Env) (s s' : Rx) (hr : Reachable e s) (hs : s.link.state = .preamble) (hb : s.link.bitCount < 19)
    (ops : List RxOp) (ho : s.run e ops = .ok s') (hd : .disable ∉ ops) (hf : NeverFull e s ops) :
    ∃ enc rs, sendAll (espPackets gs.length mem) espConfig.encoder = .ok (enc, rs) ∧
      ∀ acc, recvTimes ops = changes false acc (output false ((rs.map (·.symbols)).zip gs)) →
        arrivals e s ops = [] := by
  obtain ⟨enc, rs, h1, h2⟩ := C86_esp32_example false mem hm gs e s s' hr hs hb ops ho hd hf
  refine ⟨enc, rs, h1, fun acc ht => ?_⟩
  rw [h2 acc ht, List.countP_eq_zero.mpr fun g h => by
    have := hg g (List.dropLast_subset _ h)
    simp [pauseHeard]
    omega]
  rfl

/-- What a decoder fresh from `init()` gets of the example with these pauses. -/
def espHears (eot : Bool) (gs : List Nat) (n : Nat) : Bool :=
  match sendAll (espPackets gs.length 192) espConfig.encoder with
  | .error _ => false
  | .ok (_, rs) =>
    let ops := recvOps ((changes eot 5 (output eot ((rs.map (·.symbols)).zip gs))).map fun t => (t, 0))
    holdsAfter (({} : Rx).run exampleEnv [.init]) fun s => decide (s.link.state = .preamble ∧ s.link.bitCount < 19 ∧
      NeverFull exampleEnv s ops ∧ .disable ∉ ops ∧
      recvTimes ops = changes eot 5 (output eot ((rs.map (·.symbols)).zip gs)) ∧
      arrivals exampleEnv s ops = List.replicate n makeIdlePacket ∧ (s.run exampleEnv ops).toBool = true)

/-- The hypotheses are met: pauses that do no harm and pauses that cost a packet, with both levels. -/
example : espHears false [24, 24, 24] 2 = true ∧ espHears false [29, 30, 24] 1 = true ∧
    espHears true [24, 24, 24] 2 = true ∧ espHears true [55, 56, 24] 1 = true := by
  refine ⟨?_, ?_, ?_, ?_⟩ <;> decide +kernel

/-- So are those with any packets, one of them sent in two sessions. -/
example : let ps : List (Packet × List Nat) := [(speedPacket, [30, 40]), (makeIdlePacket, [192])]
    (∀ p ∈ ps, ValidPacket p.1 ∧ p.1.length < maxPacketSize) ∧
    ∀ p ∈ ps.zipIdx, (espConfig.packet (p.2 == 0) p.1.1).length ≤ p.1.2.sum ∧
      ¬ EndsBehindByte espConfig (p.2 == 0) p.1.1 p.1.2 := by
  refine ⟨?_, by decide +kernel⟩
  intro p hp
  rcases List.mem_cons.mp hp with rfl | hp
  · exact ⟨speedPacket_valid, by decide⟩
  · rw [List.mem_singleton.mp hp]
    exact ⟨idle_valid, by decide⟩

end Dcc.Rmt
