import Verif.Props.Rmt
import Verif.Props.RxLink
import Verif.Lemmas.RxCvExec
/-! C69: what the RMT encoder sends is received by a decoder. -/
namespace Dcc.Rmt
open Dcc.Spec

/-- The configuration of a command station with the same bits. -/
def Config.tx (c : Config) : TxConfig :=
  { numPreamble := c.numPreamble, bit1 := c.bit1Duration, bit0 := c.bit0Duration }

theorem tx_valid {c : Config} (hc : c.Documented) : ValidConfig c.tx :=
  ⟨hc.preamble.1, hc.preamble.2, hc.bit1.1, hc.bit1.2, hc.bit0.1, hc.bit0.2⟩

theorem halves_append (a b : List Symbol) : halves (a ++ b) = halves a ++ halves b := by
  simp [halves]

theorem halves_levels (c : Config) (a b : Byte) : halves [c.levels a.toNat b.toNat] = [a.toNat, b.toNat] := by
  have h : ∀ x : Byte, x.toNat % 2 ^ 15 = x.toNat := fun x => Nat.mod_eq_of_lt (by omega)
  simp only [halves, Config.levels, List.flatMap_cons, List.flatMap_nil, List.append_nil, BitVec.toNat_ofNat, h]

theorem halves_bits (c : Config) : ∀ bits : List Bool, halves (bits.map c.bit) = wave c.tx bits
  | [] => rfl
  | b :: bs => by
    have h1 : halves [c.bit b] = wave c.tx [b] := by
      cases b
      · exact halves_levels c c.bit0Duration c.bit0Duration
      · exact halves_levels c c.bit1Duration c.bit1Duration
    have h2 : (b :: bs).map c.bit = [c.bit b] ++ bs.map c.bit := rfl
    rw [h2, halves_append, halves_bits c bs, h1, wave_cons c.tx b bs]

/-- What is in front of the preamble: the cutout and ZIMO 0. -/
def Config.front (c : Config) (first : Bool) : List Symbol :=
  c.cutout first ++ (if c.zimo0 then [c.bit false] else [])

/-- Duration of the second half of the end bit. -/
def Config.endHalf (c : Config) : Byte :=
  if c.endbitDuration = 0#8 then c.bit1Duration else c.endbitDuration

theorem halves_packet (c : Config) (first : Bool) (data : List Byte) (w : List Nat)
    (hw : packetWave c.tx data = w ++ [c.tx.bit1.toNat]) :
    halves (c.packet first data) = halves (c.front first) ++ (w ++ [c.endHalf.toNat]) := by
  have h1 : c.packet first data = c.front first ++ ((List.replicate c.numPreamble.toNat true ++
      data.flatMap (fun b => false :: byteBits b)).map c.bit ++ [c.lastBit]) := by
    simp only [Config.packet, Config.header, Config.front, List.map_append, List.map_replicate,
      List.append_assoc, List.map_flatMap, List.map_cons]
  have h2 : halves [c.lastBit] = [c.bit1Duration.toNat, c.endHalf.toNat] := by
    rw [Config.lastBit, Config.endHalf]
    split <;> exact halves_levels ..
  rw [h1, halves_append, halves_append, halves_bits, h2]
  have h3 : wave c.tx (List.replicate c.numPreamble.toNat true ++
      data.flatMap (fun b => false :: byteBits b)) ++ [c.bit1Duration.toNat] = w := by
    have h4 : wave c.tx (List.replicate c.numPreamble.toNat true ++
        data.flatMap (fun b => false :: byteBits b)) ++ [c.bit1Duration.toNat, c.bit1Duration.toNat] =
        w ++ [c.tx.bit1.toNat] := by
      rw [← hw, packetWave, frameBits, wave_append c.tx (_ ++ _)]
      rfl
    have h5 := congrArg List.dropLast h4
    rw [List.dropLast_concat] at h5
    rw [← h5, List.dropLast_append_of_ne_nil (by simp)]
    rfl
  congr 1
  rw [← h3]
  simp

/-- The last half of the end bit, of any duration that counts as a one. -/
theorem run_end_any (l : Link) (t : Nat) (ht : time2bit t = .b1)
    (hs : l.state = .endbit) (hh : l.isHalfbit = true) (hc : l.checksum = 0#8) (hl : 3 ≤ l.packet.length) :
    l.run [t] = .ok (Link.reset { l with isHalfbit := false, packetEnd := true }, [.packet l.packet]) := by
  obtain ⟨st, bc, by_, cs, ih', pe, pk⟩ := l
  simp only at hs hh hc hl
  subst hs hh hc
  simp [Link.run, Link.step, ht, LinkState.halves, Link.bit, hl]

theorem run_ones_any (ts : List Nat) (ht : ∀ t ∈ ts, time2bit t = .b1) : ∀ (l : Link), l.state = .preamble →
    ∃ pe, l.run ts = .ok ({ l with bitCount := l.bitCount + ts.length, packetEnd := pe }, []) := by
  induction ts with
  | nil => intro l _; exact ⟨l.packetEnd, rfl⟩
  | cons t ts ih =>
    intro l hs
    have h1 : l.step t = .ok ({ l with bitCount := l.bitCount + 1, packetEnd := false }, none) := by
      simp [Link.step, ht t (List.mem_cons_self ..), Link.bit, hs, LinkState.halves]
    obtain ⟨pe, h2⟩ := ih (fun t h => ht t (List.mem_cons_of_mem _ h))
      { l with bitCount := l.bitCount + 1, packetEnd := false } hs
    refine ⟨pe, ?_⟩
    rw [Link.run_cons _ h1, h2]
    simp only [ok_bind, pure_eq_ok, List.length_cons, Option.toList_none, List.nil_append]
    congr 3
    omega

/-- A zero before enough ones. -/
theorem run_zero_any (l : Link) (cfg : TxConfig) (h : ValidConfig cfg) (hs : l.state = .preamble)
    (hc : l.bitCount < 20) :
    ∃ l', l.run (wave cfg [false]) = .ok (l', []) ∧ l'.state = .preamble ∧ l'.byte = 0#8 ∧
      l'.checksum = 0#8 ∧ l'.bitCount = 0 := by
  have h0 := time2bit_bit0 h
  obtain ⟨st, bc, by_, cs, ih', pe, pk⟩ := l
  simp only at hs hc
  subst hs
  refine ⟨_, by simp [wave, Link.run, Link.step, h0, LinkState.halves, Link.bit, hc, Link.reset]; rfl, ?_⟩
  simp

theorem run_front (c : Config) (hc : c.Documented) (first : Bool) (l : Link) (hl : l.Synced)
    (hb : c.zimo0 = true → l.bitCount + (if first then 0 else 8) < 20) :
    ∃ l', l.run (halves (c.front first)) = .ok (l', []) ∧ l'.Synced := by
  have hcut : ∃ l', l.run (halves (c.cutout first)) = .ok (l', []) ∧ l'.Synced ∧
      l'.bitCount ≤ l.bitCount + (if first then 0 else 8) := by
    rw [Config.cutout]
    split
    · exact ⟨l, rfl, hl, by split <;> omega⟩
    · rename_i hn
      have hbd := hc.bidi
      have hn0 : c.bidibitDuration.toNat ≠ 0 := fun h0 => hn (.inr (BitVec.eq_of_toNat_eq h0))
      have hf : first = false := by
        cases first
        · rfl
        · exact absurd (.inl rfl) hn
      have h1 : time2bit c.bidibitDuration.toNat = .b1 := by
        unfold time2bit
        rw [if_pos ⟨by omega, by omega⟩]
      have h2 : halves (List.replicate 4 (c.levels c.bidibitDuration.toNat c.bidibitDuration.toNat)) =
          List.replicate 8 c.bidibitDuration.toNat := by
        have : ∀ s : Symbol, List.replicate 4 s = [s] ++ [s] ++ [s] ++ [s] := fun _ => rfl
        rw [this, halves_append, halves_append, halves_append, halves_levels]
        rfl
      rw [h2]
      obtain ⟨pe, h3⟩ := run_ones_any (List.replicate 8 c.bidibitDuration.toNat)
        (fun t ht => by rw [List.eq_of_mem_replicate ht]; exact h1) l hl.state
      refine ⟨_, h3, ⟨hl.state, hl.byte, hl.checksum⟩, ?_⟩
      simp [hf]
  obtain ⟨l1, h1, h2, h3⟩ := hcut
  rw [Config.front, halves_append]
  by_cases hz : c.zimo0 = true
  · rw [if_pos hz]
    obtain ⟨l2, h4, h5, h6, h7, -⟩ := run_zero_any l1 c.tx (tx_valid hc) h2.state
      (Nat.lt_of_le_of_lt h3 (hb hz))
    have h8 := halves_bits c [false]
    rw [show [c.bit false] = [false].map c.bit from rfl, h8]
    exact ⟨l2, Link.run_append_nil _ _ h1 h4, h5, h6, h7⟩
  · rw [if_neg hz]
    exact ⟨l1, by simpa [halves] using h1, h2⟩

theorem run_rmt_packet (c : Config) (hc : c.Documented) (he : time2bit c.endHalf.toNat = .b1) (first : Bool)
    (p : Packet) (hp : ValidPacket p) (l : Link) (hl : l.Synced)
    (hb : c.zimo0 = true → l.bitCount + (if first then 0 else 8) < 20) :
    l.run (halves (c.packet first p)) = .ok (Link.after p, [.start, .packet p]) := by
  obtain ⟨l1, h1, h2⟩ := run_front c hc first l hl hb
  obtain ⟨w, h3, h4⟩ := run_packet_init l1 c.tx (tx_valid hc) p hp h2.state h2.byte h2.checksum
  rw [halves_packet c first p w h3]
  refine Link.run_append_nil _ _ h1 (Link.run_append_ok (ps' := [.packet p]) _ _ h4 ?_)
  rw [run_end_any _ _ he rfl rfl rfl hp.min]
  rfl

theorem packetsOf_two (p : Packet) (os : List LinkOut) :
    packetsOf ([.start, .packet p] ++ os) = p :: packetsOf os := rfl

theorem run_rmt_packets (c : Config) (hc : c.Documented) (he : time2bit c.endHalf.toNat = .b1) :
    ∀ (ps : List Packet) (first : Bool) (l : Link), (∀ p ∈ ps, ValidPacket p) → l.Synced →
    (c.zimo0 = true → l.bitCount + (if first then 0 else 8) < 20) →
    ∃ l' os, l.run (halves (ps.zipIdx.flatMap fun p => c.packet (first && p.2 == 0) p.1)) = .ok (l', os) ∧
      packetsOf os = ps := by
  have rest : ∀ (ps : List Packet) (k : Nat) (l : Link), (∀ p ∈ ps, ValidPacket p) → l.Synced →
      l.bitCount = 0 →
      ∃ l' os, l.run (halves (ps.flatMap fun p => c.packet false p)) = .ok (l', os) ∧ packetsOf os = ps := by
    intro ps
    induction ps with
    | nil => exact fun _ l _ _ _ => ⟨l, [], rfl, rfl⟩
    | cons p ps ih =>
      intro k l hv hl hb
      obtain ⟨l', os, h1, h2⟩ := ih (k + 1) (Link.after p) (fun q hq => hv q (List.mem_cons_of_mem _ hq))
        (Link.synced_after p) rfl
      refine ⟨l', [.start, .packet p] ++ os, ?_, ?_⟩
      · rw [List.flatMap_cons, halves_append]
        exact Link.run_append_ok _ _ (run_rmt_packet c hc he false p (hv p (List.mem_cons_self ..)) l hl
          (fun _ => by rw [hb]; decide)) h1
      · rw [packetsOf_two, h2]
  intro ps first l hv hl hb
  cases ps with
  | nil => exact ⟨l, [], rfl, rfl⟩
  | cons p ps =>
    obtain ⟨l', os, h1, h2⟩ := rest ps 0 (Link.after p) (fun q hq => hv q (List.mem_cons_of_mem _ hq))
      (Link.synced_after p) rfl
    refine ⟨l', [.start, .packet p] ++ os, ?_, by rw [packetsOf_two, h2]⟩
    have h3 : ((p :: ps).zipIdx.flatMap fun p => c.packet (first && p.2 == 0) p.1) =
        c.packet first p ++ ps.flatMap fun p => c.packet false p := by
      rw [List.zipIdx_cons, List.flatMap_cons]
      congr 1
      · simp
      · have : ∀ (ps : List Packet) k, 0 < k → (ps.zipIdx k).flatMap (fun p => c.packet (first && p.2 == 0) p.1) =
            ps.flatMap fun p => c.packet false p := by
          intro ps
          induction ps with
          | nil => intros; rfl
          | cons q qs ih =>
            intro k hk
            rw [List.zipIdx_cons, List.flatMap_cons, List.flatMap_cons, ih (k + 1) (by omega)]
            have : (k == 0) = false := by simp; omega
            simp [this]
        exact this ps (0 + 1) (by omega)
    rw [h3, halves_append]
    exact Link.run_append_ok _ _ (run_rmt_packet c hc he first p (hv p (List.mem_cons_self ..)) l hl hb) h1

/-- The symbols of packets sent one after the other are those of the packets. -/
theorem sendAll_packets (c : Config) (hc : c.Documented) : ∀ (ps : List (Packet × List Nat)) (first : Bool),
    (∀ p ∈ ps, p.1 ≠ []) →
    (∀ p ∈ ps.zipIdx, (c.packet (first && p.2 == 0) p.1.1).length ≤ p.1.2.sum ∧
      ¬ EndsBehindByte c (first && p.2 == 0) p.1.1 p.1.2) →
    ∃ e rs, sendAll ps (c.ready first) = .ok (e, rs) ∧
      rs.map (·.symbols) = ps.zipIdx.map (fun p => c.packet (first && p.2 == 0) p.1.1) ∧
      ∀ r ∈ rs, r.complete = true := by
  have step : ∀ (data : List Byte) (sizes : List Nat) (first : Bool), data ≠ [] →
      (c.packet first data).length ≤ sizes.sum → ¬ EndsBehindByte c first data sizes →
      ∃ r, send data sizes (c.ready first) = .ok r ∧ r.symbols = c.packet first data ∧ r.complete = true ∧
        r.enc = c.ready false := by
    intro data sizes first hd hs hh
    obtain ⟨e', h1, h2, -⟩ := ready_send hc first data hd sizes
    rw [← hits_iff c first data hd] at hh
    have hlen : (c.slots first data).length = (c.packet first data).length := by
      rw [← slots_symbols, List.length_map]
    obtain ⟨h3, h4⟩ := chunked_miss sizes _ hh (by omega) (by simp [Config.slots])
    exact ⟨_, h1, by simp only [h3, slots_symbols], h4, h2 h4⟩
  have rest : ∀ (ps : List (Packet × List Nat)), (∀ p ∈ ps, p.1 ≠ []) →
      (∀ p ∈ ps, (c.packet false p.1).length ≤ p.2.sum ∧ ¬ EndsBehindByte c false p.1 p.2) →
      ∃ e rs, sendAll ps (c.ready false) = .ok (e, rs) ∧
        rs.map (·.symbols) = ps.map (fun p => c.packet false p.1) ∧ ∀ r ∈ rs, r.complete = true := by
    intro ps
    induction ps with
    | nil => exact fun _ _ => ⟨_, [], rfl, rfl, fun _ h => by cases h⟩
    | cons p ps ih =>
      intro hd hh
      obtain ⟨data, sizes⟩ := p
      obtain ⟨h1, h2⟩ := hh _ (List.mem_cons_self ..)
      obtain ⟨r, h3, h4, h5, h6⟩ := step data sizes false (hd _ (List.mem_cons_self ..)) h1 h2
      obtain ⟨e, rs, h7, h8, h9⟩ := ih (fun q hq => hd q (List.mem_cons_of_mem _ hq))
        (fun q hq => hh q (List.mem_cons_of_mem _ hq))
      refine ⟨e, r :: rs, ?_, ?_, ?_⟩
      · rw [sendAll, h3, ok_bind, h6, h7]; rfl
      · rw [List.map_cons, h8, h4]; rfl
      · intro x hx
        rcases List.mem_cons.mp hx with rfl | hx
        · exact h5
        · exact h9 x hx
  intro ps first hd hh
  cases ps with
  | nil => exact ⟨_, [], rfl, rfl, fun _ h => by cases h⟩
  | cons p ps =>
    obtain ⟨data, sizes⟩ := p
    obtain ⟨h1, h2⟩ := hh ((data, sizes), 0) (by simp)
    obtain ⟨r, h3, h4, h5, h6⟩ := step data sizes first (hd _ (List.mem_cons_self ..)) (by simpa using h1)
      (by simpa using h2)
    have hmem : ∀ q ∈ ps, ∃ k, 0 < k ∧ (q, k) ∈ ((data, sizes) :: ps).zipIdx := by
      intro q hq
      obtain ⟨i, hi, rfl⟩ := List.getElem_of_mem hq
      exact ⟨i + 1, by omega, by rw [List.mem_zipIdx_iff_getElem?]; simp⟩
    obtain ⟨e, rs, h7, h8, h9⟩ := rest ps (fun q hq => hd q (List.mem_cons_of_mem _ hq)) (fun q hq => by
      obtain ⟨k, hk, hm⟩ := hmem q hq
      have := hh _ hm
      have hk0 : (k == 0) = false := by simp; omega
      simpa [hk0] using this)
    refine ⟨e, r :: rs, ?_, ?_, ?_⟩
    · rw [sendAll, h3, ok_bind, h6, h7]; rfl
    · rw [List.map_cons, h8, h4, List.zipIdx_cons, List.map_cons]
      congr 1
      · simp
      · have : ∀ (ps : List (Packet × List Nat)) k, 0 < k →
            ps.map (fun p => c.packet false p.1) =
            (ps.zipIdx k).map (fun p => c.packet (first && p.2 == 0) p.1.1) := by
          intro ps
          induction ps with
          | nil => intros; rfl
          | cons q qs ih =>
            intro k hk
            rw [List.zipIdx_cons, List.map_cons, List.map_cons, ih (k + 1) (by omega)]
            have : (k == 0) = false := by simp; omega
            simp [this]
        exact this ps (0 + 1) (by omega)
    · intro x hx
      rcases List.mem_cons.mp hx with rfl | hx
      · exact h5
      · exact h9 x hx

/-- **C69** A new RMT encoder sends valid packets, each in sessions with memory sizes that do not end
behind a byte; the end bit is not shortened below what counts as a one.  A decoder that waits for a
preamble and has not heard too many ones gets the half bits of all symbols in `receive()`, with any other
calls (except `disable()`) in between and never with a full queue: then exactly these packets arrive,
in order (logon packets are not queued). -/
theorem C69_rmt_to_decoder (c : Config) (hc : c.Documented)
    (hend : c.endbitDuration = 0#8 ∨ 52 ≤ c.endbitDuration.toNat)
    (ps : List (Packet × List Nat)) (hv : ∀ p ∈ ps, ValidPacket p.1)
    (hsizes : ∀ p ∈ ps.zipIdx, (c.packet (p.2 == 0) p.1.1).length ≤ p.1.2.sum ∧
      ¬ EndsBehindByte c (p.2 == 0) p.1.1 p.1.2)
    (e : Env) (s s' : Rx) (hr : Reachable e s) (hs : s.link.state = .preamble)
    (hb : c.zimo0 = true → s.link.bitCount < 20)
    (ops : List RxOp) (ho : s.run e ops = .ok s') (hd : .disable ∉ ops) (hf : NeverFull e s ops) :
    ∃ enc rs, sendAll ps c.encoder = .ok (enc, rs) ∧
      (recvTimes ops = halves (rs.flatMap (·.symbols)) →
        arrivals e s ops = (ps.map (·.1)).filter fun p => !isLogon p) := by
  obtain ⟨enc, rs, h1, h2, -⟩ := sendAll_packets c hc ps true (fun p hp h => by
    have := (hv p hp).min
    rw [h] at this
    simp at this) (by simpa using hsizes)
  refine ⟨enc, rs, h1, fun ht => ?_⟩
  have he : time2bit c.endHalf.toNat = .b1 := by
    have hb1 := hc.bit1
    have he := hc.endbit
    unfold time2bit Config.endHalf
    split
    · rw [if_pos ⟨by omega, by omega⟩]
    · rename_i hz
      rw [if_pos ⟨by rcases hend with h | h; exact absurd h hz; omega, by omega⟩]
  have hsync := hr.recvInv.link.synced hs
  obtain ⟨l', os, h3, h4⟩ := run_rmt_packets c hc he (ps.map (·.1)) true s.link
    (fun p hp => by obtain ⟨q, hq, rfl⟩ := List.mem_map.mp hp; exact hv q hq)
    ⟨hs, hsync.byte, hsync.checksum⟩ (by simpa using hb)
  have h5 : rs.flatMap (·.symbols) =
      ((ps.map (·.1)).zipIdx.flatMap fun p => c.packet (true && p.2 == 0) p.1) := by
    rw [List.flatMap_def, h2, List.zipIdx_map, List.flatMap_map, List.flatMap_def]
    rfl
  obtain ⟨os', h6, h7⟩ := run_interleaved e ops s s' ho hd hf
  rw [ht, h5, h3] at h6
  cases h6
  rw [h7, h4]

/-- The state after calls that do not fail. -/
theorem ran {e : Env} {s : Rx} {ops : List RxOp} (h : (s.run e ops).toBool = true) :
    ∃ s', s.run e ops = .ok s' := by
  cases hr : s.run e ops with
  | ok s' => exact ⟨s', rfl⟩
  | error _ => rw [hr] at h; cases h

/-- A speed packet for address 3. -/
def speedPacket : Packet := [3#8, 0x3F#8, 0x85#8, 0xB9#8]

theorem speedPacket_valid : ValidPacket speedPacket := ⟨by decide, by decide, by decide⟩

/-- The packet in one session. -/
theorem send_speed (c : Config) (hc : c.Documented) :
    ∃ enc rs, sendAll [(speedPacket, [100])] c.encoder = .ok (enc, rs) ∧
      rs.flatMap (·.symbols) = c.packet true speedPacket := by
  have hlen : (c.packet true speedPacket).length ≤ 68 := by
    have := hc.preamble
    simp only [Config.packet, Config.header, Config.cutout, true_or, if_true, List.nil_append, List.length_append,
      List.length_replicate]
    have h1 : (if c.zimo0 = true then [c.bit false] else []).length ≤ 1 := by split <;> simp
    have h2 : (speedPacket.flatMap fun b => c.bit false :: (byteBits b).map c.bit).length = 36 := by
      simp [speedPacket, byteBits]
    rw [h2, List.length_singleton]
    omega
  obtain ⟨enc, rs, h1, h2, -⟩ := sendAll_packets c hc [(speedPacket, [100])] true (by decide) (by
    intro p hp
    obtain rfl : p = ((speedPacket, [100]), 0) := by simpa using hp
    refine ⟨by simpa using Nat.le_trans hlen (by decide), ?_⟩
    rintro ⟨pre, k, h1, h2, h3, h4⟩
    have hk : (c.header (true && 0 == 0)).length ≤ 31 := by
      have := hc.preamble
      simp only [Config.header, Config.cutout, Bool.true_and, beq_self_eq_true, true_or, if_true, List.nil_append,
        List.length_append, List.length_replicate]
      have h1 : (if c.zimo0 = true then [c.bit false] else []).length ≤ 1 := by split <;> simp
      omega
    have h3' : k < 4 := h3
    simp only at h4
    have hp : pre.sum = 0 ∨ pre.sum = 100 := by
      obtain ⟨t, ht⟩ := h1
      match pre, ht with
      | [], _ => exact .inl rfl
      | [a], ht => simp at ht; right; simp [ht.1]
      | _ :: _ :: _, ht => simp at ht
    have hpos : pre.sum ≠ 0 := by omega
    have hcases := hp.resolve_left hpos
    omega)
  refine ⟨enc, rs, h1, ?_⟩
  rw [List.flatMap_def, h2]
  simp

/-- **C69** needs the limit on ones before ZIMO 0: behind ten ones ZIMO 0 is taken for a start bit, and
the packet does not arrive. -/
theorem C69_zimo0_false : ¬ ∀ (c : Config) (_ : c.Documented) (_ : c.endbitDuration = 0#8)
    (ps : List (Packet × List Nat)) (_ : ∀ p ∈ ps, ValidPacket p.1) (e : Env) (s s' : Rx) (_ : Reachable e s)
    (_ : s.link.state = .preamble) (ops : List RxOp) (_ : s.run e ops = .ok s') (_ : .disable ∉ ops)
    (_ : NeverFull e s ops) (enc : Encoder) (rs : List Sent) (_ : sendAll ps c.encoder = .ok (enc, rs))
    (_ : recvTimes ops = halves (rs.flatMap (·.symbols))),
    arrivals e s ops = (ps.map (·.1)).filter fun p => !isLogon p := by
  intro h
  have hc : ({ zimo0 := true } : Config).Documented := (accepted_documented _).mp (by decide)
  obtain ⟨enc, rs, h1, h2⟩ := send_speed _ hc
  let before : List RxOp := .init :: recvOps (List.replicate 20 (58, 0))
  let ops : List RxOp := recvOps ((halves (({ zimo0 := true } : Config).packet true speedPacket)).map fun t => (t, 0))
  obtain ⟨s, hs⟩ := ran (e := exampleEnv) (s := {}) (ops := before) (by decide +kernel)
  obtain ⟨s', hs'⟩ : ∃ s', s.run exampleEnv ops = .ok s' := by
    obtain ⟨s', hs'⟩ := ran (e := exampleEnv) (s := {}) (ops := before ++ ops) (by decide +kernel)
    exact ⟨s', by rw [run_append _ _ _ _ _ hs] at hs'; exact hs'⟩
  have hstate : s.link.state = .preamble := by
    have : holdsAfter (({} : Rx).run exampleEnv before) (fun s => decide (s.link.state = .preamble)) = true := by
      decide +kernel
    rw [hs] at this
    exact of_decide_eq_true this
  have hfull : NeverFull exampleEnv s ops := by
    have : holdsAfter (({} : Rx).run exampleEnv before) (fun s => decide (NeverFull exampleEnv s ops)) = true := by
      decide +kernel
    rw [hs] at this
    exact of_decide_eq_true this
  have harr : arrivals exampleEnv s ops = [] := by
    have : holdsAfter (({} : Rx).run exampleEnv before) (fun s => decide (arrivals exampleEnv s ops = [])) = true := by
      decide +kernel
    rw [hs] at this
    exact of_decide_eq_true this
  have h3 := h _ hc rfl [(speedPacket, [100])] (by
    intro p hp
    obtain rfl : p = (speedPacket, [100]) := by simpa using hp
    exact speedPacket_valid) exampleEnv s s' (Reachable.of_run hs) hstate ops hs' (by decide +kernel) hfull enc rs h1
    (by rw [h2]; decide +kernel)
  rw [harr] at h3
  revert h3
  decide

/-- **C69** needs an end bit that is long enough: with a second half of 51 us the packet is not complete
at its end. -/
theorem C69_end_bit_false : ¬ ∀ (c : Config) (_ : c.Documented)
    (ps : List (Packet × List Nat)) (_ : ∀ p ∈ ps, ValidPacket p.1) (e : Env) (s s' : Rx) (_ : Reachable e s)
    (_ : s.link.state = .preamble) (_ : s.link.bitCount < 20) (ops : List RxOp) (_ : s.run e ops = .ok s')
    (_ : .disable ∉ ops) (_ : NeverFull e s ops) (enc : Encoder) (rs : List Sent)
    (_ : sendAll ps c.encoder = .ok (enc, rs)) (_ : recvTimes ops = halves (rs.flatMap (·.symbols))),
    arrivals e s ops = (ps.map (·.1)).filter fun p => !isLogon p := by
  intro h
  have hc : ({ endbitDuration := 51#8 } : Config).Documented := (accepted_documented _).mp (by decide)
  obtain ⟨enc, rs, h1, h2⟩ := send_speed _ hc
  let ops : List RxOp :=
    recvOps ((halves (({ endbitDuration := 51#8 } : Config).packet true speedPacket)).map fun t => (t, 0))
  obtain ⟨s', hs'⟩ := ran (e := exampleEnv) (s := {}) (ops := ops) (by decide +kernel)
  have h3 := h _ hc [(speedPacket, [100])] (by
    intro p hp
    obtain rfl : p = (speedPacket, [100]) := by simpa using hp
    exact speedPacket_valid) exampleEnv {} s' .start rfl (by decide) ops hs' (by decide +kernel)
    (by decide +kernel) enc rs h1 (by rw [h2]; decide +kernel)
  revert h3
  decide +kernel

/-- The hypotheses are met, with ZIMO 0, cutout and a shortened end bit, for a decoder fresh from `init()`. -/
example : let c : Config := { bidibitDuration := 58#8, zimo0 := true, endbitDuration := 52#8 }
    let ps : List (Packet × List Nat) := [(speedPacket, [30, 24, 24]), (speedPacket, [50, 24])]
    let ops := recvOps ((halves (c.packet true speedPacket ++ c.packet false speedPacket)).map fun t => (t, 0))
    c.Documented ∧ (∀ p ∈ ps.zipIdx, (c.packet (p.2 == 0) p.1.1).length ≤ p.1.2.sum ∧
        ¬ EndsBehindByte c (p.2 == 0) p.1.1 p.1.2) ∧
      holdsAfter (({} : Rx).run exampleEnv [.init]) (fun s => decide (s.link.state = .preamble ∧
        s.link.bitCount < 20 ∧ NeverFull exampleEnv s ops ∧ .disable ∉ ops ∧
        arrivals exampleEnv s ops = [speedPacket, speedPacket])) = true := by
  refine ⟨(accepted_documented _).mp (by decide), by decide +kernel, by decide +kernel⟩

end Dcc.Rmt
