import Verif.Lemmas.TxSame
import Verif.Model.RxTiming
/-!
Properties C15-C22: the transmitter.  `n` is `DCC_TX_DEQUE_SIZE`; histories are arbitrary lists of
calls of `init`, `packet`/`bytes` and `transmit`, starting with a fresh object.
-/
namespace Dcc

/-! ### C15 -/

/-- **C15** `bytes2timings` gives exactly the half bits of preamble, start bits, data bits most
significant first and end bit; the capacity is never exceeded. -/
theorem C15_timings (bs : List Byte) (cfg : TxConfig) (h : bs.length ≤ maxPacketSize) :
    bytes2timings bs cfg = .ok (Spec.packetWave cfg bs) ∧
    (Spec.packetWave cfg bs).length = 2 * (cfg.numPreamble.toNat + 9 * bs.length + 1) :=
  ⟨bytes2timings_ok bs cfg h, packetWave_length cfg bs⟩

theorem wave_inj (cfg : TxConfig) (hne : cfg.bit1 ≠ cfg.bit0) :
    ∀ a b : List Bool, Spec.wave cfg a = Spec.wave cfg b → a = b := by
  have hn : cfg.bit1.toNat ≠ cfg.bit0.toNat := fun h => hne (BitVec.eq_of_toNat_eq h)
  intro a
  induction a with
  | nil =>
    intro b h
    have := congrArg List.length h
    rw [wave_length, wave_length] at this
    cases b with
    | nil => rfl
    | cons _ _ => simp at this
  | cons x a ih =>
    intro b h
    cases b with
    | nil =>
      have := congrArg List.length h
      rw [wave_length, wave_length] at this
      simp at this
    | cons y b =>
      have e : ∀ z (l : List Bool), Spec.wave cfg (z :: l) = Spec.wave cfg [z] ++ Spec.wave cfg l :=
        fun z l => wave_append cfg [z] l
      rw [e, e] at h
      cases x <;> cases y <;> simp [Spec.wave] at h
      · rw [ih b h]
      · exact absurd h.1.symm hn
      · exact absurd h.1 hn
      · rw [ih b h]

theorem byteBits_inj : ∀ a b : Byte, Spec.byteBits a = Spec.byteBits b → a = b := by
  intro a b h
  simp only [Spec.byteBits, List.cons.injEq, and_true] at h
  obtain ⟨h7, h6, h5, h4, h3, h2, h1, h0⟩ := h
  apply BitVec.eq_of_getLsbD_eq
  intro i hi
  have : i = 0 ∨ i = 1 ∨ i = 2 ∨ i = 3 ∨ i = 4 ∨ i = 5 ∨ i = 6 ∨ i = 7 := by omega
  rcases this with h | h | h | h | h | h | h | h <;> subst h <;> assumption

theorem frameBytes_inj : ∀ as bs : List Byte,
    as.flatMap (fun b => false :: Spec.byteBits b) = bs.flatMap (fun b => false :: Spec.byteBits b) →
    as = bs := by
  intro as
  induction as with
  | nil =>
    intro bs h
    cases bs with
    | nil => rfl
    | cons b bs => simp at h
  | cons a as ih =>
    intro bs h
    cases bs with
    | nil => simp at h
    | cons b bs =>
      rw [List.flatMap_cons, List.flatMap_cons] at h
      have := List.append_inj h (by simp [Spec.byteBits])
      obtain ⟨h1, h2⟩ := this
      rw [byteBits_inj a b (List.cons.inj h1).2, ih bs h2]

/-- **C15** `packet2timings` is the same for a packet. -/
theorem C15_packet2timings (p : Packet) (cfg : TxConfig) (h : p.length ≤ maxPacketSize) :
    packet2timings p cfg = .ok (Spec.packetWave cfg p) := (C15_timings p cfg h).1

/-- **C15** The bytes can be recovered from the timings if the two durations differ: two byte
strings with the same timings are equal. -/
theorem C15_timings_injective (as bs : List Byte) (cfg : TxConfig) (hne : cfg.bit1 ≠ cfg.bit0)
    (t : List Nat) (ha : bytes2timings as cfg = .ok t) (hb : bytes2timings bs cfg = .ok t) :
    as = bs := by
  have key : ∀ xs, bytes2timings xs cfg = .ok t → Spec.packetWave cfg xs = t := by
    intro xs h
    rw [bytes2timings] at h
    split at h
    · rw [← timingsOf_eq]; exact Except.ok.inj h
    · cases h
  have h := (key as ha).trans (key bs hb).symm
  have h := wave_inj cfg hne _ _ h
  simp only [Spec.frameBits, List.append_assoc, List.append_cancel_left_eq,
    List.append_cancel_right_eq] at h
  exact frameBytes_inj as bs h

example : (bytes2timings [0xFF, 0x00, 0xFF]).isOk = true := by decide +kernel
example : ({} : TxConfig).bit1 ≠ ({} : TxConfig).bit0 := by decide

/-! ### C16 -/

/-- **C16** A configuration accepted by `init` has 17 to 30 preamble bits, and every half bit of any
packet is within the tolerance of RCN-210 for the bit it belongs to and is classified as this bit by
the receiver.  (`init` accepts exactly `ValidConfig`.) -/
theorem C16_tolerance (cfg : TxConfig) (s s' : Tx) (h : s.init cfg = .ok s') (bits : List Bool) :
    Spec.ValidConfig cfg ∧ s'.cfg = cfg ∧
    ∀ i b, bits[i]? = some b →
      ∃ d, (Spec.wave cfg bits)[2 * i]? = some d ∧ (Spec.wave cfg bits)[2 * i + 1]? = some d ∧
        (b = true → 56 ≤ d ∧ d ≤ 60 ∧ time2bit d = .b1) ∧
        (b = false → 97 ≤ d ∧ d ≤ 114 ∧ time2bit d = .b0) := by
  rw [Tx.init] at h
  split at h
  · rename_i ha
    cases h
    have hv := (accepted_iff cfg).mp ha
    refine ⟨hv, rfl, ?_⟩
    obtain ⟨_, _, v1, v2, v3, v4⟩ := hv
    induction bits with
    | nil => intro i b hb; simp at hb
    | cons x bits ih =>
      intro i b hb
      have e : Spec.wave cfg (x :: bits) = Spec.wave cfg [x] ++ Spec.wave cfg bits :=
        wave_append cfg [x] bits
      have hx : (Spec.wave cfg [x]).length = 2 := by rw [wave_length]; rfl
      cases i with
      | zero =>
        simp at hb
        subst hb
        cases x
        · refine ⟨cfg.bit0.toNat, by simp [Spec.wave], by simp [Spec.wave], by simp, fun _ => ⟨v3, v4, ?_⟩⟩
          rw [time2bit, if_neg (by omega), if_pos (by omega)]
        · refine ⟨cfg.bit1.toNat, by simp [Spec.wave], by simp [Spec.wave], fun _ => ⟨v1, v2, ?_⟩, by simp⟩
          rw [time2bit, if_pos (by omega)]
      | succ i =>
        obtain ⟨d, h1, h2, h3⟩ := ih i b (by simpa using hb)
        refine ⟨d, ?_, ?_, h3⟩
        · rw [e, List.getElem?_append_right (by omega), hx]; exact h1
        · rw [e, List.getElem?_append_right (by omega), hx]; exact h2
  · cases h

/-- **C16** The ranges are exactly those of `init`: anything else fails its assertion. -/
theorem C16_init_accepts_iff (cfg : TxConfig) (s : Tx) :
    (∃ s', s.init cfg = .ok s') ↔ Spec.ValidConfig cfg := by
  rw [← accepted_iff, Tx.init]
  constructor
  · rintro ⟨s', h⟩; split at h
    · assumption
    · cases h
  · intro h; exact ⟨_, by rw [if_pos h]⟩

example : Spec.ValidConfig { numPreamble := 30, bit1 := 60, bit0 := 97 } := by
  simp [Spec.ValidConfig]

/-! ### C17 -/

/-- **C17** For every history: what has been put on the track is a sequence of packets (queued or
idle), each complete with its cutout except possibly the last; and the accepted packets are exactly
the queued ones among them followed by at most `n` waiting ones, in order.  Each half bit and each
cutout phase is the right one, under one of the valid configurations that were in force. -/
theorem C17_fifo (n : Nat) (ops : List TxOp) (h : TxHist)
    (hr : ({ s := {} } : TxHist).run n ops = .ok h) :
    ∃ done cur waiting, Spec.Describes Spec.ValidConfig h done cur waiting ∧ waiting.length ≤ n ∧
      ∀ a ∈ h.acc, Spec.ValidConfig a.1 ∧ a.2.length ≤ maxPacketSize := by
  obtain ⟨done, cur, i⟩ := TxInv.reachable ops h hr
  exact ⟨done, cur, _, i.describes, by rw [Tx.queue_length]; exact Tx.size_le n h.s, i.acc_ok⟩

/-- **C17** With one configuration the whole stream of `transmit` calls is determined: it is the
concatenation of whole packets (half bits, then the cutout if BiDi is enabled), the last one possibly
cut short; their queued packets followed by the waiting ones are the accepted packets. -/
theorem C17_track_stream (n : Nat) (cfg : TxConfig) (ops : List TxOp) (hno : ∀ c, .init c ∉ ops)
    (h : TxHist) (hr : ({ s := {} } : TxHist).run n (.init cfg :: ops) = .ok h) :
    ∃ (frames : List (Option (List Nat))) (last : Option (List Nat)) (k : Nat)
      (waiting : List (List Nat)),
      h.out = frames.flatMap (Spec.wholeOuts cfg) ++ (Spec.wholeOuts cfg last).take k ∧
      h.acc.map (fun a => Spec.packetWave cfg a.2) = (frames ++ [last]).filterMap id ++ waiting ∧
      waiting.length ≤ n := by
  obtain ⟨done, cur, i⟩ := TxInv.reachable_fixed cfg ops hno h hr
  refine ⟨done.map Spec.Segment.frame, cur.frame, cur.outs.length, h.s.queue n, ?_, ?_, ?_⟩
  · rw [i.out_eq, List.flatMap_append, List.flatMap_map]
    congr 1
    · exact flatMap_congr_mem _ _ _ fun g hg =>
        outs_eq_complete (i.done_ok g hg).1 (i.done_ok g hg).2
    · simp only [List.flatMap_cons, List.flatMap_nil, List.append_nil]
      exact outs_eq_take i.cur_ok
  · have e := i.acc_eq
    have : h.acc.map (fun a => Spec.packetWave cfg a.2) =
        h.acc.map (fun a => Spec.packetWave a.1 a.2) := by
      apply List.map_congr_left
      intro a ha
      rw [(i.acc_ok a ha).1]
    rw [this, e]
    congr 1
    rw [show done.map Spec.Segment.frame ++ [cur.frame] = (done ++ [cur]).map Spec.Segment.frame by simp,
      List.filterMap_map]
    rfl
  · rw [Tx.queue_length]; exact Tx.size_le n h.s

/-- A history with a queued packet, some half bits and another queued packet is possible. -/
example : ∃ h, ({ s := {} } : TxHist).run 3
    [.init { bidi := false }, .bytes [3, 0x3F, 0x85, 0xB9], .transmit, .transmit,
      .bytes [0xFF, 0x00, 0xFF], .transmit] = .ok h ∧ h.out.length = 3 ∧ h.acc.length = 2 := by
  refine ⟨_, rfl, ?_, ?_⟩ <;> rfl

/-! ### C18 -/

theorem durations_pos {n h done cur} (i : TxInv n Spec.ValidConfig h done cur) :
    ∀ o ∈ h.out, 17 ≤ o.duration := by
  intro o ho
  rw [i.out_eq, List.mem_flatMap] at ho
  obtain ⟨g, hg, ho⟩ := ho
  have hok : g.Ok Spec.ValidConfig := by
    rcases List.mem_append.mp hg with hg | hg
    · exact (i.done_ok g hg).1
    · simp only [List.mem_singleton] at hg; subst hg; exact i.cur_ok
  rcases List.mem_append.mp ho with ho | ho
  · obtain ⟨j, hj⟩ := List.mem_iff_getElem?.mp ho
    obtain ⟨c, d, _, hd, rfl⟩ := hok.halves_eq j o hj
    have hd := List.mem_iff_getElem?.mpr ⟨j, hd⟩
    have : ∃ c bs, Spec.ValidConfig c ∧ g.wave = Spec.packetWave c bs := by
      rw [Spec.Segment.wave]
      cases hf : g.frame with
      | none => exact ⟨{}, [0xFF#8, 0x00#8, 0xFF#8], by simp [Spec.ValidConfig], rfl⟩
      | some t =>
        have : t ∈ h.acc.map (fun a => Spec.packetWave a.1 a.2) := by
          rw [i.acc_eq]
          apply List.mem_append_left
          exact List.mem_filterMap.mpr ⟨g, hg, hf⟩
        obtain ⟨a, ha, e⟩ := List.mem_map.mp this
        exact ⟨a.1, a.2, (i.acc_ok a ha).1, by simp [← e]⟩
    obtain ⟨c', bs, hv, hw⟩ := this
    rw [hw] at hd
    have hdur : (Spec.halfOut c j d).duration = d := by simp only [Spec.halfOut]; split <;> rfl
    rw [hdur]
    obtain ⟨_, _, v1, v2, v3, v4⟩ := hv
    rcases wave_mem _ _ d hd with h | h <;> omega
  · obtain ⟨j, hj⟩ := List.mem_iff_getElem?.mp ho
    obtain ⟨c, _, _, hc⟩ := hok.cut_eq j o hj
    have := List.mem_iff_getElem?.mpr ⟨j, hc⟩
    simp only [Spec.cutOut, List.mem_cons, List.not_mem_nil, or_false] at this
    rcases this with h | h | h | h | h <;> subst h <;> simp

/-- **C18** After every history `transmit` succeeds, with a positive duration; it either continues
the current packet or, the current one being complete, starts the next: the first waiting packet, or
an idle packet if nothing is waiting. -/
theorem C18_next_packet (n : Nat) (ops : List TxOp) (h : TxHist)
    (hr : ({ s := {} } : TxHist).run n ops = .ok h) :
    ∃ done cur waiting h' cur' o, Spec.Describes Spec.ValidConfig h done cur waiting ∧
      h.step n .transmit = .ok h' ∧ h'.out = h.out ++ [o] ∧ 0 < o.duration ∧ h'.acc = h.acc ∧
      ((Spec.Describes Spec.ValidConfig h' done cur' waiting ∧ cur'.frame = cur.frame) ∨
       (cur.Complete Spec.ValidConfig ∧
        Spec.Describes Spec.ValidConfig h' (done ++ [cur]) cur' waiting.tail ∧
        cur'.frame = waiting.head?)) := by
  obtain ⟨done, cur, i⟩ := TxInv.reachable ops h hr
  obtain ⟨h', done', cur', hs, i', hc⟩ := i.transmit
  have hout : ∃ o, h'.out = h.out ++ [o] ∧ h'.acc = h.acc := by
    simp only [TxHist.step] at hs
    rw [bind_eq_ok] at hs
    obtain ⟨⟨s', o⟩, _, hs⟩ := hs
    simp only [pure_eq_ok, Except.ok.injEq] at hs
    subst hs
    exact ⟨o, rfl, rfl⟩
  obtain ⟨o, ho, ha⟩ := hout
  refine ⟨done, cur, _, h', cur', o, i.describes, hs, ho, ?_, ha, ?_⟩
  · have := durations_pos i' o (by rw [ho]; simp)
    omega
  · rcases hc with ⟨h1, h2, h3⟩ | ⟨h1, h2, h3, h4⟩
    · left
      subst h1
      rw [← h3]
      exact ⟨i'.describes, h2⟩
    · right
      subst h2
      rw [← h4]
      exact ⟨h1, i'.describes, h3⟩

/-- **C18** No history of calls with accepted configurations and packets that fit faults. -/
theorem C18_never_faults (n : Nat) (ops : List TxOp) (hc : ∀ c, .init c ∈ ops → Spec.ValidConfig c)
    (hb : ∀ bs, .bytes bs ∈ ops → bs.length ≤ maxPacketSize) :
    ∃ h, ({ s := {} } : TxHist).run n ops = .ok h := by
  suffices ∀ (ops : List TxOp) (h : TxHist) (done : List Spec.Segment) (cur : Spec.Segment),
      TxInv n Spec.ValidConfig h done cur → (∀ c, .init c ∈ ops → Spec.ValidConfig c) →
      (∀ bs, .bytes bs ∈ ops → bs.length ≤ maxPacketSize) → ∃ h', h.run n ops = .ok h' from
    this ops _ _ _ (TxInv.initial n _ {} (by simp [Spec.ValidConfig])) hc hb
  intro ops
  induction ops with
  | nil => intro h _ _ _ _ _; exact ⟨h, rfl⟩
  | cons op ops ih =>
    intro h done cur i hc hb
    have hstep : ∃ h1 d1 c1, h.step n op = .ok h1 ∧ TxInv n Spec.ValidConfig h1 d1 c1 := by
      cases op with
      | init c =>
        have ha := (accepted_iff c).mpr (hc c (by simp))
        have : h.step n (.init c) = .ok { h with s := { h.s with cfg := c } } := by
          simp [TxHist.step, Tx.init, ha]
        exact ⟨_, done, cur, this, i.init c (hc c (by simp)) _ this⟩
      | bytes bs =>
        have hl := hb bs (by simp)
        have : ∃ h1, h.step n (.bytes bs) = .ok h1 := by
          simp only [TxHist.step, Tx.bytes]
          by_cases hf : h.s.full n = true
          · simp [hf]
          · simp [hf, hl, bytes2timings_ok]
        obtain ⟨h1, hs⟩ := this
        exact ⟨h1, done, cur, hs, i.bytes bs h1 hs⟩
      | transmit =>
        obtain ⟨h1, d1, c1, hs, i1, _⟩ := i.transmit
        exact ⟨h1, d1, c1, hs, i1⟩
    obtain ⟨h1, d1, c1, hs, i1⟩ := hstep
    obtain ⟨h', hr⟩ := ih h1 d1 c1 i1 (fun c hm => hc c (List.mem_cons_of_mem _ hm))
      (fun bs hm => hb bs (List.mem_cons_of_mem _ hm))
    exact ⟨h', by rw [TxHist.run, hs]; exact hr⟩

/-! ### C19 -/

/-- **C19** With BiDi enabled every packet is followed by exactly the five cutout phases. -/
theorem C19_cutout_after_every_packet (n : Nat) (cfg : TxConfig) (hb : cfg.bidi = true)
    (ops : List TxOp) (hs : ∀ c, .init c ∈ ops → c.invert = cfg.invert ∧ c.bidi = cfg.bidi)
    (h : TxHist)
    (hr : ({ s := {} } : TxHist).run n (.init cfg :: ops) = .ok h) :
    ∃ (waves : List (List Nat)) (last : List Nat) (k : Nat),
      h.out = waves.flatMap (fun w => Spec.packetOuts cfg w ++ Spec.cutOut cfg) ++
        (Spec.packetOuts cfg last ++ Spec.cutOut cfg).take k := by
  obtain ⟨frames, last, k, _, ho, _, _⟩ := stream_same n cfg ops h hs hr
  refine ⟨frames.map (fun f => f.getD Spec.idleWave), last.getD Spec.idleWave, k, ?_⟩
  have e : Spec.wholeOuts cfg = fun f => Spec.packetOuts cfg (f.getD Spec.idleWave) ++ Spec.cutOut cfg := by
    funext f; simp only [Spec.wholeOuts, hb, if_true]
  rw [ho, List.flatMap_map, e]

/-- **C19** Start times of the phases (0, 29, 80, 193, 454) and end of the cutout (471) in us, and
the tolerances of RCN-217 for cutout start and end and both channels: channel 1 is read from 80 us,
channel 2 from 193 us, the cutout starts between 26 and 32 us and ends between 454 and 488 us. -/
theorem C19_cutout_times (cfg : TxConfig) :
    (List.range 6).map (fun k => (((Spec.cutOut cfg).take k).map TxOut.duration).sum) =
      [0, 29, 80, 193, 454, 471] ∧
    (Spec.cutOut cfg).map TxOut.events =
      [[.trackOutputs cfg.invert (!cfg.invert)], [.trackOutputs false false, .biDiStart],
       [.biDiChannel1], [.biDiChannel2], [.biDiEnd]] ∧
    26 ≤ 29 ∧ 29 ≤ 32 ∧ 454 ≤ 471 ∧ 471 ≤ 488 := by
  refine ⟨rfl, rfl, by decide, by decide, by decide, by decide⟩

/-- **C19** With BiDi disabled no cutout callback ever happens and the outputs are never both off. -/
theorem C19_no_cutout_if_disabled (n : Nat) (cfg : TxConfig) (hb : cfg.bidi = false)
    (ops : List TxOp) (hs : ∀ c, .init c ∈ ops → c.invert = cfg.invert ∧ c.bidi = cfg.bidi)
    (h : TxHist)
    (hr : ({ s := {} } : TxHist).run n (.init cfg :: ops) = .ok h) :
    ∀ o ∈ h.out, Spec.Complementary o := by
  obtain ⟨frames, last, k, _, ho, _, _⟩ := stream_same n cfg ops h hs hr
  have key : ∀ f, ∀ o ∈ Spec.wholeOuts cfg f, Spec.Complementary o := by
    intro f o ho
    simp only [Spec.wholeOuts, hb, Bool.false_eq_true, if_false, List.append_nil] at ho
    obtain ⟨j, hj⟩ := List.mem_iff_getElem?.mp ho
    rw [Spec.packetOuts, List.getElem?_mapIdx] at hj
    obtain ⟨d, _, hd⟩ := Option.map_eq_some_iff.mp hj
    subst hd
    simp only [Spec.halfOut, Spec.Complementary]
    cases cfg.invert <;> split <;> simp
  intro o ho'
  rw [ho] at ho'
  rcases List.mem_append.mp ho' with ho' | ho'
  · obtain ⟨f, _, hf⟩ := List.mem_flatMap.mp ho'
    exact key f o hf
  · exact key last o (List.mem_of_mem_take ho')

/-! ### C20 -/

theorem mapIdx_wave_pairs (cfg c : TxConfig) : ∀ bits : List Bool,
    (((Spec.packetOuts cfg (Spec.wave c bits)).map Spec.area).sum = 0) := by
  have gen : ∀ (bits : List Bool) (k : Nat), k % 2 = 0 →
      (((Spec.wave c bits).mapIdx (fun i d => Spec.halfOut cfg (i + k) d)).map Spec.area).sum = 0 := by
    intro bits
    induction bits with
    | nil => intro k _; rfl
    | cons b bits ih =>
      intro k hk
      have e : Spec.wave c (b :: bits) =
          (if b then c.bit1.toNat else c.bit0.toNat) :: (if b then c.bit1.toNat else c.bit0.toNat) ::
            Spec.wave c bits := by
        cases b <;> simp [Spec.wave]
      rw [e]
      simp only [List.mapIdx_cons, List.map_cons, List.sum_cons]
      have h1 : (fun i d => Spec.halfOut cfg (i + 1 + 1 + k) d) = (fun i d => Spec.halfOut cfg (i + (k + 2)) d) := by
        funext i d; congr 1; omega
      rw [h1, ih (k + 2) (by omega)]
      simp only [Spec.area, Spec.halfOut, Nat.zero_add, hk, show (1 + k) % 2 = 1 by omega]
      cases cfg.invert <;> simp <;> omega
  intro bits
  exact gen bits 0 rfl

/-- **C20** Every packet on the track (queued or idle) is DC free: each half bit drives exactly one
output, bits consist of two halves of equal duration and opposite polarity (`halfOut`), the signed
durations of all half bits of the packet cancel. -/
theorem C20_dc_free (n : Nat) (cfg : TxConfig) (ops : List TxOp)
    (hs : ∀ c, .init c ∈ ops → c.invert = cfg.invert ∧ c.bidi = cfg.bidi) (h : TxHist)
    (hr : ({ s := {} } : TxHist).run n (.init cfg :: ops) = .ok h) :
    ∃ (waves : List (List Nat)) (last : List Nat) (k : Nat),
      h.out = waves.flatMap (fun w => Spec.packetOuts cfg w ++ if cfg.bidi then Spec.cutOut cfg else []) ++
        (Spec.packetOuts cfg last ++ if cfg.bidi then Spec.cutOut cfg else []).take k ∧
      ∀ w ∈ waves ++ [last],
        ((Spec.packetOuts cfg w).map Spec.area).sum = 0 ∧
        (∀ o ∈ Spec.packetOuts cfg w, Spec.Complementary o) ∧
        (∀ i, 2 * i + 1 < w.length → w[2 * i]? = w[2 * i + 1]?) := by
  obtain ⟨frames, last, k, waiting, ho, ha, _⟩ := stream_same n cfg ops h hs hr
  refine ⟨frames.map (fun f => f.getD Spec.idleWave), last.getD Spec.idleWave, k, ?_, ?_⟩
  · rw [ho, List.flatMap_map]; rfl
  · intro w hw
    have hw' : ∃ f ∈ frames ++ [last], f.getD Spec.idleWave = w := by
      rcases List.mem_append.mp hw with hw | hw
      · obtain ⟨f, hf, e⟩ := List.mem_map.mp hw
        exact ⟨f, List.mem_append_left _ hf, e⟩
      · exact ⟨last, by simp, (List.mem_singleton.mp hw).symm⟩
    obtain ⟨f, hf, e⟩ := hw'
    have : ∃ c bits, w = Spec.wave c bits := by
      cases f with
      | none => exact ⟨_, _, e.symm⟩
      | some t =>
        have : t ∈ h.acc.map (fun a => Spec.packetWave a.1 a.2) := by
          rw [ha]
          apply List.mem_append_left
          exact List.mem_filterMap.mpr ⟨some t, hf, rfl⟩
        obtain ⟨a, _, ea⟩ := List.mem_map.mp this
        exact ⟨a.1, _, by rw [← e, ← ea]; rfl⟩
    obtain ⟨c, bits, rfl⟩ := this
    refine ⟨mapIdx_wave_pairs cfg c bits, ?_, ?_⟩
    · intro o ho
      obtain ⟨j, hj⟩ := List.mem_iff_getElem?.mp ho
      rw [Spec.packetOuts, List.getElem?_mapIdx] at hj
      obtain ⟨d, _, hd⟩ := Option.map_eq_some_iff.mp hj
      subst hd
      simp only [Spec.halfOut, Spec.Complementary]
      cases cfg.invert <;> split <;> simp
    · clear e hf hw
      induction bits with
      | nil => intro i hi; simp [Spec.wave] at hi
      | cons b bits ih =>
        intro i hi
        have e : Spec.wave c (b :: bits) =
            (if b then c.bit1.toNat else c.bit0.toNat) :: (if b then c.bit1.toNat else c.bit0.toNat) ::
              Spec.wave c bits := by
          cases b <;> simp [Spec.wave]
        rw [e] at hi ⊢
        cases i with
        | zero => rfl
        | succ i =>
          simp only [List.length_cons] at hi
          rw [show 2 * (i + 1) = 2 * i + 1 + 1 by omega]
          simp only [List.getElem?_cons_succ]
          exact ih i (by omega)

/-- The same command station with the phase inverted. -/
def flipCfg (c : TxConfig) : TxConfig := { c with invert := !c.invert }
/-- The same history with the phase inverted. -/
def flipHist (h : TxHist) : TxHist :=
  { s := { h.s with cfg := flipCfg h.s.cfg }, out := h.out.map Spec.swapOut,
    acc := h.acc.map fun a => (flipCfg a.1, a.2) }

theorem flip_packetTiming (s : Tx) :
    ({ s with cfg := flipCfg s.cfg } : Tx).packetTiming =
      s.packetTiming.map (fun p => ({ p.1 with cfg := flipCfg p.1.cfg }, Spec.swapOut p.2)) := by
  have e : ({ s with cfg := flipCfg s.cfg } : Tx).current = s.current := rfl
  simp only [Tx.packetTiming, e]
  cases s.current[s.packetCount]? with
  | none => rfl
  | some d =>
    simp only [Except.map, flipCfg, Spec.swapOut]
    congr 2
    split <;> cases s.cfg.invert <;> rfl

theorem flip_transmit (n : Nat) (s : Tx) :
    ({ s with cfg := flipCfg s.cfg } : Tx).transmit n =
      (s.transmit n).map (fun p => ({ p.1 with cfg := flipCfg p.1.cfg }, Spec.swapOut p.2)) := by
  have e : ({ s with cfg := flipCfg s.cfg } : Tx).current = s.current := rfl
  simp only [Tx.transmit, e]
  by_cases h1 : s.packetCount < s.current.length
  · rw [if_pos h1, if_pos h1, flip_packetTiming]
  · rw [if_neg h1, if_neg h1]
    by_cases h2 : s.cfg.bidi = true ∧ s.bidiCount ≤ 4
    · rw [if_pos (show (flipCfg s.cfg).bidi = true ∧ _ from h2), if_pos h2]
      simp only [Except.map]
      congr 1
      have : s.bidiCount = 0 ∨ s.bidiCount = 1 ∨ s.bidiCount = 2 ∨ s.bidiCount = 3 ∨ s.bidiCount = 4 := by
        omega
      rcases this with h | h | h | h | h <;> simp [Tx.bidiTiming, h, flipCfg, Spec.swapOut, Spec.swapEvent]
    · rw [if_neg (show ¬((flipCfg s.cfg).bidi = true ∧ _) from h2), if_neg h2]
      rw [← flip_packetTiming]
      congr 1
      have : ({ s with cfg := flipCfg s.cfg } : Tx).empty = s.empty := rfl
      rw [this]
      split <;> rfl

/-- The same call with the phase inverted. -/
def flipOp : TxOp → TxOp
  | .init c => .init { c with invert := !c.invert }
  | op => op

theorem flip_step (n : Nat) (h : TxHist) (op : TxOp) :
    (flipHist h).step n (flipOp op) = (h.step n op).map flipHist := by
  cases op with
  | init c =>
    show (flipHist h).step n (.init (flipCfg c)) = _
    simp only [TxHist.step, Tx.init]
    rw [show (flipCfg c).accepted = c.accepted from rfl]
    split <;> rfl
  | bytes bs =>
    have ef : (flipHist h).s.full n = h.s.full n := rfl
    have et : timingsOf (flipCfg h.s.cfg) bs = timingsOf h.s.cfg bs := by
      rw [timingsOf_eq, timingsOf_eq]; rfl
    have eb : bytes2timings bs (flipHist h).s.cfg = bytes2timings bs h.s.cfg := by
      show bytes2timings bs (flipCfg h.s.cfg) = _
      simp only [bytes2timings, et]
    simp only [flipOp, TxHist.step, Tx.bytes, ef, eb]
    by_cases hf : h.s.full n = true
    · simp only [hf, if_true, ok_bind, pure_eq_ok, Except.map]
    · simp only [hf, Bool.false_eq_true, if_false]
      split
      · cases bytes2timings bs h.s.cfg with
        | error e => rfl
        | ok t =>
          simp [Except.map, flipHist, Tx.pushBack]
          rfl
      · rfl
  | transmit =>
    simp only [flipOp, TxHist.step]
    rw [show (flipHist h).s = { h.s with cfg := flipCfg h.s.cfg } from rfl, flip_transmit]
    cases h.s.transmit n with
    | error e => rfl
    | ok p => simp [Except.map, flipHist]

/-- **C20** Setting `invert` exactly swaps the two outputs in the whole history, however often the station is
configured. -/
theorem C20_invert_swaps (n : Nat) (cfg : TxConfig) (ops : List TxOp) (h : TxHist)
    (hr : ({ s := {} } : TxHist).run n (.init cfg :: ops) = .ok h) :
    ∃ h', ({ s := {} } : TxHist).run n (.init { cfg with invert := !cfg.invert } :: ops.map flipOp) = .ok h' ∧
      h'.out = h.out.map Spec.swapOut := by
  have key : ∀ (ops : List TxOp) (h1 h : TxHist), h1.run n ops = .ok h →
      (flipHist h1).run n (ops.map flipOp) = .ok (flipHist h) := by
    intro ops
    induction ops with
    | nil => intro h1 h hr; cases hr; rfl
    | cons op ops ih =>
      intro h1 h hr
      rw [TxHist.run, bind_eq_ok] at hr
      obtain ⟨h2, hs, hr⟩ := hr
      rw [List.map_cons, TxHist.run, flip_step n h1 op, hs]
      exact ih h2 h hr
  rw [TxHist.run, bind_eq_ok] at hr
  obtain ⟨h1, hs, hr⟩ := hr
  have hs' : ({ s := {} } : TxHist).step n (.init (flipCfg cfg)) = .ok (flipHist h1) := by
    simp only [TxHist.step, Tx.init] at hs ⊢
    have : (flipCfg cfg).accepted = cfg.accepted := rfl
    rw [this]
    split at hs
    · simp only [ok_bind, pure_eq_ok, Except.ok.injEq] at hs
      subst hs
      rename_i ha
      rw [if_pos ha]
      rfl
    · cases hs
  refine ⟨flipHist h, ?_, rfl⟩
  rw [TxHist.run, show ({ cfg with invert := !cfg.invert } : TxConfig) = flipCfg cfg from rfl, hs']
  exact key ops h1 h hr

/-! ### C21 -/

/-- **C21** is violated: the idle packets ignore the configuration.  Whatever accepted configuration
is set, the first half bit transmitted lasts 58 us and the idle packet has 17 preamble bits. -/
theorem C21_idle_ignores_config (n : Nat) (cfg : TxConfig) (hv : Spec.ValidConfig cfg) :
    ∃ h, ({ s := {} } : TxHist).run n [.init cfg, .transmit] = .ok h ∧
      h.out.map TxOut.duration = [58] ∧
      Spec.idleWave.length = 2 * (17 + 9 * 3 + 1) ∧
      (cfg.bit1 ≠ 58#8 → h.out.map TxOut.duration ≠ [cfg.bit1.toNat]) := by
  have ha := (accepted_iff cfg).mpr hv
  have hd : (idleTimings)[0]? = some 58 := by decide +kernel
  refine ⟨{ s := { cfg := cfg, packetCount := 1 }, out := [Spec.halfOut cfg 0 58] }, ?_, ?_, ?_, ?_⟩
  · have hl : 0 < idleTimings.length := by rw [idle_eq]; exact TxInv.idle_pos
    have hd : idleTimings[0] = 58 := by rw [List.getElem?_eq_getElem hl] at hd; exact Option.some.inj hd
    simp [TxHist.run, TxHist.step, Tx.init, ha, Tx.transmit, Tx.current, hl, Tx.packetTiming, hd,
      Spec.halfOut]
  · rfl
  · rw [Spec.idleWave, packetWave_length]; rfl
  · intro hne he
    apply hne
    have : cfg.bit1.toNat = 58 := by
      have := List.cons.inj he
      exact this.1.symm
    exact BitVec.eq_of_toNat_eq this

/-- A valid configuration different from the default exists, so C21 fails as stated. -/
theorem C21_witness : ∃ (cfg : TxConfig) (h : TxHist), Spec.ValidConfig cfg ∧
    ({ s := {} } : TxHist).run 3 [.init cfg, .transmit] = .ok h ∧
    h.out.map TxOut.duration ≠ [cfg.bit1.toNat] := by
  have hv : Spec.ValidConfig { bit1 := 60#8 } := by simp [Spec.ValidConfig]
  obtain ⟨h, h1, _, _, h2⟩ := C21_idle_ignores_config 3 _ hv
  exact ⟨_, h, hv, h1, h2 (by decide)⟩

/-- **C21** Calling `init` is optional: without it the command station does what it does with 17
preamble bits, 58 and 100 us, outputs not inverted and BiDi enabled. -/
theorem C21_without_init (n : Nat) (ops : List TxOp) :
    ({ s := {} } : TxHist).run n ops = ({ s := {} } : TxHist).run n
      (.init { numPreamble := 17#8, bit1 := 58#8, bit0 := 100#8, invert := false, bidi := true } :: ops) :=
  rfl

/-- **C21**, the part that holds: every queued packet is transmitted with the configured preamble and
durations.  Missing: idle packets. -/
theorem C21_queued_packets_partial (n : Nat) (cfg : TxConfig) (ops : List TxOp)
    (hno : ∀ c, .init c ∉ ops) (h : TxHist)
    (hr : ({ s := {} } : TxHist).run n (.init cfg :: ops) = .ok h) :
    ∃ (frames : List (Option (List Nat))) (last : Option (List Nat)) (k : Nat),
      h.out = frames.flatMap (Spec.wholeOuts cfg) ++ (Spec.wholeOuts cfg last).take k ∧
      ∀ w, some w ∈ frames ++ [last] → ∃ bs, w = Spec.packetWave cfg bs ∧ bs.length ≤ maxPacketSize := by
  obtain ⟨done, cur, i⟩ := TxInv.reachable_fixed cfg ops hno h hr
  refine ⟨done.map Spec.Segment.frame, cur.frame, cur.outs.length, ?_, ?_⟩
  · rw [i.out_eq, List.flatMap_append, List.flatMap_map]
    congr 1
    · exact flatMap_congr_mem _ _ _ fun g hg =>
        outs_eq_complete (i.done_ok g hg).1 (i.done_ok g hg).2
    · simp only [List.flatMap_cons, List.flatMap_nil, List.append_nil]
      exact outs_eq_take i.cur_ok
  · intro w hw
    have : w ∈ h.acc.map (fun a => Spec.packetWave a.1 a.2) := by
      rw [i.acc_eq]
      apply List.mem_append_left
      rw [show done.map Spec.Segment.frame ++ [cur.frame] = (done ++ [cur]).map Spec.Segment.frame by simp] at hw
      obtain ⟨g, hg, e⟩ := List.mem_map.mp hw
      exact List.mem_filterMap.mpr ⟨g, hg, e⟩
    obtain ⟨a, ha, e⟩ := List.mem_map.mp this
    obtain ⟨hc, hl⟩ := i.acc_ok a ha
    exact ⟨a.2, by rw [← e, hc], hl⟩

/-! ### C22 -/

/-- **C22** In every history at most `n` packets wait; a packet offered while `n` wait changes
nothing; otherwise it is accepted and becomes the last waiting packet, and nothing else changes.
(More than `DCC_MAX_PACKET_SIZE` bytes fail the assertion.) -/
theorem C22_bounded_queue (n : Nat) (ops : List TxOp) (h : TxHist)
    (hr : ({ s := {} } : TxHist).run n ops = .ok h) :
    ∃ done cur waiting, Spec.Describes Spec.ValidConfig h done cur waiting ∧ waiting.length ≤ n ∧
      ∀ bs,
        (waiting.length = n → h.step n (.bytes bs) = .ok h) ∧
        (waiting.length < n → bs.length ≤ maxPacketSize → ∃ h', h.step n (.bytes bs) = .ok h' ∧
          h'.out = h.out ∧ h'.acc = h.acc ++ [(h.s.cfg, bs)] ∧
          Spec.Describes Spec.ValidConfig h' done cur (waiting ++ [Spec.packetWave h.s.cfg bs])) ∧
        (waiting.length < n → maxPacketSize < bs.length →
          h.step n (.bytes bs) = .error .assertion) := by
  obtain ⟨done, cur, i⟩ := TxInv.reachable ops h hr
  refine ⟨done, cur, _, i.describes, by rw [Tx.queue_length]; exact Tx.size_le n h.s, fun bs => ?_⟩
  rw [Tx.queue_length]
  refine ⟨fun hn => ?_, fun hn hl => ?_, fun hn hl => ?_⟩
  · have hf : h.s.full n = true := by simp [Tx.full, hn]
    simp [TxHist.step, Tx.bytes, hf]
  · have hf : h.s.full n = false := by simp only [Tx.full, beq_eq_false_iff_ne]; omega
    have hs : h.step n (.bytes bs) = .ok { h with
        s := h.s.pushBack n (Spec.packetWave h.s.cfg bs), acc := h.acc ++ [(h.s.cfg, bs)] } := by
      simp [TxHist.step, Tx.bytes, hf, hl, bytes2timings_ok]
    refine ⟨_, hs, rfl, rfl, ?_⟩
    have i' := (i.bytes bs _ hs).describes
    have hq := (Tx.pushBack_ok i.ring hf (Spec.packetWave h.s.cfg bs)).2.1
    simp only at i'
    rw [hq] at i'
    exact i'
  · have hf : h.s.full n = false := by simp only [Tx.full, beq_eq_false_iff_ne]; omega
    have : ¬ bs.length ≤ maxPacketSize := by omega
    simp [TxHist.step, Tx.bytes, hf, this]

end Dcc
