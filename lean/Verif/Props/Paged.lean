import Verif.Lemmas.RxPaged
import Verif.Props.DecoderTrack
import Verif.Props.Programming
/-! Sessions on the programming track in register and page mode: C104. -/
namespace Dcc
open Spec

/-- **C104** Reset packets and then requests in register and page mode: each request is performed as often as
its packet was sent, and nothing else happens, as long as the CVs keep an address. -/
theorem C104_session (d : Decoder) (hd : d.service = false) (ew : Bool) (resets : Nat)
    (rs : List RegisterRequest) (hr : ∀ r ∈ rs, r.Legal) (hk : AddressKept d.cvs (rs.map RegisterRequest.direct)) :
    ∃ page, d.executeAll ew (registerSession resets rs) =
      some ({ d with service := true, cvs := (performRegisters d.cvs rs).1, page := page },
        .serviceModeHook true :: (performRegisters d.cvs rs).2.flatten) := by
  have h1 : d.execute ew resetBytes = some ({ d with service := true }, [.serviceModeHook true]) := by
    unfold Decoder.execute
    rw [hd]
    have h2 : hearing d.cvs 0 = true := by simp [hearing]
    have h3 : locoNumber resetBytes = some 0 := rfl
    rw [h3]
    dsimp only
    rw [h2]
    rfl
  have h2 : d.executeAll ew [resetBytes] = some ({ d with service := true }, [.serviceModeHook true]) := by
    show (d.execute ew resetBytes).andThen _ = _
    rw [h1]
    rfl
  have h3 := executeAll_some h2 (executeAll_same (ew := ew) (execute_reset rfl) resets)
  obtain ⟨page, h4⟩ := execute_requests (ew := ew) rs hr { d with service := true } rfl hk
  refine ⟨page, ?_⟩
  have h5 := executeAll_some h3 h4
  unfold registerSession
  rw [List.replicate_succ]
  exact h5

/-- **C104** Compared to direct mode, where each request is performed once: the CVs are the same afterwards,
and the same requests are acknowledged. -/
theorem C104_like_direct (c : BitVec 32 → Byte) (rs : List RegisterRequest) (hr : ∀ r ∈ rs, r.Legal) :
    (performRegisters c rs).1 = (performAll c (rs.map RegisterRequest.direct)).1 ∧
      answers (performRegisters c rs).2 = answers (performAll c (rs.map RegisterRequest.direct)).2 :=
  performRegisters_eq rs hr c

/-- **C104** Page mode reaches CV1 to CV1020. -/
theorem C104_paged (k : Kind) (cv : Nat) (v : Byte) (presets gap times resets : Nat) (hcv : cv < 1020)
    (hp : 1 ≤ presets) (ht : 1 ≤ times) :
    (pagedRequest k cv v presets gap times resets).Legal ∧
      (pagedRequest k cv v presets gap times resets).direct = ⟨k, .byte cv v, 2, 0⟩ := by
  have h1 : (BitVec.ofNat 8 (cv / 4 + 1)).toNat = cv / 4 + 1 := by
    rw [BitVec.toNat_ofNat]; omega
  constructor
  · refine ⟨ht, .inl ⟨by show cv % 4 < 4; omega, hp, fun h => ?_⟩⟩
    have h2 : (BitVec.ofNat 8 (cv / 4 + 1)) = 0#8 := h
    rw [h2] at h1
    simp at h1
  · unfold RegisterRequest.direct pagedRequest registerCv
    dsimp only
    rw [if_pos (by omega), h1]
    have : 4 * (cv / 4 + 1 - 1) + cv % 4 = cv := by omega
    rw [this]
    rfl

/-- **C104** Reading by trying values: exactly the value the CV has is acknowledged, and the CVs do not change. -/
theorem C104_read (c : BitVec 32 → Byte) (hl : locks c = false) (cv : Nat) (vs : List Byte)
    (presets gap times resets : Nat) (hcv : cv < 1020) (hp : 1 ≤ presets) (ht : 1 ≤ times) :
    let rs := vs.map fun v => pagedRequest .verify cv v presets gap times resets
    (performRegisters c rs).1 = c ∧
      answers (performRegisters c rs).2 = vs.map fun v => decide (c (BitVec.ofNat 32 cv) = v) := by
  dsimp only
  have hr : ∀ r ∈ vs.map (fun v => pagedRequest .verify cv v presets gap times resets), r.Legal := by
    intro r hr
    obtain ⟨v, -, rfl⟩ := List.mem_map.mp hr
    exact (C104_paged .verify cv v presets gap times resets hcv hp ht).1
  obtain ⟨h1, h2⟩ := C104_like_direct c _ hr
  rw [h1, h2, List.map_map]
  have : (vs.map (RegisterRequest.direct ∘ fun v => pagedRequest .verify cv v presets gap times resets)) =
      vs.map fun v => ⟨.verify, .byte cv v, 2, 0⟩ := by
    refine List.map_congr_left fun v _ => ?_
    exact (C104_paged .verify cv v presets gap times resets hcv hp ht).2
  rw [this]
  clear this h1 h2 hr
  have hpm : ∀ v, permitted (locks c) .verify (.byte cv v) = true := by intro v; simp [permitted, hl]
  induction vs with
  | nil => exact ⟨rfl, rfl⟩
  | cons v vs ih =>
    have e1 : performed c .verify (.byte cv v) = (c, accessCall c .verify (.byte cv v) ::
        if acknowledged c .verify (.byte cv v) then [.serviceAck] else []) := by
      unfold performed; rw [if_pos (hpm v)]; rfl
    have e2 : performAll c ((v :: vs).map fun v => ⟨.verify, .byte cv v, 2, 0⟩) =
        ((performAll (performed c .verify (.byte cv v)).1 (vs.map fun v => ⟨.verify, .byte cv v, 2, 0⟩)).1,
        (performed c .verify (.byte cv v)).2 ::
          (performAll (performed c .verify (.byte cv v)).1 (vs.map fun v => ⟨.verify, .byte cv v, 2, 0⟩)).2) := rfl
    rw [e2, e1]
    refine ⟨ih.1, ?_⟩
    show decide _ :: answers _ = decide _ :: List.map _ vs
    rw [ih.2]
    congr 1
    refine decide_eq_decide.mpr ?_
    by_cases hv : c (BitVec.ofNat 32 cv) = v <;> simp [acknowledged, accessCall, hv]

/-- **C104** A write is acknowledged and is what is read afterwards, unless the CVs are locked after it.  Locked
CVs must be unlocked by writing CV15. -/
theorem C104_write_read (c : BitVec 32 → Byte) (cv : Nat) (b : Byte) (vs : List Byte)
    (hl : locks c = false ∨ cv = 14) (hl' : locks (applyWrite c (.byte cv b)) = false)
    (presets gap times resets : Nat) (hcv : cv < 1020) (hp : 1 ≤ presets) (ht : 1 ≤ times) :
    let rs := pagedRequest .write cv b presets gap times resets ::
      vs.map fun v => pagedRequest .verify cv v presets gap times resets
    (performRegisters c rs).1 = applyWrite c (.byte cv b) ∧
      answers (performRegisters c rs).2 = true :: vs.map fun v => decide (b = v) := by
  obtain ⟨h1, h2⟩ := C104_paged .write cv b presets gap times resets hcv hp ht
  have hpm : permitted (locks c) .write (.byte cv b) = true := by
    rcases hl with hl | rfl
    · simp [permitted, hl]
    · simp [permitted, Access.cv]
  have hw : performed c .write (.byte cv b) =
      (applyWrite c (.byte cv b), [accessCall c .write (.byte cv b), .serviceAck]) := by
    unfold performed
    rw [if_pos hpm]
    rfl
  obtain ⟨n, hn⟩ : ∃ n, times = n + 1 := ⟨times - 1, by omega⟩
  have hc : (performedTimes c .write (.byte cv b) times).1 = applyWrite c (.byte cv b) := by
    rw [hn, performedTimes_cvs, hw]
  have hack : .serviceAck ∈ (performedTimes c .write (.byte cv b) times).2 := by
    rw [hn, performedTimes_ack, hw]; simp
  obtain ⟨g1, g2⟩ := C104_read (applyWrite c (.byte cv b)) hl' cv vs presets gap times resets hcv hp ht
  dsimp only
  rw [performRegisters, h2]
  dsimp only
  have ht : (pagedRequest .write cv b presets gap times resets).times = times := rfl
  rw [ht, hc]
  refine ⟨g1, ?_⟩
  show decide _ :: answers _ = _
  rw [g2, decide_eq_true hack]
  simp [applyWrite]

/-- **C104** Over the track: a command station accepts the packets of a session and others, a decoder with a
main loop gets the times of the signal.  If the packets executed are idle packets and then those of the
session, the CVs and the calls are those of the requests. -/
theorem C104_track (n : Nat) (cfg : TxConfig) (txOps : List TxOp) (h : TxHist)
    (ht : ({ s := {} } : TxHist).run n (.init cfg :: txOps) = .ok h)
    (hinv : ∀ c, .init c ∈ txOps → c.invert = cfg.invert)
    (hv : ∀ a ∈ h.acc, ValidPacket a.2 ∧ isLogon a.2 = false)
    (e : Env) (hroom : 2 ≤ e.rxDeque) (m : BitVec 32 → Byte) (hm : Memory e m) (s : Rx) (hr : Reachable e s)
    (hs : Settled m s) (hsv : s.serviceMode = false) (hdq : s.deque = []) (hw : s.link.state = .preamble)
    (hb : s.link.bitCount ≤ 18) (htp : s.tosTp ≤ s.lastPacketTp) (xs : List (Nat × Nat × Int × Nat))
    (hc : ClockForward s.lastPacketTp (polled xs)) (off : Option Bool) (seen : Bool) (before : List Nat)
    (htimes : Measured (crossings off seen before h.out) (xs.map (·.1))) :
    ∃ (sent : List (Option Packet)) (unsent done waiting : List Packet),
      h.acc.map (·.2) = sent.filterMap id ++ unsent ∧
      (unsent.length = h.s.size n ∨ unsent.length = h.s.size n + 1 ∧ h.s.bidiCount = 0) ∧
      sent.map (·.getD idleBytes) = done ++ waiting ∧
      ∀ idles resets rs, done = List.replicate idles idleBytes ++ registerSession resets rs →
        (∀ r ∈ rs, r.Legal) → AddressKept (mem m s.trace) (rs.map RegisterRequest.direct) →
        ∃ s', s.run e (polled xs) = .ok s' ∧ waiting.length ≤ (if s'.packetEnd then 1 else 0) ∧
          s'.serviceMode = true ∧ mem m s'.trace = (performRegisters (mem m s.trace) rs).1 ∧
          sessionCalls s s' = .serviceModeHook true :: (performRegisters (mem m s.trace) rs).2.flatten := by
  obtain ⟨d, hd⟩ := C101_exists hr m
  obtain ⟨sent, unsent, done, waiting, h1, h2, h3, h4⟩ := C102_main_loop n cfg txOps h ht hinv hv e hroom m hm s hr hs d
    hd hdq hw hb htp xs hc off seen before htimes
  refine ⟨sent, unsent, done, waiting, h1, h2, h3, ?_⟩
  rintro idles resets rs rfl hl hk
  rw [hd.cvs] at hk
  have hi : d.execute e.eastWest idleBytes = some (d, []) := by
    unfold Decoder.execute
    rw [← hd.service, hsv]
    rfl
  obtain ⟨page, h5⟩ := C104_session d (hd.service ▸ hsv) e.eastWest resets rs hl hk
  rw [executeAll_some (executeAll_same hi idles) h5] at h4
  obtain ⟨s', g1, g2, g3, g4⟩ := h4
  refine ⟨s', g1, g2, g3.service, ?_, ?_⟩
  · rw [hd.cvs]; exact g3.cvs
  · rw [hd.cvs]; exact g4

/-- A decoder on the programming track: after a reset packet page 3 is chosen twice, register 1 (CV10) is
written twice, and its value is verified: the decoder acknowledges all of these but choosing the page. -/
def pagedExample : List RegisterRequest :=
  [pagedRequest .write 9 7#8 2 1 2 1, pagedRequest .verify 9 6#8 1 1 1 1, pagedRequest .verify 9 7#8 1 1 1 1]

example : (∀ r ∈ pagedExample, r.Legal) ∧ HasAddress exampleCvs ∧
    AddressKept exampleCvs (pagedExample.map RegisterRequest.direct) ∧ (Decoder.new exampleCvs).service = false ∧
    locks exampleCvs = false ∧ locks (applyWrite exampleCvs (.byte 9 7#8)) = false ∧
    (performRegisters exampleCvs pagedExample).2.flatten =
      [.writeCvByte 9#32 7#8 7#8, .serviceAck, .writeCvByte 9#32 7#8 7#8, .serviceAck,
        .readCvByte 9#32 6#8 7#8, .readCvByte 9#32 7#8 7#8, .serviceAck] := by
  refine ⟨by decide, by decide, ⟨by decide, by decide, by decide, trivial⟩, rfl, by decide, by decide, by decide⟩

/-- The hypotheses about the track are met. -/
example : (match ({ s := {} } : TxHist).run 4 (stationOf (registerSession 0 [pagedRequest .write 9 7#8 1 0 1 0]) 420),
      ({} : Rx).run exampleEnv [.init] with
    | .ok h, .ok s =>
      let ts := shaky (exactTimes none true [] h.out)
      decide (h.acc.map (·.2) = registerSession 0 [pagedRequest .write 9 7#8 1 0 1 0] ∧ (∀ a ∈ h.acc, isLogon a.2 = false) ∧
        s.serviceMode = false ∧ s.deque = [] ∧ s.link.state = .preamble ∧ s.link.bitCount ≤ 18 ∧
        s.tosTp ≤ s.lastPacketTp ∧ Measured (crossings none true [] h.out) ts) &&
      holdsAfter (s.run exampleEnv (polled (ts.map (·, 0, 0, 0)))) (fun s' => decide (sessionCalls s s' =
        .serviceModeHook true :: (performRegisters exampleCvs [pagedRequest .write 9 7#8 1 0 1 0]).2.flatten))
    | _, _ => false) = true := by decide +kernel

/-! ### C104: what is missing -/

/-- **C104** Writing a register is acknowledged, unless it is the page register or the CVs are locked. -/
theorem C104_acknowledged (d : Decoder) (hd : d.service = true) (hl : locks d.cvs = false) (ew : Bool) (reg : Nat)
    (hreg : reg < 8) (h5 : reg ≠ 5) (v : Byte) (d' : Decoder) (calls : List Event)
    (h : d.execute ew (registerBytes true reg v) = some (d', calls)) : .serviceAck ∈ calls := by
  rw [serve_register _ _ _ hreg _ _ hd] at h
  have key : ∀ cv, d.access .write (.byte cv v) = some (d', calls) → .serviceAck ∈ calls := by
    intro cv h
    unfold Decoder.access at h
    rw [if_pos (by simp [permitted, hl])] at h
    split at h
    · cases h
    · cases h; simp [hd, acknowledged]
  unfold Decoder.register at h
  dsimp only at h
  rw [if_pos rfl] at h
  split at h
  · exact key _ h
  · split at h
    · exact key _ h
    · exact key _ h

/-- **C104** Writing the page register is never acknowledged. -/
theorem C104_page_unacknowledged_false (d : Decoder) (hd : d.service = true) (ew : Bool) (v : Byte) :
    d.execute ew (registerBytes true 5 v) = some ({ d with page := v }, []) := by
  rw [serve_register _ _ _ (by omega) _ _ hd]
  rfl

/-- **C104** Page register 0, which is the page of CV1021 to CV1024, is none of a decoder with 1024 CVs: a write
goes to a CV that does not exist. -/
theorem C104_last_page_false (d : Decoder) (hd : d.service = true) (hl : locks d.cvs = false) (ew : Bool) (v : Byte) :
    d.executeAll ew [registerBytes true 5 0#8, registerBytes true 3 v] =
      some ({ d with page := 0#8, cvs := applyWrite d.cvs (.byte 4294967295 v) },
        [.writeCvByte 4294967295#32 v v, .serviceAck]) := by
  have h1 : d.executeAll ew [registerBytes true 5 0#8] = some ({ d with page := 0#8 }, []) := by
    show (d.execute ew _).andThen _ = _
    rw [C104_page_unacknowledged_false d hd]
    rfl
  have h2 : ({ d with page := 0#8 } : Decoder).executeAll ew [registerBytes true 3 v] =
      some ({ d with page := 0#8, cvs := applyWrite d.cvs (.byte 4294967295 v) },
        [.writeCvByte 4294967295#32 v v, .serviceAck]) := by
    show (Decoder.execute _ ew _).andThen _ = _
    rw [serve_register { d with page := 0#8 } _ _ (by omega) _ _ hd]
    have h3 : ({ d with page := 0#8 } : Decoder).register true 3 v = some
        ({ d with page := 0#8, cvs := applyWrite d.cvs (.byte 4294967295 v) },
          [.writeCvByte 4294967295#32 v v, .serviceAck]) := by
      have h4 : pageCv 0#8 3 = 4294967295 := by decide
      have h5 : ({ d with page := 0#8 } : Decoder).register true 3 v =
        ({ d with page := 0#8 } : Decoder).access .write (.byte (pageCv 0#8 3) v) := rfl
      rw [h5, h4]
      unfold Decoder.access
      rw [if_pos (by simp [permitted, hl]), if_neg (by simp [Access.cv, initCvs])]
      simp [hd, acknowledged, accessCall, stored]
    rw [h3]
    rfl
  exact executeAll_some h1 h2

/-- A reset packet to all on the main, and then a command for locomotive 124: run forward at step 3 of 28. -/
def strayCommands : List TxOp := stationOf [resetBytes, [124#8, 0x63#8, 0x1F#8]] 300

/-- **C104** A reset packet to all on the main is the beginning of a session too: a speed command for
locomotive 124 after it is a register mode packet for all others.  Locomotive 3 writes the speed to its CV29,
which then says that it has a long address, and does not listen to address 3 any longer. -/
theorem C104_main_false : ∃ (h : TxHist) (s s' : Rx), ({ s := {} } : TxHist).run 4 strayCommands = .ok h ∧
    ({} : Rx).run exampleEnv [.init] = .ok s ∧ s.addrs.primary.type = .short ∧ s.addrs.primary.value = 3#16 ∧
    s.run exampleEnv (polled (h.out.map fun o => (o.duration, 0, 0, 0))) = .ok s' ∧
    sessionCalls s s' = [.serviceModeHook true, .writeCvByte 28#32 0x63#8 0x63#8, .serviceAck] ∧
    s'.addrs.primary.value = 0#16 := by
  have key : (match ({ s := {} } : TxHist).run 4 strayCommands, ({} : Rx).run exampleEnv [.init] with
      | .ok h, .ok s => match s.run exampleEnv (polled (h.out.map fun o => (o.duration, 0, 0, 0))) with
        | .ok s' => decide (s.addrs.primary.type = .short ∧ s.addrs.primary.value = 3#16 ∧ sessionCalls s s' =
            [.serviceModeHook true, .writeCvByte 28#32 0x63#8 0x63#8, .serviceAck] ∧
            s'.addrs.primary.value = 0#16)
        | .error _ => false
      | _, _ => false) = true := by decide +kernel
  cases h1 : ({ s := {} } : TxHist).run 4 strayCommands with
  | error f => rw [h1] at key; cases key
  | ok h =>
    cases h2 : ({} : Rx).run exampleEnv [.init] with
    | error f => rw [h1, h2] at key; cases key
    | ok s =>
      rw [h1, h2] at key
      dsimp only at key
      cases h3 : s.run exampleEnv (polled (h.out.map fun o => (o.duration, 0, 0, 0))) with
      | error f => rw [h3] at key; cases key
      | ok s' =>
        rw [h3] at key
        obtain ⟨h4, h5, h6, h7⟩ := of_decide_eq_true key
        exact ⟨h, s, s', rfl, rfl, h4, h5, h3, h6, h7⟩

end Dcc
