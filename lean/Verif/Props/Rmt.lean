import Verif.Lemmas.RmtSend
/-! C57 and C58: the encoder for the RMT peripheral. -/
namespace Dcc.Rmt
open Dcc.Spec
open scoped List

/-! ### C58 -/

theorem accepted_documented (c : Config) : c.accepted = true ↔ c.Documented := by
  have e0 : ∀ b : Byte, b = 0#8 ↔ b.toNat = 0 := by decide +kernel
  simp only [Config.accepted, Bool.and_eq_true, Bool.or_eq_true, decide_eq_true_eq, BitVec.le_def, e0]
  constructor
  · rintro ⟨⟨⟨⟨⟨⟨⟨h1, h2⟩, h3⟩, h4⟩, h5⟩, h6⟩, h7⟩, h8⟩
    exact ⟨⟨h1, h2⟩, h3, ⟨h4, h5⟩, ⟨h6, h7⟩, h8⟩
  · rintro ⟨⟨h1, h2⟩, h3, ⟨h4, h5⟩, ⟨h6, h7⟩, h8⟩
    exact ⟨⟨⟨⟨⟨⟨⟨h1, h2⟩, h3⟩, h4⟩, h5⟩, h6⟩, h7⟩, h8⟩

/-- **C58** An encoder is created exactly if there is a configuration in the documented ranges, a place
for the handle, and memory; otherwise the error says why, `ESP_ERR_INVALID_ARG` taking precedence over
`ESP_ERR_NO_MEM`. -/
theorem C58_accepts (config : Option Config) (ret calloc : Bool) (newCopy newBytes : Option Nat) :
    ((newEncoder config ret calloc newCopy newBytes).1 = .error .invalidArg ↔
      ret = false ∨ ∀ c, config = some c → ¬ c.Documented) ∧
    ((newEncoder config ret calloc newCopy newBytes).1 = .error .noMem ↔
      ret = true ∧ calloc = false ∧ ∃ c, config = some c ∧ c.Documented) ∧
    ((∃ e, (newEncoder config ret calloc newCopy newBytes).1 = .ok e) ↔
      ret = true ∧ calloc = true ∧ newCopy = none ∧ newBytes = none ∧
        ∃ c, config = some c ∧ c.Documented) := by
  cases config with
  | none => simp [newEncoder]
  | some c =>
    have h := accepted_documented c
    simp only [Option.some.injEq, forall_eq', exists_eq_left', ← h]
    unfold newEncoder
    cases ret <;> cases calloc <;> cases newCopy <;> cases newBytes <;> cases ha : c.accepted <;>
      simp [ha]

/-- **C58** On failure everything allocated has been freed, and on success all of it is freed by the
deletion of the encoder. -/
theorem C58_no_leak (config : Option Config) (ret calloc : Bool) (newCopy newBytes : Option Nat) :
    let r := newEncoder config ret calloc newCopy newBytes
    ((∃ x, r.1 = .error x) → Balanced r.2) ∧ ((∃ e, r.1 = .ok e) → Balanced (r.2 ++ del)) := by
  cases config with
  | none => exact ⟨fun _ => ⟨rfl, rfl, rfl⟩, fun ⟨e, h⟩ => by cases h⟩
  | some c =>
    unfold newEncoder
    dsimp only
    cases (ret && c.accepted) with
    | false => exact ⟨fun _ => ⟨rfl, rfl, rfl⟩, fun ⟨e, h⟩ => by cases h⟩
    | true =>
      cases calloc with
      | false => exact ⟨fun _ => ⟨rfl, rfl, rfl⟩, fun ⟨e, h⟩ => by cases h⟩
      | true =>
        cases newCopy with
        | some x => exact ⟨fun _ => by simp [Balanced, List.count], fun ⟨e, h⟩ => by simp at h⟩
        | none =>
          cases newBytes with
          | some x => exact ⟨fun _ => by simp [Balanced, List.count], fun ⟨e, h⟩ => by simp at h⟩
          | none => exact ⟨fun ⟨e, h⟩ => by simp at h, fun _ => by simp [Balanced, List.count, del]⟩

/-! ### C57 -/

theorem documented_pos {c : Config} (hc : c.Documented) : 0 < c.encoder.numPreamble := by
  have := hc.preamble.1
  show 0 < c.numPreamble.toNat
  omega

theorem ready_valid (c : Config) (first : Bool) (data : List Byte) :
    c.encoder.Valid data (if first then .zimo0 else .bidi) 0 := by
  cases first
  · exact ⟨by decide, fun _ => rfl⟩
  · rfl

theorem slots_head (c : Config) (hc : c.Documented) (first : Bool) (data : List Byte) (x : Slot)
    (h : (c.slots first data)[0]? = some x) : x.start = false := by
  have hne : c.header first ≠ [] := by
    intro h
    have h1 := congrArg List.length h
    have h2 := hc.preamble.1
    simp only [Config.header, List.length_append, List.length_replicate, List.length_nil] at h1
    omega
  rw [Config.slots.eq_def] at h
  obtain ⟨a, as, ha⟩ := List.exists_cons_of_ne_nil hne
  rw [ha] at h
  cases h
  rfl

theorem ready_send {c : Config} (hc : c.Documented) (first : Bool) (data : List Byte) (hd : data ≠ [])
    (sizes : List Nat) :
    let r := chunked (c.slots first data) sizes
    ∃ e', send data sizes (c.ready first) = .ok ⟨e', r.1.map Slot.symbol, r.1.length, r.2.1, r.2.2⟩ ∧
      (r.2.1 = true → e' = c.ready false) ∧ e'.reset = c.encoder := by
  obtain ⟨st, k, h1, h2, h3⟩ := send_spec c.encoder data rfl rfl hd (documented_pos hc) sizes
    (if first then .zimo0 else .bidi) 0 (ready_valid c first data)
  rw [pending_slots c first data hd] at h2 h3
  refine ⟨_, h3, fun h => ?_, rfl⟩
  obtain ⟨rfl, rfl⟩ := h2 h
  rfl

theorem sendAll_ready {c : Config} (hc : c.Documented) : ∀ (ps : List (List Byte × List Nat)) (first : Bool)
    (e : Encoder) (rs : List Sent), (∀ p ∈ ps, p.1 ≠ []) → sendAll ps (c.ready first) = .ok (e, rs) →
    (∀ r ∈ rs, r.complete = true) → e = c.ready (first && ps.isEmpty)
  | [], first, e, rs, _, h, _ => by
    cases h
    simp
  | (data, sizes) :: ps, first, e, rs, hd, h, hr => by
    obtain ⟨e1, h1, h2, -⟩ := ready_send hc first data (hd _ (List.mem_cons_self ..)) sizes
    rw [sendAll, h1, ok_bind, bind_eq_ok] at h
    obtain ⟨⟨e2, rs'⟩, h3, h4⟩ := h
    cases h4
    have hc1 := hr _ (List.mem_cons_self ..)
    rw [h2 hc1] at h3
    have := sendAll_ready hc ps false e rs' (fun p hp => hd p (List.mem_cons_of_mem _ hp)) h3
      (fun r h => hr r (List.mem_cons_of_mem _ h))
    simpa using this

/-- **C57** (exact) After any packets sent completely by a new encoder, the next packet is written as
`chunked` says: all symbols that fit into the memory of each session, but without the start bits of
bytes that would come first in a session.  No call reads out of bounds.  The number of symbols returned
to the driver is the number of symbols written.  Whether the packet has been completed or not, `reset`
brings the encoder back to the state it was created in. -/
theorem C57_exact (c : Config) (hc : c.Documented) (before : List (List Byte × List Nat))
    (hb : ∀ p ∈ before, p.1 ≠ []) (e : Encoder) (rs : List Sent)
    (h : sendAll before c.encoder = .ok (e, rs)) (hcomplete : ∀ r ∈ rs, r.complete = true)
    (data : List Byte) (hd : data ≠ []) (sizes : List Nat) :
    let r := chunked (c.slots before.isEmpty data) sizes
    ∃ e', send data sizes e = .ok ⟨e', r.1.map Slot.symbol, r.1.length, r.2.1, r.2.2⟩ ∧
      e'.reset = c.encoder := by
  have he := sendAll_ready hc before true e rs hb h hcomplete
  rw [Bool.true_and] at he
  obtain ⟨e', h1, -, h3⟩ := ready_send hc before.isEmpty data hd sizes
  exact ⟨e', by rw [he]; exact h1, h3⟩

/-- **C57** (partial) A packet is written as it should be exactly if no session ends directly behind a
byte that is not the last one, whatever else the memory sizes of the sessions are. -/
theorem C57_chunking_partial (c : Config) (hc : c.Documented) (before : List (List Byte × List Nat))
    (hb : ∀ p ∈ before, p.1 ≠ []) (e : Encoder) (rs : List Sent)
    (h : sendAll before c.encoder = .ok (e, rs)) (hcomplete : ∀ r ∈ rs, r.complete = true)
    (data : List Byte) (hd : data ≠ []) (sizes : List Nat)
    (hs : (c.packet before.isEmpty data).length ≤ sizes.sum) :
    (∃ r, send data sizes e = .ok r ∧ r.complete = true ∧ r.symbols = c.packet before.isEmpty data ∧
      r.count = r.symbols.length) ↔ ¬ EndsBehindByte c before.isEmpty data sizes := by
  obtain ⟨e', h1, -⟩ := C57_exact c hc before hb e rs h hcomplete data hd sizes
  have hlen : (c.slots before.isEmpty data).length = (c.packet before.isEmpty data).length := by
    rw [← slots_symbols, List.length_map]
  rw [h1, ← hits_iff c before.isEmpty data hd]
  constructor
  · rintro ⟨r, hr, -, hsym, -⟩ hh
    cases hr
    have h2 := chunked_hit sizes _ (slots_head c hc before.isEmpty data) hh
    have h3 := congrArg List.length hsym
    rw [List.length_map] at h3
    omega
  · intro hh
    have hne : c.slots before.isEmpty data ≠ [] := by simp [Config.slots]
    obtain ⟨h2, h3⟩ := chunked_miss sizes _ hh (by omega) hne
    exact ⟨_, rfl, h3, by rw [← slots_symbols, ← h2]; simp [h2], by simp⟩

theorem chunked_sublist : ∀ (sizes : List Nat) (P : List Slot), (chunked P sizes).1 <+ P
  | [], P => List.nil_sublist _
  | f :: fs, P => by
    rw [chunked]
    split
    · exact List.Sublist.refl _
    · have h1 := chunked_sublist fs (skipStart (P.drop f))
      have h2 : skipStart (P.drop f) <+ P.drop f := by
        cases P.drop f with
        | nil => exact List.Sublist.refl _
        | cons x xs =>
          rw [skipStart]
          split
          · exact List.sublist_cons_self ..
          · exact List.Sublist.refl _
      have h3 := List.Sublist.append (List.Sublist.refl (P.take f)) (h1.trans h2)
      rwa [List.take_append_drop] at h3

theorem chunked_others : ∀ (sizes : List Nat) (P : List Slot), (chunked P sizes).2.1 = true →
    (chunked P sizes).1.filter (!·.start) = P.filter (!·.start)
  | [], P, h => by cases h
  | f :: fs, P, h => by
    rw [chunked] at h ⊢
    split
    · rfl
    · rename_i hl
      rw [if_neg hl] at h
      have h1 := chunked_others fs _ h
      have h2 : (skipStart (P.drop f)).filter (!·.start) = (P.drop f).filter (!·.start) := by
        cases P.drop f with
        | nil => rfl
        | cons x xs =>
          rw [skipStart]
          by_cases hx : x.start = true
          · rw [if_pos hx, List.filter_cons, if_neg (by simp [hx])]
          · rw [if_neg hx]
      dsimp only
      rw [List.filter_append, h1, h2, ← List.filter_append, List.take_append_drop]

/-- **C57** (partial) Nothing but start bits of bytes other than the first one is ever lost, and nothing
is added, repeated or reordered. -/
theorem C57_others_partial (c : Config) (hc : c.Documented) (before : List (List Byte × List Nat))
    (hb : ∀ p ∈ before, p.1 ≠ []) (e : Encoder) (rs : List Sent)
    (h : sendAll before c.encoder = .ok (e, rs)) (hcomplete : ∀ r ∈ rs, r.complete = true)
    (data : List Byte) (hd : data ≠ []) (sizes : List Nat) (r : Sent) (hr : send data sizes e = .ok r) :
    ∃ out : List Slot, r.symbols = out.map Slot.symbol ∧ out <+ c.slots before.isEmpty data ∧
      (r.complete = true → out.filter (!·.start) = (c.slots before.isEmpty data).filter (!·.start)) := by
  obtain ⟨e', h1, -⟩ := C57_exact c hc before hb e rs h hcomplete data hd sizes
  rw [h1] at hr
  cases hr
  exact ⟨_, rfl, chunked_sublist .., chunked_others _ _⟩

/-- **C57** (partial) Enough memory for the whole packet at once is always fine. -/
theorem C57_single_session_partial (c : Config) (hc : c.Documented) (before : List (List Byte × List Nat))
    (hb : ∀ p ∈ before, p.1 ≠ []) (e : Encoder) (rs : List Sent)
    (h : sendAll before c.encoder = .ok (e, rs)) (hcomplete : ∀ r ∈ rs, r.complete = true)
    (data : List Byte) (hd : data ≠ []) (size : Nat)
    (hs : (c.packet before.isEmpty data).length ≤ size) :
    ∃ r, send data [size] e = .ok r ∧ r.complete = true ∧ r.symbols = c.packet before.isEmpty data := by
  have hiff := C57_chunking_partial c hc before hb e rs h hcomplete data hd [size] (by simpa using hs)
  have hno : ¬ EndsBehindByte c before.isEmpty data [size] := by
    rintro ⟨pre, k, h1, h2, h3, h4⟩
    have hl : (c.packet before.isEmpty data).length =
        (c.header before.isEmpty).length + 9 * data.length + 1 := by
      simp only [Config.packet, List.length_append, List.length_flatMap, List.length_cons, List.length_map,
        List.length_nil, byteBits]
      have : ∀ l : List Byte, (l.map fun _ => 0 + 1 + 1 + 1 + 1 + 1 + 1 + 1 + 1 + 1).sum = 9 * l.length := by
        intro l
        induction l with
        | nil => rfl
        | cons a l ih => rw [List.map_cons, List.sum_cons, ih, List.length_cons]; omega
      rw [this]
    obtain ⟨suf, h5⟩ := h1
    have h6 := congrArg List.sum h5
    simp only [List.sum_append, List.sum_cons, List.sum_nil] at h6
    cases pre with
    | nil =>
      have := hc.preamble.1
      simp only [List.sum_nil] at h4
      omega
    | cons a pre =>
      have h7 := congrArg List.length h5
      simp at h7
      obtain ⟨rfl, rfl⟩ := h7
      simp at h6 h4
      omega
  obtain ⟨r, h1, h2, h3, -⟩ := hiff.mpr hno
  exact ⟨r, h1, h2, h3⟩

/-- A packet of six bytes. -/
def sixBytes : List Byte := [0xC4#8, 0xD2#8, 0xEC#8, 0x00#8, 0x05#8, 0xFF#8]

/-- **C57** is false: with 19 preamble bits the first five bytes just fill the 64 symbols of the memory of
an ESP32, and the start bit of the sixth byte is lost. -/
theorem C57_chunking_false : ¬ ∀ (c : Config) (_ : c.Documented) (data : List Byte) (_ : data ≠ [])
    (sizes : List Nat) (r : Sent), send data sizes c.encoder = .ok r → r.complete = true →
    r.symbols = c.packet true data := by
  intro h
  have h1 := h { numPreamble := 19#8 } ((accepted_documented _).mp (by decide)) sixBytes (by decide) [64, 32] _ rfl rfl
  revert h1
  decide +kernel

/-- **C57** is false for a packet without bytes: the first byte is read nevertheless. -/
theorem C57_no_data_false : ¬ ∀ (c : Config) (_ : c.Documented) (sizes : List Nat),
    send [] sizes c.encoder ≠ .error .oob := by
  intro h
  exact h {} ((accepted_documented _).mp (by decide)) [64] (by decide +kernel)

/-! ### C58, continued -/

/-- **C58** (partial) All symbols written for a packet begin with the configured level and then have the
opposite one; and their halves are both those of a one, of a zero or of a cutout bit within tolerance,
except for the end bit, whose second half only is no longer than that of a one. -/
theorem C58_symbols_partial (c : Config) (hc : c.Documented) (before : List (List Byte × List Nat))
    (hb : ∀ p ∈ before, p.1 ≠ []) (e : Encoder) (rs : List Sent)
    (h : sendAll before c.encoder = .ok (e, rs)) (hcomplete : ∀ r ∈ rs, r.complete = true)
    (data : List Byte) (hd : data ≠ []) (sizes : List Nat) (r : Sent) (hr : send data sizes e = .ok r) :
    ∀ s ∈ r.symbols, s.level0 = c.level0 ∧ s.level1 = !c.level0 ∧
      ((s.duration0 = s.duration1 ∧ ((56 ≤ s.duration0.toNat ∧ s.duration0.toNat ≤ 60) ∨
          (97 ≤ s.duration0.toNat ∧ s.duration0.toNat ≤ 114) ∨
          (57 ≤ s.duration0.toNat ∧ s.duration0.toNat ≤ 61))) ∨
        (s = c.lastBit ∧ 56 ≤ s.duration0.toNat ∧ s.duration0.toNat ≤ 60 ∧
          0 < s.duration1.toNat ∧ s.duration1.toNat ≤ 60)) := by
  obtain ⟨out, h1, h2, -⟩ := C57_others_partial c hc before hb e rs h hcomplete data hd sizes r hr
  intro s hs
  have hmem : s ∈ c.packet before.isEmpty data := by
    rw [← slots_symbols]
    rw [h1] at hs
    exact (h2.map _).mem hs
  have htn : ∀ n, n ≤ 255 → (BitVec.ofNat 15 n).toNat = n := by
    intro n hn
    rw [BitVec.toNat_ofNat]
    exact Nat.mod_eq_of_lt (by omega)
  have hbit : ∀ b, (c.bit b).level0 = c.level0 ∧ (c.bit b).level1 = (!c.level0) ∧
      (c.bit b).duration0 = (c.bit b).duration1 ∧ ((56 ≤ (c.bit b).duration0.toNat ∧ (c.bit b).duration0.toNat ≤ 60) ∨
          (97 ≤ (c.bit b).duration0.toNat ∧ (c.bit b).duration0.toNat ≤ 114)) := by
    intro b
    have h1 := hc.bit1
    have h0 := hc.bit0
    cases b
    · refine ⟨rfl, rfl, rfl, .inr ?_⟩
      show 97 ≤ (BitVec.ofNat 15 c.bit0Duration.toNat).toNat ∧ (BitVec.ofNat 15 c.bit0Duration.toNat).toNat ≤ 114
      rw [htn _ (by omega)]
      exact h0
    · refine ⟨rfl, rfl, rfl, .inl ?_⟩
      show 56 ≤ (BitVec.ofNat 15 c.bit1Duration.toNat).toNat ∧ (BitVec.ofNat 15 c.bit1Duration.toNat).toNat ≤ 60
      rw [htn _ (by omega)]
      exact h1
  have ofBit : (∃ b, s = c.bit b) → s.level0 = c.level0 ∧ s.level1 = !c.level0 ∧
      ((s.duration0 = s.duration1 ∧ ((56 ≤ s.duration0.toNat ∧ s.duration0.toNat ≤ 60) ∨
          (97 ≤ s.duration0.toNat ∧ s.duration0.toNat ≤ 114) ∨
          (57 ≤ s.duration0.toNat ∧ s.duration0.toNat ≤ 61))) ∨
        (s = c.lastBit ∧ 56 ≤ s.duration0.toNat ∧ s.duration0.toNat ≤ 60 ∧
          0 < s.duration1.toNat ∧ s.duration1.toNat ≤ 60)) := by
    rintro ⟨b, rfl⟩
    obtain ⟨h1, h2, h3, h4⟩ := hbit b
    exact ⟨h1, h2, .inl ⟨h3, h4.elim .inl fun h => .inr (.inl h)⟩⟩
  simp only [Config.packet, Config.header, List.mem_append, List.mem_flatMap, List.mem_cons, List.mem_map,
    List.mem_replicate, List.not_mem_nil, or_false] at hmem
  rcases hmem with (((hm | hm) | hm) | ⟨b, -, hm | ⟨x, -, hm⟩⟩) | rfl
  · rw [Config.cutout] at hm
    split at hm
    · cases hm
    · rename_i hn
      have := List.eq_of_mem_replicate hm
      subst this
      have hbd := hc.bidi
      have hn0 : c.bidibitDuration.toNat ≠ 0 := fun h0 => hn (.inr (BitVec.eq_of_toNat_eq h0))
      refine ⟨rfl, rfl, .inl ⟨rfl, .inr (.inr ?_)⟩⟩
      show 57 ≤ (BitVec.ofNat 15 c.bidibitDuration.toNat).toNat ∧ (BitVec.ofNat 15 c.bidibitDuration.toNat).toNat ≤ 61
      rw [htn _ (by omega)]
      omega
  · split at hm
    · exact ofBit ⟨false, by simpa using hm⟩
    · cases hm
  · exact ofBit ⟨true, hm.2⟩
  · exact ofBit ⟨false, hm⟩
  · exact ofBit ⟨x, hm.symm⟩
  · have h1 := hc.bit1
    have h2 := hc.endbit
    refine ⟨rfl, rfl, .inr ⟨rfl, ?_, ?_, ?_⟩⟩
    · show 56 ≤ (BitVec.ofNat 15 c.bit1Duration.toNat).toNat
      rw [htn _ (by omega)]; exact h1.1
    · show (BitVec.ofNat 15 c.bit1Duration.toNat).toNat ≤ 60
      rw [htn _ (by omega)]; exact h1.2
    · show 0 < (BitVec.ofNat 15 _).toNat ∧ (BitVec.ofNat 15 _).toNat ≤ 60
      split
      · rw [htn _ (by omega)]; omega
      · rename_i hz
        have : c.endbitDuration.toNat ≠ 0 := fun h0 => hz (BitVec.eq_of_toNat_eq h0)
        rw [htn _ (by omega)]; omega

set_option maxRecDepth 4000 in
/-- **C58** is false for the end bit: a second half as short as 1 us is accepted. -/
theorem C58_end_bit_false : ¬ ∀ (c : Config) (_ : c.Documented) (data : List Byte) (_ : data ≠ [])
    (sizes : List Nat) (r : Sent), send data sizes c.encoder = .ok r → r.complete = true →
    ∀ s ∈ r.symbols, 56 ≤ s.duration1.toNat := by
  intro h
  have h1 := h { endbitDuration := 1#8 } ((accepted_documented _).mp (by decide)) [0#8] (by decide) [30] _ rfl rfl
  revert h1
  decide +kernel

/-- The hypotheses are met: a second packet with cutout and ZIMO 0 in sessions of 48 and then 24 symbols. -/
example : let c : Config := { bidibitDuration := 58#8, zimo0 := true }
    c.Documented ∧ (∃ e rs, sendAll [(sixBytes, [48, 24, 24])] c.encoder = .ok (e, rs) ∧
      (∀ r ∈ rs, r.complete = true) ∧
      ∃ r, send sixBytes [48, 24, 24] e = .ok r ∧ r.complete = true ∧ r.symbols = c.packet false sixBytes) := by
  refine ⟨(accepted_documented _).mp (by decide), _, _, rfl, by decide +kernel, _, rfl, ?_, ?_⟩ <;> decide +kernel

end Dcc.Rmt
