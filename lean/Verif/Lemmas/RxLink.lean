import Verif.Lemmas.RxLogonFrame
import Verif.Lemmas.Tx
import Verif.Spec.Rx
import Verif.Lemmas.Checksum
/-! The part of `receive` that assembles packets, on its own. -/
namespace Dcc

/-- What a half bit leads to besides a change of the assembly state. -/
inductive LinkOut where
  | start
  | packet (p : Packet)
  | bad
  deriving DecidableEq, Repr

/-- The effect of a bit on the assembly state. -/
def Link.bit (l : Link) (bit : Bool) : R (Link × Option LinkOut) :=
  match l.state with
  | .preamble =>
    if bit then .ok ({ l with bitCount := l.bitCount + 1 }, none)
    else if l.bitCount < 10 * 2 then .ok (l.reset, none)
    else .ok ({ l with state := .startbit }, none)
  | .startbit =>
    .ok ({ l with packet := [], bitCount := 0, isHalfbit := false, state := .data }, some .start)
  | .data =>
    let byte := (l.byte <<< 1) ||| (if bit then 1#8 else 0#8)
    if l.bitCount + 1 < 8 then .ok ({ l with byte := byte, bitCount := l.bitCount + 1 }, none)
    else if l.packet.length < maxPacketSize then
      .ok ({ l with packet := l.packet ++ [byte], checksum := l.checksum ^^^ byte, bitCount := 0,
                    byte := 0#8, state := .endbit }, none)
    else .error .overflow
  | .endbit =>
    if !bit then .ok ({ l with state := .data }, none)
    else if l.checksum = 0#8 ∧ 3 ≤ l.packet.length then
      .ok (Link.reset { l with packetEnd := true }, some (.packet l.packet))
    else .ok (Link.reset { l with packet := [] }, some .bad)

/-- The effect of `receive` on the assembly state as long as the queue is not full. -/
def Link.step (l : Link) (time : Nat) : R (Link × Option LinkOut) :=
  let l := { l with packetEnd := false }
  match time2bit time with
  | .invalid => .ok (l, none)
  | b =>
    if l.state.halves && !l.isHalfbit then .ok ({ l with isHalfbit := true }, none)
    else (if l.state.halves then { l with isHalfbit := false } else l).bit (b = .b1)

theorem decodeAddress_three (p : Packet) (h : 3 ≤ p.length) : ∃ a, decodeAddress p = .ok a ∧
    (a.type = .automaticLogon ↔ isLogon p = true) := by
  obtain _ | ⟨b, _ | ⟨c, rest⟩⟩ := p
  · simp at h
  · simp at h
  have key : ∀ b c : Byte, ∀ rest, ∃ a, decodeAddress (b :: c :: rest) = .ok a ∧
      (a.type = .automaticLogon ↔ b = 254#8) := by
    intro b c rest
    unfold decodeAddress
    have h254 : ∀ b : Byte, (b = 0#8 ∨ b ≤ 127#8 ∨ b ≤ 191#8 ∨ b ≤ 231#8 ∨ b ≤ 252#8 ∨ b = 253#8) →
        ¬ b = 254#8 := by decide +kernel
    dsimp only
    split
    · exact ⟨_, rfl, by simp [h254 b (by simp [*])]⟩
    split
    · exact ⟨_, rfl, by simp [h254 b (by simp [*])]⟩
    split
    · exact ⟨_, rfl, by simp [h254 b (by simp [*])]⟩
    split
    · exact ⟨_, rfl, by simp [h254 b (by simp [*])]⟩
    split
    · exact ⟨_, rfl, by simp [h254 b (by simp [*])]⟩
    split
    · exact ⟨_, rfl, by simp [h254 b (by simp [*])]⟩
    split
    · exact ⟨_, rfl, by simp [*]⟩
    · exact ⟨_, rfl, by simp [*]⟩
  obtain ⟨a, h1, h2⟩ := key b c rest
  exact ⟨a, h1, by simp [h2, isLogon]⟩

/-- What `receive` does with the outcome of a half bit; `l` is the new assembly state. -/
def RxEffect (s : Rx) (l : Link) (s' : Rx) : Option LinkOut → Prop
  | none => s' = { s with link := l }
  | some .start => s' = { s with link := l, preambleCount := s.preambleCount + 1 }
  | some .bad => s' = { s with link := l, addrs := { s.addrs with received := s.addrs.received.assignValue 0#16 } }
  | some (.packet p) => ∃ a, decodeAddress p = .ok a ∧
    if isLogon p then
      LogonFrame { s with link := l, packetCount := s.packetCount + 1,
                          addrs := { s.addrs with received := a } } s'
    else
      s' = { s with link := l, packetCount := s.packetCount + 1, deque := s.deque ++ [p],
                    addrs := { s.addrs with received := a } }

theorem handlerMode_other (e : Env) (s : Rx) (rand : Nat) (h : s.addrs.received.type ≠ .automaticLogon) :
    s.executeHandlerMode e rand = .ok (s, false) := by
  unfold Rx.executeHandlerMode
  rw [if_pos h]

/-- The end of a packet with the wrong checksum or fewer than three bytes. -/
theorem endOfPacket_bad (e : Env) (s : Rx) (rand : Nat)
    (h : ¬ (s.link.checksum = 0#8 ∧ 3 ≤ s.link.packet.length)) :
    s.endOfPacket e rand =
      .ok { s with link := { s.link with packet := [] }, addrs := { s.addrs with received := s.addrs.received.assignValue 0#16 } } := by
  unfold Rx.endOfPacket
  rw [if_neg h]

/-- The end of a valid packet that is not a logon packet. -/
theorem endOfPacket_valid (e : Env) (s : Rx) (rand : Nat)
    (h : s.link.checksum = 0#8 ∧ 3 ≤ s.link.packet.length) (hl : isLogon s.link.packet = false)
    (hf : s.deque.length < e.rxDeque) :
    ∃ a, decodeAddress s.link.packet = .ok a ∧ s.endOfPacket e rand =
      .ok { s with link := { s.link with packetEnd := true }, packetCount := s.packetCount + 1,
                   deque := s.deque ++ [s.link.packet],
                   addrs := { s.addrs with received := a } } := by
  obtain ⟨a, ha, hx⟩ := decodeAddress_three s.link.packet h.2
  refine ⟨a, ha, ?_⟩
  unfold Rx.endOfPacket
  rw [if_pos h]
  dsimp only
  rw [ha, ok_bind, handlerMode_other e _ rand (by
    dsimp only; intro hy; rw [hx] at hy; rw [hl] at hy; cases hy)]
  simp [pushBack, hf]

/-- The end of a logon packet. -/
theorem endOfPacket_logon (e : Env) (s s' : Rx) (rand : Nat)
    (h : s.link.checksum = 0#8 ∧ 3 ≤ s.link.packet.length) (hl : isLogon s.link.packet = true)
    (hr : s.endOfPacket e rand = .ok s') :
    ∃ a, decodeAddress s.link.packet = .ok a ∧
      LogonFrame { s with link := { s.link with packetEnd := true }, packetCount := s.packetCount + 1,
                          addrs := { s.addrs with received := a } } s' := by
  obtain ⟨a, ha, hx⟩ := decodeAddress_three s.link.packet h.2
  refine ⟨a, ha, ?_⟩
  unfold Rx.endOfPacket at hr
  rw [if_pos h] at hr
  dsimp only at hr
  rw [ha, ok_bind, bind_eq_ok] at hr
  obtain ⟨⟨s1, handled⟩, h1, h2⟩ := hr
  obtain ⟨f, hh⟩ := (logon_handlerMode e _ rand).out _ h1
  dsimp only at f hh h2
  have hb : handled = true := by rw [hh]; simp [hx.mpr hl]
  rw [if_pos hb] at h2
  cases h2
  exact f

theorem LogonFrame.reset {a b : Rx} (h : LogonFrame a b) : LogonFrame a.reset b.reset := by
  constructor
  case link => simp only [Rx.reset, h.link]
  all_goals first
    | exact h.deque | exact h.lastOwnCvPacket | exact h.ownEqualCvPackets | exact h.received
    | exact h.cfg | exact h.cidFront | exact h.sessionFront | exact h.dyn | exact h.tos
    | exact h.adr | exact h.pom | exact h.blockDyn | exact h.packetCount | exact h.preambleCount
    | exact h.indexReg | exact h.mode | exact h.lastPacketTp | exact h.tosTp | exact h.tosBackoff
    | exact h.qos | exact h.enabled | exact h.man | exact h.callbacks | exact h.trace

/-- The switch of `receive`. -/
theorem receiveBit_spec (e : Env) (s s' : Rx) (v : Bool) (rand : Nat)
    (h : s.receiveBit e v rand = .ok s') (hf : s.deque.length ≤ e.rxDeque)
    (hn : s.deque.length ≠ e.rxDeque) :
    ∃ out, s.link.bit v = .ok (s'.link, out) ∧ RxEffect s s'.link s' out := by
  unfold Rx.receiveBit at h
  unfold Link.bit
  dsimp only at h
  cases hs : s.link.state <;> rw [hs] at h <;> dsimp only at h ⊢
  · split at h
    · cases h
      rename_i hb; rw [if_pos hb]
      exact ⟨none, rfl, rfl⟩
    · rename_i hb; rw [if_neg hb]
      split at h
      · cases h
        rename_i hc; rw [if_pos hc]
        exact ⟨none, rfl, rfl⟩
      · cases h
        rename_i hc; rw [if_neg hc]
        exact ⟨none, rfl, rfl⟩
  · cases h
    exact ⟨some .start, rfl, rfl⟩
  · split at h
    · cases h
      rename_i hb; rw [if_pos hb]
      exact ⟨none, rfl, rfl⟩
    · rename_i hb; rw [if_neg hb]
      rw [bind_eq_ok] at h
      obtain ⟨p, h3, h4⟩ := h
      unfold pushBack at h3
      split at h3
      · cases h3; cases h4
        rename_i hc; rw [if_pos hc]
        exact ⟨none, rfl, rfl⟩
      · cases h3
  · split at h
    · cases h
      rename_i hb; rw [if_pos hb]
      exact ⟨none, rfl, rfl⟩
    · rename_i hb; rw [if_neg hb]
      rw [bind_eq_ok] at h
      obtain ⟨s2, h3, h4⟩ := h
      cases h4
      by_cases hc : s.link.checksum = 0#8 ∧ 3 ≤ s.link.packet.length
      · rw [if_pos hc]
        cases hl : isLogon s.link.packet
        · obtain ⟨a, ha, hx⟩ := endOfPacket_valid e s rand hc hl (by omega)
          rw [h3] at hx
          cases hx
          refine ⟨some (.packet s.link.packet), rfl, a, ha, ?_⟩
          rw [if_neg (by simp [hl])]
          rfl
        · obtain ⟨a, ha, hx⟩ := endOfPacket_logon e s s2 rand hc hl h3
          have hy := hx.link
          refine ⟨some (.packet s.link.packet), ?_, a, ha, ?_⟩
          · simp only [Rx.reset, hy]; rfl
          · rw [if_pos hl]
            have h5 := hx.reset
            have h6 := h5.link
            rw [h6]
            exact h5
      · rw [if_neg hc]
        rw [endOfPacket_bad e s rand hc] at h3
        cases h3
        exact ⟨some .bad, rfl, rfl⟩

/-- `receive` while the queue is not full. -/
theorem receive_spec (e : Env) (s s' : Rx) (time rand : Nat) (h : s.receive e time rand = .ok s')
    (hf : s.deque.length < e.rxDeque) :
    ∃ out, s.link.step time = .ok (s'.link, out) ∧ RxEffect s s'.link s' out := by
  unfold Rx.receive at h
  unfold Link.step
  dsimp only at h ⊢
  obtain ⟨s1, hs1⟩ : ∃ s1 : Rx, s1 = { s with link := { s.link with packetEnd := false } } := ⟨_, rfl⟩
  obtain ⟨s2, hs2⟩ : ∃ s2 : Rx, s2 = (if s.link.state.halves then
    { s with link := { s.link with packetEnd := false, isHalfbit := false } }
    else { s with link := { s.link with packetEnd := false } }) := ⟨_, rfl⟩
  have hl2 : (if s.link.state.halves then { s.link with packetEnd := false, isHalfbit := false }
    else { s.link with packetEnd := false }) = s2.link := by
    rw [hs2]; split <;> rfl
  have hd2 : s2.deque = s.deque := by rw [hs2]; split <;> rfl
  have he2 : ∀ l out, RxEffect s2 l s' out → RxEffect s l s' out := by
    intro l out
    rw [hs2]
    rcases out with _ | (_ | _ | _) <;> split <;> exact id
  have key : ∀ b : Bit, (if s.link.state.halves && !s.link.isHalfbit then
        (.ok { s with link := { s.link with packetEnd := false, isHalfbit := true } } : R Rx)
      else if s2.deque.length = e.rxDeque then .ok s2.reset
      else Rx.receiveBit e s2 (b = Bit.b1) rand) = .ok s' →
      ∃ out, (if s.link.state.halves && !s.link.isHalfbit then
        (.ok ({ s.link with packetEnd := false, isHalfbit := true }, none) : R (Link × Option LinkOut))
      else s2.link.bit (b = Bit.b1)) = .ok (s'.link, out) ∧ RxEffect s s'.link s' out := by
    intro b h
    by_cases hh : s.link.state.halves && !s.link.isHalfbit
    · rw [if_pos hh] at h ⊢
      cases h
      exact ⟨none, rfl, rfl⟩
    rw [if_neg hh] at h ⊢
    rw [hd2, if_neg (by omega)] at h
    obtain ⟨out, h1, h2⟩ := receiveBit_spec e s2 s' _ rand h (by rw [hd2]; omega) (by rw [hd2]; omega)
    exact ⟨out, h1, he2 _ _ h2⟩
  rw [hl2]
  cases ht : time2bit time <;> rw [ht] at h <;> dsimp only at h ⊢
  · rw [← hs2] at h; exact key .b0 h
  · rw [← hs2] at h; exact key .b1 h
  · cases h
    exact ⟨none, rfl, rfl⟩

theorem receiveBit_total (e : Env) (s : Rx) (v : Bool) (rand : Nat) (l : Link) (out : Option LinkOut)
    (h : s.link.bit v = .ok (l, out)) (hl : ∀ p, out = some (.packet p) → isLogon p = false)
    (hf : s.deque.length < e.rxDeque) : ∃ s', s.receiveBit e v rand = .ok s' := by
  unfold Link.bit at h
  unfold Rx.receiveBit
  dsimp only
  cases hs : s.link.state <;> rw [hs] at h <;> dsimp only at h ⊢
  · split at h
    · rename_i hb; rw [if_pos hb]
      exact ⟨_, rfl⟩
    · rename_i hb; rw [if_neg hb]
      split <;> exact ⟨_, rfl⟩
  · exact ⟨_, rfl⟩
  · split at h
    · rename_i hb; rw [if_pos hb]
      exact ⟨_, rfl⟩
    · rename_i hb; rw [if_neg hb]
      split at h
      · rename_i hc
        unfold pushBack
        rw [if_pos hc]
        exact ⟨_, rfl⟩
      · cases h
  · split at h
    · rename_i hb; rw [if_pos hb]
      exact ⟨_, rfl⟩
    · rename_i hb; rw [if_neg hb]
      by_cases hc : s.link.checksum = 0#8 ∧ 3 ≤ s.link.packet.length
      · rw [if_pos hc] at h
        cases h
        obtain ⟨a, _, hx⟩ := endOfPacket_valid e s rand hc (hl _ rfl) hf
        rw [hx]
        exact ⟨_, rfl⟩
      · rw [endOfPacket_bad e s rand hc]
        exact ⟨_, rfl⟩

/-- `receive` has a result if the assembly has and the packet completed is not a logon packet. -/
theorem receive_total (e : Env) (s : Rx) (time rand : Nat) (l : Link) (out : Option LinkOut)
    (h : s.link.step time = .ok (l, out)) (hl : ∀ p, out = some (.packet p) → isLogon p = false)
    (hf : s.deque.length < e.rxDeque) : ∃ s', s.receive e time rand = .ok s' := by
  unfold Link.step at h
  unfold Rx.receive
  dsimp only at h ⊢
  obtain ⟨s2, hs2⟩ : ∃ s2 : Rx, s2 = (if s.link.state.halves then
    { s with link := { s.link with packetEnd := false, isHalfbit := false } }
    else { s with link := { s.link with packetEnd := false } }) := ⟨_, rfl⟩
  have hl2 : (if s.link.state.halves then { s.link with packetEnd := false, isHalfbit := false }
    else { s.link with packetEnd := false }) = s2.link := by
    rw [hs2]; split <;> rfl
  have hd2 : s2.deque = s.deque := by rw [hs2]; split <;> rfl
  rw [hl2] at h
  rw [← hs2]
  have key : ∀ b : Bit, (if s.link.state.halves && !s.link.isHalfbit then
        (.ok ({ s.link with packetEnd := false, isHalfbit := true }, none) : R (Link × Option LinkOut))
      else s2.link.bit (b = Bit.b1)) = .ok (l, out) →
      ∃ s', (if s.link.state.halves && !s.link.isHalfbit then
        (.ok { s with link := { s.link with packetEnd := false, isHalfbit := true } } : R Rx)
      else if s2.deque.length = e.rxDeque then .ok s2.reset
      else Rx.receiveBit e s2 (b = Bit.b1) rand) = .ok s' := by
    intro b h
    by_cases hh : s.link.state.halves && !s.link.isHalfbit
    · rw [if_pos hh]; exact ⟨_, rfl⟩
    rw [if_neg hh] at h ⊢
    rw [hd2, if_neg (by omega)]
    exact receiveBit_total e s2 _ rand l out h hl (by rw [hd2]; exact hf)
  cases ht : time2bit time <;> rw [ht] at h <;> dsimp only at h ⊢
  · exact key .b0 h
  · exact key .b1 h
  · exact ⟨_, rfl⟩

/-- `receive` while the queue is full only changes the assembly state. -/
theorem receive_full (e : Env) (s : Rx) (time rand : Nat) (hf : s.deque.length = e.rxDeque) :
    ∃ l, s.receive e time rand = .ok { s with link := l } ∧ l.packetEnd = false ∧
      (l = { s.link with packetEnd := false } ∨
       l = { s.link with packetEnd := false, isHalfbit := true } ∧ s.link.state.halves = true ∨
       l = Link.reset { s.link with packetEnd := false } ∨
       l = Link.reset { s.link with packetEnd := false, isHalfbit := false }) := by
  unfold Rx.receive
  dsimp only
  obtain ⟨s2, hs2⟩ : ∃ s2 : Rx, s2 = (if s.link.state.halves then
    { s with link := { s.link with packetEnd := false, isHalfbit := false } }
    else { s with link := { s.link with packetEnd := false } }) := ⟨_, rfl⟩
  have hd2 : s2.deque = s.deque := by rw [hs2]; split <;> rfl
  have hr2 : ∃ l, s2.reset = { s with link := l } ∧ l.packetEnd = false ∧
      (l = Link.reset { s.link with packetEnd := false } ∨
       l = Link.reset { s.link with packetEnd := false, isHalfbit := false }) := by
    rw [hs2]
    split
    · exact ⟨_, rfl, rfl, .inr rfl⟩
    · exact ⟨_, rfl, rfl, .inl rfl⟩
  rw [← hs2, hd2, hf]
  obtain ⟨l, h1, h2, h3⟩ := hr2
  cases ht : time2bit time <;> dsimp only
  case invalid => exact ⟨_, rfl, rfl, .inl rfl⟩
  all_goals
    by_cases hh : (s.link.state.halves && !s.link.isHalfbit) = true
    · rw [if_pos hh]
      exact ⟨_, rfl, rfl, .inr (.inl ⟨rfl, by simp at hh; exact hh.1⟩)⟩
    · rw [if_neg hh, if_pos rfl, h1]
      exact ⟨l, rfl, h2, .inr (.inr h3)⟩

end Dcc
