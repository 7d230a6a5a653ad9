import Verif.Spec.Several
import Verif.Lemmas.RxMainTalk
/-! What decoders on the same track have in common. -/
namespace Dcc
open Spec

/-- The received address after the outcome of a half bit. -/
def heardAddress (a : Address) : LinkOut → Address
  | .start => a
  | .packet p => addrOf p
  | .bad => a.assignValue 0#16

theorem kept_received (e : Env) (s s' : Rx) (op : RxOp) (hr : op.isReceive = false)
    (h : s.step e op = .ok s') : s'.addrs.received = s.addrs.received := by
  cases op with
  | init => exact ((frame_init e s).out _ h).received
  | enable =>
    simp only [Rx.step, Rx.enable, Except.ok.injEq] at h
    subst h
    split <;> rfl
  | disable =>
    simp only [Rx.step, Rx.disable, Except.ok.injEq] at h
    subst h
    split <;> rfl
  | receive t r => cases hr
  | execute now rand =>
    simp only [Rx.step, bind_eq_ok, pure_eq_ok, Except.ok.injEq] at h
    obtain ⟨⟨s1, ret⟩, h1, rfl⟩ := h
    rcases execute_cases e s s1 now rand ret h1 with ⟨-, rfl, -⟩ | ⟨p, rest, s2, s3, -, -, -, f1, -, f2, rfl⟩
    · rfl
    · exact f2.received.trans (by rw [f1.addrs])
  | datagram ds =>
    obtain ⟨q, b, rfl⟩ := datagram_eq e s s' ds h
    rfl
  | biDiChannel1 =>
    simp only [Rx.step, Except.ok.injEq] at h
    obtain ⟨q, evs, h1⟩ := channel1_eq s
    subst h
    rw [h1]
  | biDiChannel2 =>
    obtain ⟨q, evs, rfl, _⟩ := channel2_eq s s' h
    rfl
  | callbackByte i v =>
    simp only [Rx.step] at h
    split at h
    · exact ((frame_callbackByte s _ v).out _ h).received
    · cases h; rfl
  | callbackBit i v =>
    simp only [Rx.step] at h
    split at h
    · exact ((frame_callbackBit s _ v).out _ h).received
    · cases h; rfl

/-- The assembly state and the received address follow the durations. -/
theorem run_received (e : Env) (ops : List RxOp) : ∀ (s s' : Rx), s.run e ops = .ok s' →
    .disable ∉ ops → NeverFull e s ops →
    ∃ os, s.link.run (recvTimes ops) = .ok (s'.link, os) ∧
      s'.addrs.received = os.foldl heardAddress s.addrs.received := by
  induction ops with
  | nil =>
    intro s s' h _ _
    cases h
    exact ⟨[], rfl, rfl⟩
  | cons op ops ih =>
    intro s s' h hd hf
    rw [Rx.run, bind_eq_ok] at h
    obtain ⟨s1, h1, h2⟩ := h
    obtain ⟨hf1, hf2⟩ := hf
    rw [h1] at hf2
    obtain ⟨os, h3, h4⟩ := ih s1 s' h2 (fun hm => hd (by simp [hm])) hf2
    by_cases hr : op.isReceive = true
    · cases op <;> try simp [RxOp.isReceive] at hr
      rename_i t r
      obtain ⟨o, h5, h6⟩ := receive_spec e s s1 t r h1 (hf1 rfl)
      refine ⟨o.toList ++ os, ?_, ?_⟩
      · show s.link.run (t :: recvTimes ops) = _
        rw [Link.run_cons _ h5, h3]
        rfl
      · rw [h4, List.foldl_append]
        congr 1
        rcases o with _ | (_ | p | _)
        · rw [h6]; rfl
        · rw [h6]; rfl
        · obtain ⟨a, g1, g2⟩ := h6
          show _ = addrOf p
          rw [addrOf_ok g1]
          split at g2
          · rw [g2.received]
          · rw [g2]
        · rw [h6]; rfl
    · have hr' : op.isReceive = false := by simpa using hr
      have h5 : s1.link = s.link := (step_other e s s1 op h1 (by
        rintro t r rfl; simp [RxOp.isReceive] at hr') (by rintro rfl; simp at hd)).1
      have h6 := kept_received e s s1 op hr' h1
      have h7 : recvTimes (op :: ops) = recvTimes ops := by
        cases op <;> first | rfl | (simp [RxOp.isReceive] at hr')
      exact ⟨os, by rw [h7, ← h5]; exact h3, by rw [h4, h6]⟩

/-- A decoder that answers in channel 2 was told to. -/
theorem speaks_cutout {e : Env} {s : Rx} (h : Speaks e s) : cutout s ≠ .nothing := by
  intro hc
  apply h
  unfold sent
  cases h1 : s.step e .biDiChannel2 with
  | error f => rfl
  | ok s' =>
    have := channel2_cutout s s' h1
    rw [hc] at this
    have : s' = s := this
    subst this
    simp [sent, newCalls_self, transmitted]

/-- The received address names a locomotive the decoder responds to. -/
theorem cutout_responds {s : Rx} (h : cutout s ≠ .nothing) :
    s.addrs.received.type = .broadcast ∨ s.addrs.received.type = .automaticLogon ∨
      s.addrs.received.type.isLoco = true ∧ Responds s s.addrs.received.value.toNat := by
  have key : ∀ a b : Address, SameDecoder a b → a.type.isLoco = true → b.type.isLoco = true ∧ b.value.toNat = a.value.toNat := by
    rintro a b ⟨h1, h2⟩ h3
    refine ⟨?_, by rw [h1]⟩
    rcases h2 with h2 | h2
    · rw [← h2]; exact h3
    · exact h2.2
  unfold cutout at h
  have loco : s.addrs.received.type.isLoco = true →
      (if SameDecoder s.addrs.received (ownAddress s) then
        if isLongAccess s.link.packet then Cutout.cv else .dynamic
      else if SameDecoder s.addrs.received s.addrs.consist ∧ s.cfg.ch2ConsistEnabled then .dynamic
      else .nothing) ≠ .nothing → Responds s s.addrs.received.value.toNat := by
    intro hl h
    split at h
    · rename_i hs; exact .inl (key _ _ hs hl)
    · split at h
      · rename_i hs
        exact .inr ⟨hs.2, key _ _ hs.1 hl⟩
      · exact absurd rfl h
  cases ht : s.addrs.received.type <;> rw [ht] at h loco <;> first
    | exact .inl rfl
    | exact .inr (.inl rfl)
    | exact .inr (.inr ⟨rfl, loco rfl h⟩)
    | exact absurd rfl h

/-- The packets for another decoder do not concern a device. -/
theorem hear_other {d : MainDevice} {p : Packet} {n : Nat} (hp : locoNumber p = some n) (h0 : n ≠ 0)
    (hn : ownNumber d.cvs ≠ some n) : d.hear p = (d, []) := by
  have h1 : asks d.cvs p = false := by
    unfold asks; rw [hp]; simp [hn]
  have h2 : pomFor d.cvs p = false := by
    unfold pomFor; rw [hp]; simp [hn, h0]
  unfold MainDevice.hear MainDevice.execute
  rw [h1, h2]
  simp

theorem hearAll_other {d : MainDevice} {n : Nat} (h0 : n ≠ 0) (hn : ownNumber d.cvs ≠ some n) (ps : List Packet)
    (hp : ∀ p ∈ ps, locoNumber p = some n) : d.hearAll ps = (d, []) := by
  induction ps with
  | nil => rfl
  | cons p ps ih =>
    rw [MainDevice.hearAll, hear_other (hp p (by simp)) h0 hn, ih fun q hq => hp q (by simp [hq])]
    rfl

end Dcc
