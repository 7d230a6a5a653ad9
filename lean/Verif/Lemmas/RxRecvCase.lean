import Verif.Lemmas.RxStep
/-! What a call of `receive` can be, with the logon packets it executes. -/
namespace Dcc

/-- The state `receive` executes a logon packet in. -/
def Rx.atLogon (s : Rx) (l : Link) (a : Address) : Rx :=
  { s with link := l, packetCount := s.packetCount + 1, addrs := { s.addrs with received := a } }

/-- The state after a call of `receive` that executes no logon packet. -/
def Rx.plainly (s : Rx) (l : Link) (d : List Packet) (a : Address) (pc prc : Nat) : Rx :=
  { s with
    link := l
    deque := d
    addrs := { s.addrs with received := a }
    packetCount := pc
    preambleCount := prc }

/-- What a call of `receive` can be. -/
inductive RecvCase (e : Env) (s : Rx) (rand : Nat) (s' : Rx) : Prop
  | plain (l : Link) (d : List Packet) (a : Address) (pc prc : Nat)
      (h : s' = s.plainly l d a pc prc)
  | logon (l : Link) (a : Address) (s2 : Rx) (hp : l.packet = s.link.packet)
      (hd : s.deque.length ≠ e.rxDeque) (hst : s.link.state = .endbit)
      (h3 : 3 ≤ l.packet.length) (hc : l.checksum = 0#8)
      (ha : decodeAddress l.packet = .ok a) (ht : a.type = .automaticLogon)
      (hcrc : l.packet.length ≤ 7 ∨ crc8Packet l.packet = 0#8)
      (h : (s.atLogon l a).executeAutomaticLogon e a (l.packet.drop 1) rand = .ok s2)
      (hs : s' = s2.reset) (hk : l.checksum = s.link.checksum) (he : l.packetEnd = true)

theorem endOfPacket_case (e : Env) (s s' : Rx) (rand : Nat) (hst : s.link.state = .endbit)
    (hd : s.deque.length ≠ e.rxDeque) (h : s.endOfPacket e rand = .ok s') :
    RecvCase e s rand s'.reset := by
  unfold Rx.endOfPacket at h
  split at h
  · rename_i hc
    rw [bind_eq_ok] at h
    obtain ⟨a, ha, h⟩ := h
    dsimp only at ha h
    unfold Rx.executeHandlerMode at h
    dsimp only at h
    by_cases ht : a.type ≠ .automaticLogon
    · rw [if_pos ht, ok_bind] at h
      dsimp only at h
      rw [if_neg Bool.false_ne_true, bind_eq_ok] at h
      obtain ⟨q, -, h⟩ := h
      cases h
      exact .plain _ _ _ _ _ rfl
    · rw [if_neg ht] at h
      by_cases hcrc : s.link.packet.length ≤ 7 ∨ crc8Packet s.link.packet = 0#8
      · rw [if_pos hcrc, bind_assoc, bind_eq_ok] at h
        obtain ⟨s2, h2, h⟩ := h
        simp only [pure_eq_ok, ok_bind, if_pos] at h
        cases h
        exact .logon { s.link with packetEnd := true } a _ rfl hd hst hc.2 hc.1 ha (by simpa using ht)
          hcrc h2 rfl rfl rfl
      · rw [if_neg hcrc, ok_bind] at h
        dsimp only at h
        rw [if_pos rfl] at h
        cases h
        exact .plain _ _ _ _ _ rfl
  · cases h
    exact .plain _ _ _ _ _ rfl

theorem receiveBit_case (e : Env) (s s' : Rx) (bit : Bool) (rand : Nat)
    (hd : s.deque.length ≠ e.rxDeque) (h : s.receiveBit e bit rand = .ok s') :
    RecvCase e s rand s' := by
  unfold Rx.receiveBit at h
  dsimp only at h
  split at h
  · repeat' split at h
    all_goals (cases h; exact .plain _ _ _ _ _ rfl)
  · cases h; exact .plain _ _ _ _ _ rfl
  · split at h
    · cases h; exact .plain _ _ _ _ _ rfl
    · rw [bind_eq_ok] at h
      obtain ⟨q, -, h⟩ := h
      cases h; exact .plain _ _ _ _ _ rfl
  · rename_i hst
    split at h
    · cases h; exact .plain _ _ _ _ _ rfl
    · rw [bind_eq_ok] at h
      obtain ⟨s2, h2, h⟩ := h
      cases h
      exact endOfPacket_case e s s2 rand hst hd h2

theorem RecvCase.link {e : Env} {s : Rx} {rand : Nat} {s' : Rx} (l : Link)
    (hk : l.checksum = s.link.checksum) (hp : l.packet = s.link.packet) (hst : l.state = s.link.state)
    (h : RecvCase e { s with link := l } rand s') : RecvCase e s rand s' := by
  cases h with
  | plain l' d a pc prc h => exact .plain l' d a pc prc h
  | logon l' a s2 hp' hd' hst' h3 hc ha ht hcrc h hs hk' he =>
    exact .logon l' a s2 (hp'.trans hp) hd' (hst.symm.trans hst') h3 hc ha ht hcrc h hs (hk'.trans hk) he

theorem receive_case (e : Env) (s s' : Rx) (t rand : Nat) (h : s.receive e t rand = .ok s') :
    RecvCase e s rand s' := by
  have key : ∀ b : Bool, (if s.link.state.halves && !s.link.isHalfbit then
      .ok { s with link := { s.link with packetEnd := false, isHalfbit := true } }
    else
      let s := if s.link.state.halves then
          { s with link := { s.link with packetEnd := false, isHalfbit := false } }
        else { s with link := { s.link with packetEnd := false } }
      if s.deque.length = e.rxDeque then .ok s.reset
      else s.receiveBit e b rand : R Rx) = .ok s' → RecvCase e s rand s' := by
    intro b h
    split at h
    · cases h; exact .plain _ _ _ _ _ rfl
    · dsimp only at h
      by_cases hh : s.link.state.halves = true
      · rw [if_pos hh] at h
        dsimp only at h
        split at h
        · cases h; exact .plain _ _ _ _ _ rfl
        · rename_i hd
          refine RecvCase.link { s.link with packetEnd := false, isHalfbit := false } rfl rfl rfl ?_
          exact receiveBit_case e _ s' b rand hd h
      · rw [if_neg hh] at h
        dsimp only at h
        split at h
        · cases h; exact .plain _ _ _ _ _ rfl
        · rename_i hd
          refine RecvCase.link { s.link with packetEnd := false } rfl rfl rfl ?_
          exact receiveBit_case e _ s' b rand hd h
  unfold Rx.receive at h
  dsimp only at h
  cases hb : time2bit t <;> rw [hb] at h <;> dsimp only at h
  all_goals first
    | exact key _ h
    | (cases h; exact .plain _ _ _ _ _ rfl)

end Dcc
