import Verif.Lemmas.RxInv
/-! Feeding durations to the whole receiver. -/
namespace Dcc

open Spec (recvOps)

theorem run_append (e : Env) (a b : List RxOp) : ∀ s s1 : Rx, s.run e a = .ok s1 →
    s.run e (a ++ b) = s1.run e b := by
  induction a with
  | nil => intro s s1 h; cases h; rfl
  | cons op a ih =>
    intro s s1 h
    rw [Rx.run, bind_eq_ok] at h
    obtain ⟨s2, h1, h2⟩ := h
    rw [List.cons_append, Rx.run, h1, ok_bind]
    exact ih s2 s1 h2

theorem run_append_split (e : Env) (a b : List RxOp) : ∀ s s' : Rx, s.run e (a ++ b) = .ok s' →
    ∃ s1, s.run e a = .ok s1 ∧ s1.run e b = .ok s' := by
  induction a with
  | nil => intro s s' h; exact ⟨s, rfl, h⟩
  | cons op a ih =>
    intro s s' h
    rw [List.cons_append, Rx.run, bind_eq_ok] at h
    obtain ⟨s2, h1, h2⟩ := h
    obtain ⟨s3, h3, h4⟩ := ih s2 s' h2
    exact ⟨s3, by rw [Rx.run, h1, ok_bind, h3], h4⟩

/-- The address in a packet, if it can be decoded. -/
def addrOf (p : Packet) : Address :=
  match decodeAddress p with
  | .ok a => a
  | .error _ => {}

theorem addrOf_ok {p : Packet} {a : Address} (h : decodeAddress p = .ok a) : addrOf p = a := by
  simp [addrOf, h]

/-- What the outcome of a half bit does to the receiver besides the assembly state, logon packets
excluded. -/
def Rx.out (s : Rx) : LinkOut → Rx
  | .start => { s with preambleCount := s.preambleCount + 1 }
  | .bad => { s with addrs := { s.addrs with received := s.addrs.received.assignValue 0#16 } }
  | .packet p => { s with packetCount := s.packetCount + 1, deque := s.deque ++ [p],
                          addrs := { s.addrs with received := addrOf p } }

/-- What several outcomes do. -/
def Rx.outs (s : Rx) (os : List LinkOut) : Rx := os.foldl Rx.out s

/-- The packets among outcomes. -/
def packetsOf (os : List LinkOut) : List Packet := os.filterMap fun
  | .packet p => some p
  | _ => none

theorem out_link (s : Rx) (l : Link) (o : LinkOut) : ({ s with link := l } : Rx).out o = { s.out o with link := l } := by
  cases o <;> rfl

theorem outs_link (os : List LinkOut) : ∀ (s : Rx) (l : Link),
    ({ s with link := l } : Rx).outs os = { s.outs os with link := l } := by
  induction os with
  | nil => intro s l; rfl
  | cons o os ih =>
    intro s l
    show (({ s with link := l } : Rx).out o).outs os = _
    rw [out_link, ih]
    rfl

theorem outs_deque (os : List LinkOut) : ∀ s : Rx, (s.outs os).deque = s.deque ++ packetsOf os := by
  induction os with
  | nil => intro s; simp [Rx.outs, packetsOf]
  | cons o os ih =>
    intro s
    show ((s.out o).outs os).deque = _
    rw [ih]
    cases o <;> simp [Rx.out, packetsOf]

/-- One half bit. -/
theorem receive_out (e : Env) (s : Rx) (t r : Nat) (l : Link) (o : Option LinkOut)
    (h : s.link.step t = .ok (l, o)) (hl : ∀ p, o = some (.packet p) → isLogon p = false)
    (hf : s.deque.length < e.rxDeque) :
    s.receive e t r = .ok { s.outs o.toList with link := l } := by
  obtain ⟨s', hs'⟩ := receive_total e s t r l o h hl hf
  obtain ⟨o', h1, h2⟩ := receive_spec e s s' t r hs' hf
  rw [h] at h1
  cases h1
  rw [hs']
  rcases o with _ | (_ | p | _)
  · exact congrArg _ h2
  · exact congrArg _ h2
  · obtain ⟨a, ha, h3⟩ := h2
    rw [if_neg (by simp [hl p rfl])] at h3
    rw [h3]
    simp [Rx.outs, Rx.out, addrOf_ok ha]
  · exact congrArg _ h2

/-- Several half bits. -/
theorem recv_outs (e : Env) (xs : List (Nat × Nat)) : ∀ (s : Rx) (l : Link) (os : List LinkOut),
    s.link.run (xs.map (·.1)) = .ok (l, os) → (∀ p ∈ packetsOf os, isLogon p = false) →
    s.deque.length + (packetsOf os).length < e.rxDeque →
    s.run e (recvOps xs) = .ok { s.outs os with link := l } := by
  induction xs with
  | nil =>
    intro s l os h _ _
    cases h
    rfl
  | cons x xs ih =>
    intro s l os h hl hf
    simp only [List.map_cons, Link.run, bind_eq_ok] at h
    obtain ⟨⟨l1, o⟩, h1, ⟨l2, os2⟩, h2, h3⟩ := h
    simp only [pure_eq_ok, Except.ok.injEq, Prod.mk.injEq] at h3
    obtain ⟨rfl, rfl⟩ := h3
    have hp : packetsOf (o.toList ++ os2) = packetsOf o.toList ++ packetsOf os2 := by
      simp [packetsOf]
    rw [hp] at hl hf
    rw [List.length_append] at hf
    have h4 := receive_out e s x.1 x.2 l1 o h1 (by
      intro p hpo
      subst hpo
      exact hl p (by simp [packetsOf])) (by omega)
    show s.run e (.receive x.1 x.2 :: recvOps xs) = _
    rw [Rx.run]
    show (s.receive e x.1 x.2 >>= _) = _
    rw [h4, ok_bind]
    rw [ih { s.outs o.toList with link := l1 } l2 os2 h2 (fun p hp => hl p (by simp [hp])) (by
      simp only [outs_deque, List.length_append]; omega)]
    rw [outs_link]
    simp [Rx.outs]

/-- A whole packet from a synchronised state. -/
theorem recv_packet (e : Env) (s : Rx) (cfg : TxConfig) (h : Spec.ValidConfig cfg) (p : Packet)
    (hp : ValidPacket p) (hl : isLogon p = false) (hs : s.link.state = .preamble)
    (hi : LinkInv s.link) (hf : s.deque.length < e.rxDeque) (xs : List (Nat × Nat))
    (hx : xs.map (·.1) = Spec.packetWave cfg p) :
    s.run e (recvOps xs) = .ok { s with
      link := Link.after p
      preambleCount := s.preambleCount + 1
      packetCount := s.packetCount + 1
      deque := s.deque ++ [p]
      addrs := { s.addrs with received := addrOf p } } := by
  obtain ⟨hb, hc⟩ := hi.idle (by rw [hs]; rfl)
  obtain ⟨w, hw, h1⟩ := run_packet_init s.link cfg h p hp hs hb hc
  rw [hw] at hx
  obtain ⟨ys, zs, rfl, hy, hz⟩ := List.map_eq_append_iff.mp hx
  obtain ⟨z, rfl, hz1⟩ := List.map_eq_singleton_iff.mp hz
  have h2 := recv_outs e ys s (Link.beforeEnd p) [.start] (by rw [hy]; exact h1) (by simp [packetsOf])
    (by simpa [packetsOf] using hf)
  have h0 : recvOps (ys ++ [z]) = recvOps ys ++ [.receive z.1 z.2] := by simp [recvOps]
  rw [h0, run_append e _ _ s _ h2]
  have h3 : (Link.beforeEnd p).step z.1 = .ok (Link.after p, some (.packet p)) := by
    rw [hz1]
    have h4 := run_end_last (Link.beforeEnd p) cfg h rfl rfl rfl hp.min
    simp only [Link.run, bind_eq_ok, pure_eq_ok, Except.ok.injEq, Prod.mk.injEq] at h4
    obtain ⟨⟨l, o⟩, h5, r, h6, h7, h8⟩ := h4
    subst h6
    rw [h5]
    simp only at h7 h8
    rcases o with _ | o
    · simp at h8
    · simp at h8
      subst h8 h7
      rfl
  rw [Rx.run]
  show (Rx.receive e _ z.1 z.2 >>= _) = _
  rw [receive_out e { s.outs [.start] with link := Link.beforeEnd p } z.1 z.2 _ _ h3
    (by intro q hq; cases hq; exact hl) hf]
  rfl

end Dcc
