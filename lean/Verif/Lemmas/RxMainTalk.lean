import Verif.Lemmas.RxDrive
import Verif.Lemmas.RxMain
/-! What a command station hears from a decoder that is programmed on the main. -/
namespace Dcc
open Spec

private theorem cv_bytes : ∀ cv : Fin 1024,
    (cvHigh 0xE4#8 (BitVec.ofNat 32 cv)).toNat = 0xE4 + cv / 256 ∧
    (cvHigh 0xEC#8 (BitVec.ofNat 32 cv)).toNat = 0xEC + cv / 256 ∧
    (cvHigh 0xE8#8 (BitVec.ofNat 32 cv)).toNat = 0xE8 + cv / 256 ∧
    ((BitVec.ofNat 32 cv).setWidth 8).toNat = cv % 256 := by decide +kernel

private theorem bit_byte : ∀ (b : Bool) (pos : Fin 8),
    (cvBitByte 0xE0#8 b (BitVec.ofNat 32 pos)).getLsbD 4 = false ∧
    (cvBitByte 0xE0#8 b (BitVec.ofNat 32 pos)).getLsbD 3 = b ∧
    (cvBitByte 0xE0#8 b (BitVec.ofNat 32 pos)).toNat % 8 = pos ∧
    (cvBitByte 0xF0#8 b (BitVec.ofNat 32 pos)).getLsbD 4 = true ∧
    (cvBitByte 0xF0#8 b (BitVec.ofNat 32 pos)).getLsbD 3 = b ∧
    (cvBitByte 0xF0#8 b (BitVec.ofNat 32 pos)).toNat % 8 = pos := by decide +kernel

/-- The bytes behind the address. -/
theorem pom_payload (k : Kind) (a : Access) (ha : a.Legal) :
    ∃ b0 b1 b2, payload (pomCall k a) = [b0, b1, b2] ∧
      224 ≤ b0.toNat ∧ b0.toNat < 240 ∧ ∀ r, longRequest (b0 :: b1 :: b2 :: r) = some (k, a) := by
  cases a with
  | byte cv b =>
    have hcv : cv < 1024 := ha
    obtain ⟨h1, h2, h3, h4⟩ := cv_bytes ⟨cv, hcv⟩
    dsimp only at h1 h2 h3 h4
    cases k with
    | verify =>
      refine ⟨_, _, _, rfl, by omega, by omega, fun r => ?_⟩
      unfold longRequest
      dsimp only
      rw [h1, h4, if_pos (by omega)]
      congr 4
      omega
    | write =>
      refine ⟨_, _, _, rfl, by omega, by omega, fun r => ?_⟩
      unfold longRequest
      dsimp only
      rw [h2, h4, if_neg (by omega), if_pos (by omega)]
      congr 4
      omega
  | bit cv b pos =>
    obtain ⟨hcv, hpos⟩ : cv < 1024 ∧ pos < 8 := ha
    obtain ⟨h1, h2, h3, h4⟩ := cv_bytes ⟨cv, hcv⟩
    obtain ⟨g1, g2, g3, g4, g5, g6⟩ := bit_byte b ⟨pos, hpos⟩
    dsimp only at h1 h2 h3 h4 g1 g2 g3 g4 g5 g6
    have hc : (232 + cv / 256) % 4 * 256 + cv % 256 = cv := by omega
    cases k with
    | verify =>
      refine ⟨_, _, _, rfl, by omega, by omega, fun r => ?_⟩
      unfold longRequest
      dsimp only
      rw [h3, h4, if_neg (by omega), if_neg (by omega), if_pos (by omega), g1, g2, g3, hc]
      rfl
    | write =>
      refine ⟨_, _, _, rfl, by omega, by omega, fun r => ?_⟩
      unfold longRequest
      dsimp only
      rw [h3, h4, if_neg (by omega), if_neg (by omega), if_pos (by omega), g4, g5, g6, hc]
      rfl

/-- The packet of a CV access. -/
theorem pom_packet {a : Address} (ha : LocoAddress a) (k : Kind) (x : Access) (hx : x.Legal) {p : Packet}
    (hp : (pomCall k x).run a = .ok p) :
    locoNumber p = some a.value.toNat ∧ isLongAccess p = true ∧ longRequest (afterAddress p) = some (k, x) ∧
      ValidPacket p ∧ isLogon p = false ∧ OnMain p ∧ (a.type ≠ .broadcast → p.head? ≠ some 0#8) := by
  obtain ⟨h1, ⟨y, h2⟩, h3, h4⟩ := built_packet a ha _ p hp
  obtain ⟨b0, b1, b2, g1, g2, g3, g4⟩ := pom_payload k x hx
  rw [g1] at h2
  refine ⟨h1, ?_, by rw [h2]; exact g4 _, h3, h4, ?_, ?_⟩
  · unfold isLongAccess
    rw [instructionByte_eq p _ h1, h2]
    simp [g2, g3]
  · intro n hn b hb
    rw [h2] at hb
    cases hb
    refine ⟨?_, by omega, g3, fun _ => by rw [h2]; simp⟩
    rintro ⟨-, rfl⟩
    simp at g2
  · intro ht h0
    rw [run_eq] at hp
    obtain ⟨q, rest⟩ := p
    · cases h0
    cases h0
    obtain ⟨v, t, r⟩ := a
    rw [addressed] at hp
    rcases ha with ⟨h5, -⟩ | ⟨h5, h6, h7⟩ | ⟨h5, h6⟩ <;> dsimp only at h5 <;> subst h5
    · exact ht rfl
    · dsimp only at h6 h7
      have hp : finish ([v.setWidth 8] ++ payload (pomCall k x)) = .ok _ := hp
      unfold finish at hp
      split at hp
      · simp only [Except.ok.injEq, List.cons_append, List.cons.injEq] at hp
        have := congrArg BitVec.toNat hp.1
        simp [BitVec.toNat_setWidth] at this
        omega
      · cases hp
    · have hp : finish ([0xC0#8 ||| (v >>> 8).setWidth 8, v.setWidth 8] ++ payload (pomCall k x)) = .ok _ := hp
      unfold finish at hp
      split at hp
      · simp only [Except.ok.injEq, List.cons_append, List.cons.injEq] at hp
        have : (0xC0#8 ||| (v >>> 8).setWidth 8).getLsbD 7 = (0#8).getLsbD 7 := by rw [hp.1]
        simp at this
      · cases hp

theorem pom_injective {a : Address} (ha : LocoAddress a) {k k' : Kind} {x x' : Access} (hx : x.Legal)
    (hx' : x'.Legal) {p : Packet} (hp : (pomCall k x).run a = .ok p) (hp' : (pomCall k' x').run a = .ok p) :
    (k, x) = (k', x') := by
  have h1 := (pom_packet ha k x hx hp).2.2.1
  have h2 := (pom_packet ha k' x' hx' hp').2.2.1
  rw [h1] at h2
  exact Option.some.inj h2

theorem pom_some {a : Address} (ha : LocoAddress a) (k : Kind) (x : Access) :
    ∃ p, (pomCall k x).run a = .ok p := by
  have hl : (payload (pomCall k x)).length = 3 := by
    rw [payload_length]
    cases k <;> cases x <;> rfl
  rw [run_eq, addressed]
  obtain ⟨v, t, r⟩ := a
  rcases ha with ⟨h5, -⟩ | ⟨h5, -⟩ | ⟨h5, -⟩ <;> dsimp only at h5 <;> subst h5
  · exact ⟨_, finish_ok ([0#8] ++ payload (pomCall k x)) (by simp [hl, maxPacketSize])⟩
  · exact ⟨_, finish_ok ([v.setWidth 8] ++ payload (pomCall k x)) (by simp [hl, maxPacketSize])⟩
  · exact ⟨_, finish_ok ([0xC0#8 ||| (v >>> 8).setWidth 8, v.setWidth 8] ++ payload (pomCall k x))
      (by simp [hl, maxPacketSize])⟩

/-! ### The device -/

theorem MainDevice.hearAll_append (ps qs : List Packet) : ∀ d : MainDevice,
    d.hearAll (ps ++ qs) = (((d.hearAll ps).1.hearAll qs).1, (d.hearAll ps).2 ++ ((d.hearAll ps).1.hearAll qs).2) := by
  induction ps with
  | nil => intro d; rfl
  | cons p ps ih => intro d; simp only [List.cons_append, MainDevice.hearAll, ih, List.append_assoc]

/-- Packets that are no CV accesses do not matter. -/
theorem MainDevice.hearAll_filter (ps : List Packet) : ∀ d : MainDevice,
    d.hearAll ps = d.hearAll (ps.filter isPom) := by
  induction ps with
  | nil => intro d; rfl
  | cons p ps ih =>
    intro d
    rw [List.filter_cons]
    cases hp : isPom p with
    | true => rw [if_pos rfl, MainDevice.hearAll, MainDevice.hearAll, ih]
    | false =>
      rw [if_neg Bool.false_ne_true, MainDevice.hearAll]
      have : d.hear p = (d, []) := by
        unfold isPom at hp
        have h1 : asks d.cvs p = false := by
          unfold asks
          cases h2 : isLongAccess p <;> cases h3 : (locoNumber p).isSome <;> simp_all
        have h2 : pomFor d.cvs p = false := by
          unfold pomFor
          cases h3 : locoNumber p with
          | none => rfl
          | some n => rw [h3] at hp; simp_all
        unfold MainDevice.hear MainDevice.execute
        rw [h1, h2]
        rfl
      rw [this, ← ih]
      rfl

/-- Nothing else of the CVs matters for talking. -/
theorem talks_congr {c c' : BitVec 32 → Byte} (h : ∀ cv ∈ initCvs, c' cv = c cv) {a : Address}
    (ht : Talks c a) : Talks c' a := by
  have h0 := h 0#32 (by decide)
  have h14 := h 14#32 (by decide)
  have h15 := h 15#32 (by decide)
  have h16 := h 16#32 (by decide)
  have h17 := h 17#32 (by decide)
  have h18 := h 18#32 (by decide)
  have h19 := h 19#32 (by decide)
  have h27 := h 27#32 (by decide)
  have h28 := h 28#32 (by decide)
  obtain ⟨t1, t2, t3, t4, t5⟩ := ht
  refine ⟨?_, t2, ?_, ?_, ?_⟩
  · rw [← t1]; unfold ownNumber primaryNumber primaryByte; simp only [h0, h16, h17, h28]
  · unfold consistNumber at t3 ⊢; rw [h18, h19]; exact t3
  · rw [← t4]; unfold Spec.answering; rw [h27, h28]
  · rw [← t5]; unfold locks; rw [h14, h15]

theorem stored_other (c : BitVec 32 → Byte) (k : Kind) (x : Access)
    (h : k = .write → BitVec.ofNat 32 x.cv ∉ initCvs) : ∀ cv ∈ initCvs, stored c k x cv = c cv := by
  intro cv hcv
  cases k with
  | verify => rfl
  | write =>
    have h := h rfl
    cases x with
    | byte n b =>
      refine if_neg fun (hn : cv = BitVec.ofNat 32 n) => h ?_
      rw [hn] at hcv
      exact hcv
    | bit n b pos =>
      refine if_neg fun (hn : cv = BitVec.ofNat 32 n) => h ?_
      rw [hn] at hcv
      exact hcv

private theorem permitted_unlocked (k : Kind) (x : Access) : permitted false k x = true := by
  cases k <;> simp [permitted]

/-- One packet of a request. -/
theorem hear_pom {a : Address} (ha : LocoAddress a) {k : Kind} {x : Access} (hx : x.Legal) {p : Packet}
    (hp : (pomCall k x).run a = .ok p) {d : MainDevice} (ht : Talks d.cvs a) :
    d.hear p = (let n := if d.last = p then d.count + 1 else 1
      match longAction n (afterAddress p) with
      | none => { d with last := p, count := n, waiting := none }
      | some (k, a) => { cvs := stored d.cvs k a, last := p, count := n,
                         waiting := some (valueIn (stored d.cvs k a) a) },
      if d.last = p then d.waiting.toList.map .value else [.ack]) := by
  obtain ⟨h1, h2, -, -, -, -, h3⟩ := pom_packet ha k x hx hp
  have h3 := h3 (by rcases ht.single with h | h <;> rw [h] <;> simp)
  have hasks : asks d.cvs p = true := by unfold asks; simp [h1, h2, h3, ht.own]
  have hfor : pomFor d.cvs p = true := by
    unfold pomFor
    rw [h1]
    dsimp only
    rw [h2, ht.own]
    rcases ht.consist with h | h <;> simp [h]
  unfold MainDevice.hear
  rw [if_pos hasks]
  have hans : d.answer p = (if d.last = p then { d with waiting := none } else d,
      if d.last = p then d.waiting.toList.map .value else [.ack]) := by
    unfold MainDevice.answer
    rw [if_pos ht.answering]
    split <;> rfl
  rw [hans]
  refine Prod.ext ?_ rfl
  dsimp only
  have hc : (if d.last = p then { d with waiting := none } else d : MainDevice).cvs = d.cvs := by split <;> rfl
  have hl : (if d.last = p then { d with waiting := none } else d : MainDevice).last = d.last := by split <;> rfl
  have hn : (if d.last = p then { d with waiting := none } else d : MainDevice).count = d.count := by split <;> rfl
  unfold MainDevice.execute
  dsimp only
  rw [hc, hfor, if_pos rfl, hl, hn, ht.unlocked, ht.answering]
  have hw : (if d.last = p then (if d.last = p then { d with waiting := none } else d : MainDevice).waiting
      else none) = none := by split <;> simp_all
  rw [hw]
  generalize longAction (if d.last = p then d.count + 1 else 1) (afterAddress p) = l
  cases l with
  | none => rfl
  | some ka =>
    dsimp only
    rw [permitted_unlocked]
    simp

/-- Reading goes on like this. -/
theorem hear_verify {a : Address} (ha : LocoAddress a) {x : Access} (hx : x.Legal) {p : Packet}
    (hp : (pomCall .verify x).run a = .ok p) (n : Nat) : ∀ (d : MainDevice), Talks d.cvs a → d.last = p →
    d.waiting = some (valueIn d.cvs x) →
    (d.hearAll (List.replicate n p)).1.cvs = d.cvs ∧ (d.hearAll (List.replicate n p)).1.last = p ∧
      (d.hearAll (List.replicate n p)).2 = List.replicate n (.value (valueIn d.cvs x)) := by
  have hreq := (pom_packet ha .verify x hx hp).2.2.1
  induction n with
  | zero => intro d _ hl _; exact ⟨rfl, hl, rfl⟩
  | succ n ih =>
    intro d ht hl hw
    have hact : ∀ k, longAction k (afterAddress p) = some (.verify, x) := by
      intro k; unfold longAction; rw [hreq]
    rw [List.replicate_succ, MainDevice.hearAll, hear_pom ha hx hp ht]
    simp only [hact, stored, hl, if_true, hw]
    obtain ⟨h1, h2, h3⟩ := ih { cvs := d.cvs, last := p, count := d.count + 1, waiting := some (valueIn d.cvs x) }
      ht rfl rfl
    exact ⟨h1, h2, by rw [h3]; rfl⟩

/-- After a byte is written. -/
theorem hear_written_byte {a : Address} (ha : LocoAddress a) {cv : Nat} {b : Byte} (hx : (Access.byte cv b).Legal)
    {p : Packet} (hp : (pomCall .write (.byte cv b)).run a = .ok p) (n : Nat) : ∀ (d : MainDevice),
    Talks d.cvs a → d.last = p → 2 ≤ d.count → d.cvs (BitVec.ofNat 32 cv) = b → d.waiting = some b →
    (d.hearAll (List.replicate n p)).1.cvs = d.cvs ∧ (d.hearAll (List.replicate n p)).1.last = p ∧
      (d.hearAll (List.replicate n p)).2 = List.replicate n (.value b) := by
  have hreq := (pom_packet ha .write _ hx hp).2.2.1
  induction n with
  | zero => intro d _ hl _ _ _; exact ⟨rfl, hl, rfl⟩
  | succ n ih =>
    intro d ht hl hc hv hw
    have hact : longAction (d.count + 1) (afterAddress p) = some (.verify, .byte cv b) := by
      unfold longAction; rw [hreq]; dsimp only; rw [if_neg (by omega), if_neg (by omega)]
    rw [List.replicate_succ, MainDevice.hearAll, hear_pom ha hx hp ht]
    simp only [hl, if_true, hact, stored, hw, valueIn, hv]
    obtain ⟨h1, h2, h3⟩ := ih { cvs := d.cvs, last := p, count := d.count + 1, waiting := some b }
      ht rfl (by dsimp only; omega) hv rfl
    exact ⟨h1, h2, by rw [h3]; rfl⟩

/-- After a bit is written. -/
theorem hear_written_bit {a : Address} (ha : LocoAddress a) {cv pos : Nat} {b : Bool}
    (hx : (Access.bit cv b pos).Legal) {p : Packet} (hp : (pomCall .write (.bit cv b pos)).run a = .ok p)
    (n : Nat) : ∀ (d : MainDevice), Talks d.cvs a → d.last = p → 2 ≤ d.count →
    (d.hearAll (List.replicate n p)).1.cvs = d.cvs ∧ (d.hearAll (List.replicate n p)).1.last = p ∧
      (d.hearAll (List.replicate n p)).2 = if n = 0 then [] else d.waiting.toList.map .value := by
  have hreq := (pom_packet ha .write _ hx hp).2.2.1
  induction n with
  | zero => intro d _ hl _; exact ⟨rfl, hl, rfl⟩
  | succ n ih =>
    intro d ht hl hc
    have hact : longAction (d.count + 1) (afterAddress p) = none := by
      unfold longAction; rw [hreq]; dsimp only; rw [if_neg (by omega)]
    rw [List.replicate_succ, MainDevice.hearAll, hear_pom ha hx hp ht]
    simp only [hl, if_true, hact]
    obtain ⟨h1, h2, h3⟩ := ih { cvs := d.cvs, last := p, count := d.count + 1, waiting := none }
      ht rfl (by dsimp only; omega)
    refine ⟨h1, h2, ?_⟩
    rw [h3]
    simp

/-- A request. -/
theorem hear_request {a : Address} (ha : LocoAddress a) {r : PomRequest} (hr : r.Legal) {p : Packet}
    (hp : r.packet a = .ok p) {d : MainDevice} (ht : Talks d.cvs a) (hl : d.last ≠ p) :
    (d.hearAll (List.replicate r.times p)).1.cvs = stored d.cvs r.kind r.access ∧
      (d.hearAll (List.replicate r.times p)).1.last = p ∧
      (d.hearAll (List.replicate r.times p)).2 = r.messages d.cvs := by
  obtain ⟨k, x, times⟩ := r
  obtain ⟨hx, h1, h2⟩ := hr
  dsimp only [PomRequest.packet] at hp hx h1 h2 ⊢
  have hreq := (pom_packet ha k x hx hp).2.2.1
  obtain ⟨n, rfl⟩ : ∃ n, times = n + 1 := ⟨times - 1, by omega⟩
  rw [List.replicate_succ, MainDevice.hearAll, hear_pom ha hx hp ht]
  simp only [hl, if_false]
  unfold PomRequest.messages
  dsimp only
  cases k with
  | verify =>
    have hact : longAction 1 (afterAddress p) = some (.verify, x) := by unfold longAction; rw [hreq]
    simp only [hact, stored]
    obtain ⟨g1, g2, g3⟩ := hear_verify ha hx hp n
      { cvs := d.cvs, last := p, count := 1, waiting := some (valueIn d.cvs x) } ht rfl rfl
    exact ⟨g1, g2, by rw [g3]; rfl⟩
  | write =>
    obtain ⟨h2, h3⟩ := h2 rfl
    obtain ⟨n, rfl⟩ : ∃ m, n = m + 1 := ⟨n - 1, by omega⟩
    have hact : longAction 1 (afterAddress p) = none := by
      unfold longAction; rw [hreq]; cases x <;> simp
    have hact2 : longAction 2 (afterAddress p) = some (.write, x) := by
      rw [longAction_two, hreq]
    have ht2 : Talks (stored d.cvs .write x) a := talks_congr (stored_other d.cvs .write x fun _ => h3) ht
    simp only [hact]
    rw [List.replicate_succ, MainDevice.hearAll, hear_pom ha hx hp (by exact ht)]
    simp only [if_true, Nat.reduceAdd, hact2]
    cases x with
    | byte cv b =>
      have hv : stored d.cvs .write (.byte cv b) (BitVec.ofNat 32 cv) = b := if_pos rfl
      obtain ⟨g1, g2, g3⟩ := hear_written_byte ha hx hp n
        { cvs := stored d.cvs .write (.byte cv b), last := p, count := 2
          waiting := some (valueIn (stored d.cvs .write (.byte cv b)) (.byte cv b)) }
        ht2 rfl (by dsimp only; omega) hv (by simp only [valueIn, hv])
      exact ⟨g1, g2, by rw [g3]; rfl⟩
    | bit cv b pos =>
      obtain ⟨g1, g2, g3⟩ := hear_written_bit ha hx hp n
        { cvs := stored d.cvs .write (.bit cv b pos), last := p, count := 2
          waiting := some (valueIn (stored d.cvs .write (.bit cv b pos)) (.bit cv b pos)) }
        ht2 rfl (by dsimp only; omega)
      refine ⟨g1, g2, ?_⟩
      rw [g3]
      have hv : valueIn (stored d.cvs .write (.bit cv b pos)) (.bit cv b pos) = if b then 1#8 else 0#8 := by
        obtain ⟨-, hpos⟩ : cv < 1024 ∧ pos < 8 := hx
        have hset : ∀ (v : Byte) (pos : Fin 8) (b : Bool), (setBit v (BitVec.ofNat 32 pos) b).getLsbD pos = b := by
          decide +kernel
        have := hset (d.cvs (BitVec.ofNat 32 cv)) ⟨pos, hpos⟩ b
        dsimp only at this
        simp [valueIn, stored, applyWrite, this]
      rw [hv]
      cases n with
      | zero => rfl
      | succ n =>
        rw [if_neg (by omega)]
        have : min (n + 1 + 1 + 1 - 2) 1 = 1 := by omega
        rw [this]
        rfl

/-- Several requests. -/
theorem hear_requests {a : Address} (ha : LocoAddress a) : ∀ (rs : List PomRequest) (ps : List Packet)
    (d : MainDevice), (∀ r ∈ rs, r.Legal) → Changing rs → Talks d.cvs a →
    (∀ r ∈ rs.head?, .ok d.last ≠ r.packet a) →
    rs.flatMap (fun r => List.replicate r.times (r.packet a)) = ps.map .ok →
    (d.hearAll ps).1.cvs = pomCvs d.cvs rs ∧ (d.hearAll ps).2 = pomMessages d.cvs rs := by
  intro rs
  induction rs with
  | nil =>
    intro ps d _ _ _ _ h
    rw [List.flatMap_nil] at h
    have := (List.map_eq_nil_iff.mp h.symm)
    subst this
    exact ⟨rfl, rfl⟩
  | cons r rs ih =>
    intro ps d hleg hch ht hl h
    obtain ⟨p, hp⟩ := pom_some ha r.kind r.access
    have hp : r.packet a = .ok p := hp
    rw [List.flatMap_cons] at h
    obtain ⟨ps1, ps2, rfl, h1, h2⟩ := List.map_eq_append_iff.mp h.symm
    have hps1 : ps1 = List.replicate r.times p := by
      rw [hp] at h1
      have h3 : (List.replicate r.times p).map (Except.ok : Packet → R Packet) = List.replicate r.times (.ok p) := by simp
      rw [← h3] at h1
      exact (List.map_inj_right (fun _ _ h => Except.ok.inj h)).mp h1
    subst hps1
    have hr := hleg r (by simp)
    obtain ⟨g1, g2, g3⟩ := hear_request ha hr hp ht (by
      have := hl r (by simp)
      rw [hp] at this
      exact fun h => this (by rw [h]))
    rw [MainDevice.hearAll_append]
    obtain ⟨k1, k2⟩ := ih ps2 (d.hearAll (List.replicate r.times p)).1 (fun x hx => hleg x (by simp [hx]))
      (by cases rs with
          | nil => trivial
          | cons r' rs => exact hch.2)
      (by rw [g1]; exact talks_congr (stored_other _ _ _ fun hw => (hr.2.2 hw).2) ht)
      (by
        intro r' hr' hn
        cases rs with
        | nil => cases hr'
        | cons r'' rs =>
          cases hr'
          rw [g2] at hn
          exact hch.1 (pom_injective ha hr.1 (hleg r' (by simp)).1 hp hn.symm))
      h2.symm
    rw [g1] at k1 k2
    exact ⟨k1, by rw [g3, k2]; rfl⟩

end Dcc
