import Verif.Spec.Paged
/-! Sessions in register and page mode of the abstract decoder. -/
namespace Dcc
open Spec

theorem andThen_some {d d1 : Decoder} {c1 c2 : List Event} {f : Decoder → Outcome} (h : f d = some (d1, c2)) :
    Outcome.andThen (some (d, c1)) f = some (d1, c1 ++ c2) := by
  show (f d).map _ = _
  rw [h]
  rfl

theorem executeAll_some {ew : Bool} {xs ys : List Packet} {d d1 d2 : Decoder} {c1 c2 : List Event}
    (h1 : d.executeAll ew xs = some (d1, c1)) (h2 : d1.executeAll ew ys = some (d2, c2)) :
    d.executeAll ew (xs ++ ys) = some (d2, c1 ++ c2) := by
  induction xs generalizing d c1 with
  | nil => cases h1; exact h2
  | cons p xs ih =>
    have h1 : (d.execute ew p).andThen (fun d => d.executeAll ew xs) = some (d1, c1) := h1
    show (d.execute ew p).andThen (fun d => d.executeAll ew (xs ++ ys)) = _
    cases h : d.execute ew p with
    | none => rw [h] at h1; cases h1
    | some x =>
      rw [h] at h1
      have h1 : (x.1.executeAll ew xs).map (fun y => (y.1, x.2 ++ y.2)) = some (d1, c1) := h1
      cases hy : x.1.executeAll ew xs with
      | none => rw [hy] at h1; cases h1
      | some y =>
        rw [hy] at h1
        cases h1
        rw [andThen_some (d := x.1) (c1 := x.2) (ih hy), List.append_assoc]

theorem executeAll_same {ew : Bool} {d : Decoder} {p : Packet} (h : d.execute ew p = some (d, [])) (n : Nat) :
    d.executeAll ew (List.replicate n p) = some (d, []) := by
  induction n with
  | zero => rfl
  | succ n ih =>
    rw [List.replicate_succ]
    show (d.execute ew p).andThen _ = _
    rw [h]
    exact andThen_some ih

theorem execute_reset {ew : Bool} {d : Decoder} (h : d.service = true) : d.execute ew resetBytes = some (d, []) := by
  unfold Decoder.execute
  rw [if_pos h]
  rfl

theorem serve_register (d : Decoder) (w : Bool) (reg : Nat) (hr : reg < 8) (v : Byte) (ew : Bool) (hd : d.service = true) :
    d.execute ew (registerBytes w reg v) = d.register w reg v := by
  unfold Decoder.execute
  rw [if_pos hd]
  have h : ∀ w : Bool, ∀ reg : Fin 8, let b := BitVec.ofNat 8 (112 + (if w then 8 else 0) + reg.val)
      b ≠ 0#8 ∧ b.toNat / 16 = 7 ∧ b.getLsbD 3 = w ∧ b.toNat % 8 = reg.val := by decide
  obtain ⟨h1, h2, h3, h4⟩ := h w ⟨reg, hr⟩
  dsimp only at h1 h2 h3 h4
  unfold registerBytes Decoder.serve
  dsimp only
  rw [if_neg h1, if_neg (by omega), h3, h4]

theorem access_performed {d : Decoder} (hd : d.service = true) {k : Kind} {a : Access}
    (h : HasAddress (performed d.cvs k a).1) :
    d.access k a = some ({ d with cvs := (performed d.cvs k a).1 }, (performed d.cvs k a).2) := by
  unfold Decoder.access performed
  unfold performed at h
  by_cases hp : permitted (locks d.cvs) k a = true
  · rw [if_pos hp] at h
    rw [if_pos hp, if_pos hp, if_neg (by rintro ⟨-, -, h1⟩; exact h1 h)]
    simp [hd]
  · rw [if_neg hp, if_neg hp]

theorem registerCv_pageCv {page : Byte} {reg : Nat} (hp : page ≠ 0#8) (hr : reg < 4) :
    pageCv page reg = 4 * (page.toNat - 1) + reg := by
  have h1 := page.isLt
  have h2 : page.toNat ≠ 0 := fun h => hp (BitVec.eq_of_toNat_eq h)
  unfold pageCv
  omega

/-- A register mode packet is the access to the CV the register shows. -/
theorem register_access {d : Decoder} {ew : Bool} (hd : d.service = true) {k : Kind} {reg : Nat} {v page : Byte}
    (h : reg < 4 ∧ d.page = page ∧ page ≠ 0#8 ∨ reg = 4 ∨ reg = 6 ∨ reg = 7) :
    d.execute ew (registerBytes (k = .write) reg v) = d.access k (.byte ((registerCv page reg).getD 0) v) := by
  rw [serve_register _ _ _ (by omega) _ _ hd]
  have hk : (if decide (k = .write) = true then Kind.write else .verify) = k := by cases k <;> rfl
  unfold Decoder.register registerCv
  dsimp only
  rw [hk]
  rcases h with ⟨h1, rfl, h3⟩ | rfl | rfl | rfl
  · rw [if_pos h1, if_pos h1, registerCv_pageCv h3 h1]; rfl
  · rfl
  · rfl
  · rfl

theorem performed_idem (c : BitVec 32 → Byte) (k : Kind) (cv : Nat) (v : Byte) :
    (performed (performed c k (.byte cv v)).1 k (.byte cv v)).1 = (performed c k (.byte cv v)).1 := by
  unfold performed
  by_cases h : permitted (locks c) k (.byte cv v) = true
  · simp only [if_pos h]
    split
    · cases k with
      | verify => rfl
      | write =>
        funext x
        show (if x = _ then v else if x = _ then v else c x) = (if x = _ then v else c x)
        split <;> rfl
    · rfl
  · simp only [if_neg h]

theorem performedTimes_cvs (c : BitVec 32 → Byte) (k : Kind) (cv : Nat) (v : Byte) (n : Nat) :
    (performedTimes c k (.byte cv v) (n + 1)).1 = (performed c k (.byte cv v)).1 := by
  induction n generalizing c with
  | zero => rfl
  | succ n ih =>
    rw [performedTimes, ih]
    exact performed_idem c k cv v

theorem performed_ack (c : BitVec 32 → Byte) (k : Kind) (cv : Nat) (v : Byte)
    (h : .serviceAck ∈ (performed (performed c k (.byte cv v)).1 k (.byte cv v)).2) :
    .serviceAck ∈ (performed c k (.byte cv v)).2 := by
  by_cases hp : permitted (locks c) k (.byte cv v) = true
  · have hc : performed c k (.byte cv v) = (stored c k (.byte cv v), accessCall c k (.byte cv v) ::
        if acknowledged c k (.byte cv v) then [.serviceAck] else []) := by unfold performed; rw [if_pos hp]
    cases k with
    | write => rw [hc]; simp [acknowledged]
    | verify => rw [hc] at h; exact h
  · have hc : performed c k (.byte cv v) = (c, []) := by unfold performed; rw [if_neg hp]
    rw [hc] at h ⊢
    dsimp only at h
    rw [hc] at h
    exact h

theorem performedTimes_ack (c : BitVec 32 → Byte) (k : Kind) (cv : Nat) (v : Byte) (n : Nat) :
    .serviceAck ∈ (performedTimes c k (.byte cv v) (n + 1)).2 ↔ .serviceAck ∈ (performed c k (.byte cv v)).2 := by
  induction n generalizing c with
  | zero => simp [performedTimes]
  | succ n ih =>
    rw [performedTimes, List.mem_append, ih]
    exact ⟨fun h => h.elim id (performed_ack c k cv v), .inl⟩

theorem execute_times {ew : Bool} {k : Kind} {reg : Nat} {v page : Byte} (n : Nat) (d : Decoder)
    (hd : d.service = true) (h : reg < 4 ∧ d.page = page ∧ page ≠ 0#8 ∨ reg = 4 ∨ reg = 6 ∨ reg = 7)
    (ha : HasAddress (performed d.cvs k (.byte ((registerCv page reg).getD 0) v)).1) :
    d.executeAll ew (List.replicate n (registerBytes (k = .write) reg v)) =
      some ({ d with cvs := (performedTimes d.cvs k (.byte ((registerCv page reg).getD 0) v) n).1 },
        (performedTimes d.cvs k (.byte ((registerCv page reg).getD 0) v) n).2) := by
  induction n generalizing d with
  | zero => rfl
  | succ n ih =>
    rw [List.replicate_succ]
    show (d.execute ew _).andThen _ = _
    rw [register_access hd h, access_performed hd ha]
    exact andThen_some (ih { d with cvs := _ } hd h (by dsimp only; rw [performed_idem]; exact ha))

theorem execute_presets {ew : Bool} (v : Byte) (n : Nat) (d : Decoder) (hd : d.service = true) :
    d.executeAll ew (List.replicate n (registerBytes true 5 v)) =
      some ({ d with page := if n = 0 then d.page else v }, []) := by
  induction n generalizing d with
  | zero => rfl
  | succ n ih =>
    rw [List.replicate_succ]
    show (d.execute ew _).andThen _ = _
    rw [serve_register _ _ _ (by omega) _ _ hd]
    have : d.register true 5 v = some ({ d with page := v }, []) := rfl
    rw [this]
    have h := ih { d with page := v } hd
    rw [andThen_some h]
    simp

/-- One request. -/
theorem execute_request {ew : Bool} (r : RegisterRequest) (hr : r.Legal) (d : Decoder) (hd : d.service = true)
    (ha : HasAddress (performed d.cvs r.direct.kind r.direct.access).1) :
    ∃ page, d.executeAll ew r.packets =
      some ({ d with cvs := (performedTimes d.cvs r.direct.kind r.direct.access r.times).1, page := page },
        (performedTimes d.cvs r.direct.kind r.direct.access r.times).2) := by
  refine ⟨if r.presets = 0 then d.page else r.page, ?_⟩
  unfold RegisterRequest.packets
  have h1 := execute_presets (ew := ew) r.page r.presets d hd
  have h2 := executeAll_some h1 (executeAll_same (execute_reset (by exact hd)) r.gap)
  have h3 := executeAll_some h2 (execute_times (k := r.kind) (reg := r.reg) (v := r.value) (page := r.page) r.times _ hd (by
    rcases hr.2 with ⟨h, h', h''⟩ | h
    · exact .inl ⟨h, by rw [if_neg (by omega)], h''⟩
    · exact .inr h) ha)
  have h4 := executeAll_some h3 (executeAll_same (execute_reset (by exact hd)) r.resets)
  rw [h4]
  simp [RegisterRequest.direct]

theorem execute_requests {ew : Bool} (rs : List RegisterRequest) (hr : ∀ r ∈ rs, r.Legal) (d : Decoder)
    (hd : d.service = true) (ha : AddressKept d.cvs (rs.map RegisterRequest.direct)) :
    ∃ page, d.executeAll ew (rs.flatMap RegisterRequest.packets) =
      some ({ d with cvs := (performRegisters d.cvs rs).1, page := page },
        (performRegisters d.cvs rs).2.flatten) := by
  induction rs generalizing d with
  | nil => exact ⟨d.page, rfl⟩
  | cons r rs ih =>
    obtain ⟨ha1, ha2⟩ := ha
    have hl := hr r List.mem_cons_self
    obtain ⟨n, hn⟩ : ∃ n, r.times = n + 1 := ⟨r.times - 1, by have := hl.1; omega⟩
    have hc : (performedTimes d.cvs r.direct.kind r.direct.access r.times).1 =
        (performed d.cvs r.direct.kind r.direct.access).1 := by rw [hn]; exact performedTimes_cvs ..
    obtain ⟨pg, h1⟩ := execute_request (ew := ew) r hl d hd ha1
    obtain ⟨pg', h2⟩ := ih (fun x hx => hr x (List.mem_cons_of_mem _ hx))
      { d with cvs := (performedTimes d.cvs r.direct.kind r.direct.access r.times).1, page := pg } hd
      (by dsimp only; rw [hc]; exact ha2)
    refine ⟨pg', ?_⟩
    rw [List.flatMap_cons, executeAll_some h1 h2]
    rfl

theorem performRegisters_eq (rs : List RegisterRequest) (hr : ∀ r ∈ rs, r.Legal) (c : BitVec 32 → Byte) :
    (performRegisters c rs).1 = (performAll c (rs.map RegisterRequest.direct)).1 ∧
      answers (performRegisters c rs).2 = answers (performAll c (rs.map RegisterRequest.direct)).2 := by
  induction rs generalizing c with
  | nil => exact ⟨rfl, rfl⟩
  | cons r rs ih =>
    have hl := hr r List.mem_cons_self
    obtain ⟨n, hn⟩ : ∃ n, r.times = n + 1 := ⟨r.times - 1, by have := hl.1; omega⟩
    have hc : (performedTimes c r.direct.kind r.direct.access r.times).1 =
        (performed c r.direct.kind r.direct.access).1 := by rw [hn]; exact performedTimes_cvs ..
    obtain ⟨h1, h2⟩ := ih (fun x hx => hr x (List.mem_cons_of_mem _ hx)) (performed c r.direct.kind r.direct.access).1
    have e1 : performRegisters c (r :: rs) = ((performRegisters (performedTimes c r.direct.kind r.direct.access r.times).1 rs).1,
      (performedTimes c r.direct.kind r.direct.access r.times).2 ::
        (performRegisters (performedTimes c r.direct.kind r.direct.access r.times).1 rs).2) := rfl
    have e2 : performAll c ((r :: rs).map RegisterRequest.direct) =
      ((performAll (performed c r.direct.kind r.direct.access).1 (rs.map RegisterRequest.direct)).1,
        (performed c r.direct.kind r.direct.access).2 ::
          (performAll (performed c r.direct.kind r.direct.access).1 (rs.map RegisterRequest.direct)).2) := rfl
    rw [e1, e2, hc]
    refine ⟨h1, ?_⟩
    show decide _ :: answers _ = decide _ :: answers _
    rw [h2, hn]
    congr 1
    exact decide_eq_decide.mpr (performedTimes_ack ..)

end Dcc
