import Verif.Lemmas.RxThrottle
import Verif.Spec.Stop
/-! What tells the user's class a speed. -/
namespace Dcc
open Spec

/-- The trace grows and these speeds are told. -/
def Tells (s s' : Rx) (vs : List (BitVec 16 × Int)) : Prop :=
  ∃ evs, s'.trace = s.trace ++ evs ∧ toldBy evs = vs

theorem Tells.refl (s : Rx) : Tells s s [] := ⟨[], by simp, rfl⟩

theorem Tells.of_eq {s s' : Rx} (h : s'.trace = s.trace) : Tells s s' [] := ⟨[], by simp [h], rfl⟩

theorem Tells.trans {a b c : Rx} {vs ws : List (BitVec 16 × Int)} (h : Tells a b vs) (g : Tells b c ws) :
    Tells a c (vs ++ ws) := by
  obtain ⟨e1, h1, rfl⟩ := h
  obtain ⟨e2, h2, rfl⟩ := g
  exact ⟨e1 ++ e2, by rw [h2, h1, List.append_assoc], by simp [toldBy]⟩

theorem Tells.then_nil {a b c : Rx} {vs : List (BitVec 16 × Int)} (h : Tells a b vs) (g : Tells b c []) :
    Tells a c vs := by
  simpa using h.trans g

theorem Tells.nil_then {a b c : Rx} {vs : List (BitVec 16 × Int)} (h : Tells a b []) (g : Tells b c vs) :
    Tells a c vs := h.trans g

theorem Tells.of_adds {P : Event → Prop} {s s' : Rx} (h : Adds P s s') (hp : ∀ ev, P ev → Event.told ev = none) :
    Tells s s' [] := by
  obtain ⟨evs, h1, h2⟩ := h
  exact ⟨evs, h1, List.filterMap_eq_nil_iff.mpr fun ev hev => hp ev (h2 ev hev)⟩

theorem Tells.emit (s : Rx) (ev : Event) : Tells s (s.emit ev) (toldBy [ev]) := ⟨[ev], rfl, rfl⟩

theorem Tells.calls {s s' : Rx} {vs : List (BitVec 16 × Int)} (h : Tells s s' vs) : toldBy (newCalls s s') = vs := by
  obtain ⟨evs, h1, h2⟩ := h
  rw [newCalls_append h1, h2]

theorem Tells.prefix {s s' : Rx} {vs : List (BitVec 16 × Int)} (h : Tells s s' vs) : s.trace <+: s'.trace := by
  obtain ⟨evs, h1, -⟩ := h
  rw [h1]; exact List.prefix_append _ _

theorem Tells.all {s s' : Rx} {vs : List (BitVec 16 × Int)} (h : Tells s s' vs) :
    toldBy s'.trace = toldBy s.trace ++ vs := by
  obtain ⟨evs, h1, rfl⟩ := h
  rw [h1]; simp [toldBy]

theorem told_cv (ev : Event) (h : ev.isCv = true) : Event.told ev = none := by
  cases ev <;> first | rfl | cases h

theorem told_write (ev : Event) (h : ev.isWrite = true) : Event.told ev = none := by
  cases ev <;> first | rfl | cases h

theorem told_transmit (ev : Event) (h : ∃ bs, ev = .transmitBiDi bs) : Event.told ev = none := by
  obtain ⟨bs, rfl⟩ := h; rfl

theorem tells_directionSpeed (s : Rx) (a : BitVec 16) (d : Bool) (v : Int) :
    Tells s (s.directionSpeed a d v) [(a, v)] := (Tells.emit s (.direction _ _)).nil_then (.emit _ (.speed _ _))

theorem tells_speed126 (s : Rx) (a : BitVec 16) (b : Byte) :
    ∃ v, Meets (b.toNat % 128) v ∧ Tells s (s.speed126 a b) [(a, v)] := by
  unfold Rx.speed126
  dsimp only
  split
  · rename_i h
    exact ⟨0, .inl ⟨by revert h b; decide +kernel, rfl⟩, tells_directionSpeed ..⟩
  split
  · rename_i h h'
    exact ⟨-1, .inr (.inl ⟨by revert h h' b; decide +kernel, rfl⟩), .emit _ _⟩
  · rename_i h h'
    exact ⟨_, .inr (.inr ⟨by revert h h' b; decide +kernel, by revert h h' b; decide +kernel⟩),
      tells_directionSpeed ..⟩

theorem tells_optFunctions (s : Rx) (a : BitVec 16) (bs : List Byte) (i : Nat) (m : BitVec 32) (sh : Nat) :
    Post (s.optFunctions a bs i m sh) (fun s' => Tells s s' []) := by
  unfold Rx.optFunctions
  split
  · split
    · exact Post.ok (.emit _ _)
    · exact Post.error
  · exact Post.ok (.refl _)

theorem tells_speedDirFunctions (s : Rx) (a : BitVec 16) (bs : List Byte) :
    Post (s.speedDirFunctions a bs) (fun s' => Tells s s' []) := by
  unfold Rx.speedDirFunctions
  refine Post.bind (tells_optFunctions ..) fun s1 h1 => ?_
  refine Post.bind (tells_optFunctions ..) fun s2 h2 => ?_
  refine Post.bind (tells_optFunctions ..) fun s3 h3 => ?_
  exact (tells_optFunctions ..).mono fun s4 h4 => ((h1.nil_then h2).nil_then h3).nil_then h4

theorem speedCode_cons (b : Byte) (rest : List Byte) : speedCode (b :: rest) =
    if b = 0x3F#8 ∨ b = 0x3C#8 then rest.head?.map fun v => v.toNat % 128
    else if 64 ≤ b.toNat ∧ b.toNat < 128 then some (b.toNat % 16) else none := rfl

/-- Which instruction bytes have a speed code. -/
theorem instruction_speed (b : Byte) :
    (decodeInstructionByte b = .speedDirection → 64 ≤ b.toNat ∧ b.toNat < 128) ∧
    (decodeInstructionByte b ≠ .speedDirection → ¬ (64 ≤ b.toNat ∧ b.toNat < 128)) ∧
    (decodeInstructionByte b ≠ .advancedOperations → b ≠ 0x3F#8 ∧ b ≠ 0x3C#8) := by
  revert b; decide +kernel

/-- The speed told is that of the speed code, and none is told without a speed code. -/
def Said (a : BitVec 16) (code : Option Nat) (s s' : Rx) : Prop :=
  match code with
  | none => Tells s s' []
  | some c => ∃ v, Meets c v ∧ Tells s s' [(a, v)]

theorem said_advanced (e : Env) (s : Rx) (a : BitVec 16) (bs : List Byte) (b : Byte) (rest : List Byte)
    (hb : bs = b :: rest) (hc : ¬ (64 ≤ b.toNat ∧ b.toNat < 128)) :
    Post (s.advancedOperations e a bs) (Said a (speedCode bs) s) := by
  subst hb
  unfold Rx.advancedOperations
  rw [byteAt_zero, ok_bind]
  have one : ∀ x, byteAt (b :: rest) 1 = .ok x → rest.head? = some x := by
    intro x hx
    cases rest with
    | nil => cases hx
    | cons y ys => cases hx; rfl
  split
  · rename_i h
    refine Post.bind (tells_speedDirFunctions ..) fun s1 h1 => ?_
    refine Post.bind (Q := fun x => rest.head? = some x) ⟨one⟩ fun x hx => Post.pure ?_
    obtain ⟨v, h2, h3⟩ := tells_speed126 s1 a x
    rw [speedCode_cons, if_pos (.inr h), hx]
    exact ⟨v, h2, h1.nil_then h3⟩
  split
  · rename_i h
    refine Post.bind (Q := fun x => rest.head? = some x) ⟨one⟩ fun x hx => Post.pure ?_
    rw [speedCode_cons, if_pos (.inl h), hx]
    exact tells_speed126 s a x
  rename_i h1 h2
  have hn : speedCode (b :: rest) = none := by
    rw [speedCode_cons, if_neg (by simp [h1, h2]), if_neg hc]
  rw [hn]
  split
  · refine Post.bind_any fun x => Post.pure ?_
    unfold Rx.specialOperatingModes
    dsimp only
    have h0 : Tells s { s with man := x.getLsbD 7 } [] := .of_eq rfl
    split
    · split
      · exact h0.nil_then (.emit _ _)
      split
      · exact h0.nil_then (.emit _ _)
      · exact h0.nil_then (.emit _ _)
    · exact h0
  · exact Post.ok (.refl _)

theorem said_speedAndDirection (s : Rx) (a : BitVec 16) (b : Byte) (rest : List Byte)
    (hb : 64 ≤ b.toNat ∧ b.toNat < 128) :
    Post (s.speedAndDirection a (b :: rest)) (Said a (speedCode (b :: rest)) s) := by
  have hc : speedCode (b :: rest) = some (b.toNat % 16) := by
    rw [speedCode_cons, if_neg (fun h => by rcases h with rfl | rfl <;> revert hb <;> decide), if_pos hb]
  rw [hc]
  unfold Rx.speedAndDirection
  rw [byteAt_zero, ok_bind]
  dsimp only
  split
  · rename_i h
    refine Post.ok ⟨-1, .inr (.inl ⟨?_, rfl⟩), .emit _ _⟩
    revert h; clear hb hc; revert b; decide +kernel
  rename_i h
  have h0 : b &&& 0x0F#8 = 0#8 → b.toNat % 16 = 0 := by clear hb hc h; revert b; decide +kernel
  have h2 : b &&& 0x0F#8 ≠ 0#8 → 2 ≤ b.toNat % 16 := by
    revert h; clear hb hc h0; revert b; decide +kernel
  split
  · refine Post.ok ⟨_, ?_, (Tells.emit s (.function a 1#32 _)).nil_then (tells_directionSpeed ..)⟩
    by_cases hz : b &&& 0x0F#8 = 0#8
    · rw [if_pos hz]
      exact .inl ⟨h0 hz, by decide⟩
    · rw [if_neg hz]
      refine .inr (.inr ⟨h2 hz, ?_⟩)
      revert h hz; clear hb hc h0 h2; revert b; decide +kernel
  · refine Post.ok ⟨_, ?_, tells_directionSpeed ..⟩
    by_cases hz : b &&& 0x0F#8 = 0#8
    · rw [if_pos hz]
      exact .inl ⟨h0 hz, by rw [if_neg (by simp)]; decide⟩
    · rw [if_neg hz]
      refine .inr (.inr ⟨h2 hz, ?_⟩)
      revert h hz; clear hb hc h0 h2; revert b; decide +kernel

theorem said_functionGroup (s : Rx) (a : BitVec 16) (bs : List Byte) :
    Post (s.functionGroup a bs) (fun s' => Tells s s' []) := by
  unfold Rx.functionGroup
  refine Post.bind_any fun b0 => ?_
  dsimp only
  generalize (if s.cfg.f0Exception then 0x1E#32 else 0x1F#32 : BitVec 32) = m
  repeat' split
  all_goals exact Post.ok (.emit _ _)

theorem said_featureExpansion (s : Rx) (a : BitVec 16) (bs : List Byte) (rand : Nat) :
    Post (s.featureExpansion a bs rand) (fun s' => Tells s s' []) := by
  have hs : ∀ {s' : Rx}, Searches s s' → Tells s s' [] := by
    rintro s' ⟨b, q, rfl⟩; exact .of_eq rfl
  have hb : ∀ (x : BitVec 32) (st : Bool), Post (s.binaryState x st rand) (fun s' => Tells s s' []) := by
    intro x st
    unfold Rx.binaryState
    split
    · exact (searches_tipOffSearch ..).mono fun _ => hs
    · exact Post.ok (.refl _)
  unfold Rx.featureExpansion
  refine Post.bind_any fun b0 => ?_
  split
  · exact Post.bind_any fun _ => Post.bind_any fun _ => hb _ _
  split
  · exact Post.bind_any fun _ => hb _ _
  split
  · exact Post.bind_any fun _ => Post.ok (.emit _ _)
  split
  · exact Post.bind_any fun _ => Post.ok (.emit _ _)
  · exact Post.ok (.refl _)

/-- What an instruction tells. -/
theorem said_instruction (e : Env) (s s' : Rx) (a : BitVec 16) (p : Packet) (bs : List Byte) (rand : Nat)
    (h : s.executeInstruction e a p bs rand = .ok s') : Said a (speedCode bs) s s' := by
  unfold Rx.executeInstruction decodeInstruction at h
  obtain _ | ⟨b, rest⟩ := bs
  · cases h
  rw [byteAt_zero] at h
  simp only [ok_bind, pure_eq_ok] at h
  have quiet : b ≠ 0x3F#8 → b ≠ 0x3C#8 → ¬ (64 ≤ b.toNat ∧ b.toNat < 128) → Tells s s' [] →
      Said a (speedCode (b :: rest)) s s' := by
    intro h1 h2 h3 h4
    rw [speedCode_cons, if_neg (by simp [h1, h2]), if_neg h3]
    exact h4
  cases hc : decodeInstructionByte b <;> rw [hc] at h <;> dsimp only at h
  case speedDirection =>
    exact (said_speedAndDirection s a b rest ((instruction_speed b).1 hc)).out _ h
  case advancedOperations =>
    exact (said_advanced e s a _ b rest rfl ((instruction_speed b).2.1 (by rw [hc]; nofun))).out _ h
  all_goals
    refine quiet ((instruction_speed b).2.2 (by rw [hc]; nofun)).1 ((instruction_speed b).2.2 (by rw [hc]; nofun)).2
      ((instruction_speed b).2.1 (by rw [hc]; nofun)) ?_
  case unknownService => cases h; exact .refl _
  case decoderControl =>
    split at h
    · split at h
      · cases h
        unfold Rx.setServiceMode
        repeat' split
        all_goals first | exact .refl _ | exact .of_eq rfl | exact (Tells.emit _ _)
      · cases h; exact .refl _
    · cases h; exact .refl _
  case consistControl => exact .of_adds ((instr_consist e s _).out _ h).adds told_cv
  case functionGroup => exact (said_functionGroup s a _).out _ h
  case featureExpansion => exact (said_featureExpansion s a _ rand).out _ h
  case cvLong => exact .of_adds ((instr_cvLong e s a p _).out _ h).adds told_cv
  case cvShort => exact .of_adds ((instr_cvShort e s a p _).out _ h).adds told_cv
  case logon => cases h; exact .refl _

theorem tells_prepared (e : Env) (s : Rx) (now : Int) : Tells s (s.prepared e now) [] := by
  obtain ⟨evs, ht, hst⟩ := prepared_trace e s now
  exact .of_adds (P := fun ev => ev.isWrite = true) ⟨evs, ht, hst.writes⟩ told_write

theorem tells_setServiceMode (s : Rx) (b : Bool) : Tells s (s.setServiceMode b) [] := by
  unfold Rx.setServiceMode
  repeat' split
  all_goals first | exact .refl _ | exact .of_eq rfl | exact (Tells.emit _ _)

/-- What `execute` tells. -/
theorem tells_execute (e : Env) (s s' : Rx) (hr : Reachable e s) (now : Int) (rand : Nat) (ret : Bool)
    (h : s.execute e now rand = .ok (s', ret)) :
    (∃ n bs c v, Obeys s n bs ∧ speedCode bs = some c ∧ Meets c v ∧ Tells s s' [(target s n, v)]) ∨
    (Tells s s' [] ∧ ∀ n bs, Obeys s n bs → speedCode bs = none) := by
  have pop : ∀ (x : Rx) {vs}, Tells s x vs → Tells s x.popFront vs := fun x _ hx => hx.then_nil (.of_eq rfl)
  rcases exec_cases e s s' now rand ret (fun p hp => by have := (hr.recvInv.valid p hp).1.min; omega) h with
    ⟨hi, rfl, -⟩ | ⟨p, rest, n, s2, hp, hd, hm, hn, hf, h1, rfl, -⟩ | ⟨p, rest, hp, hd, hm, hf, rfl, -⟩ |
    ⟨p, rest, s2, hp, hd, hm, h1, rfl⟩
  · refine .inr ⟨.refl _, ?_⟩
    rintro n bs ⟨p, hp, -⟩
    obtain ⟨h2, rest, h3⟩ := front_some hp
    rcases hi with hi | hi
    · rw [h2] at hi; cases hi
    · rw [h3] at hi; cases hi
  · have hs := said_instruction e _ s2 _ p _ rand h1
    have hfr : front s = some p := front_eq.mpr ⟨hp, rest, hd⟩
    cases hc : speedCode (afterAddress p) with
    | none =>
      rw [hc] at hs
      refine .inr ⟨pop _ ((tells_prepared e s now).nil_then hs), ?_⟩
      rintro n' bs ⟨q, hq, -, -, -, rfl⟩
      rw [hfr] at hq; cases hq
      exact hc
    | some c =>
      rw [hc] at hs
      obtain ⟨v, h2, h3⟩ := hs
      exact .inl ⟨n, _, c, v, ⟨p, hfr, hm, hn, hf, rfl⟩, hc, h2, pop _ ((tells_prepared e s now).nil_then h3)⟩
  · have hfr : front s = some p := front_eq.mpr ⟨hp, rest, hd⟩
    refine .inr ⟨pop _ (tells_prepared e s now), ?_⟩
    rintro n bs ⟨q, hq, -, hn, hact, -⟩
    rw [hfr] at hq; cases hq
    exact absurd ⟨n, hn, hact⟩ hf
  · refine .inr ⟨pop _ ((tells_prepared e s now).nil_then ?_), ?_⟩
    · rcases (service_cases e _ s2 p ret h1).1 with ⟨-, rfl⟩ | ⟨b, r, -, -, -, rfl⟩ | ⟨b, r, -, -, -, h2⟩ |
        ⟨b, r, -, -, -, h2⟩
      · exact .refl _
      · exact tells_setServiceMode _ _
      · rcases (cv_registerMode e _ p).out _ h2 with g | ⟨x, rfl⟩
        · exact .of_adds g.adds told_cv
        · exact .of_eq rfl
      · exact .of_adds ((instr_cvLong e _ _ p _).out _ h2).adds told_cv
    · rintro n bs ⟨q, -, hm', -⟩
      rw [hm] at hm'; cases hm'

/-- Calls other than `execute` tell nothing. -/
theorem tells_other (e : Env) (s s' : Rx) (hr : Reachable e s) (op : RxOp) (hx : op.isExecute = false)
    (h : s.step e op = .ok s') : Tells s s' [] := by
  cases op with
  | execute => cases hx
  | init => exact .of_adds ((cv_init e s).out _ h).adds told_cv
  | enable =>
    simp only [Rx.step, Rx.enable, Except.ok.injEq] at h
    subst h
    split <;> exact .of_eq rfl
  | disable =>
    simp only [Rx.step, Rx.disable, Except.ok.injEq] at h
    subst h
    split <;> exact .of_eq rfl
  | receive t r =>
    have f := (receive_frame e s hr.recvInv.room t r).out _ h
    exact .of_adds f.adds fun ev hev => told_cv ev (Event.isCv_of_quiet hev)
  | datagram ds =>
    obtain ⟨q, b, rfl⟩ := datagram_eq e s s' ds h
    exact .of_eq rfl
  | biDiChannel1 =>
    simp only [Rx.step, Except.ok.injEq] at h
    obtain ⟨q, evs, h1, h2⟩ := channel1_adds s
    rw [← h, h1]
    exact .of_adds (P := fun ev => ∃ bs, ev = .transmitBiDi bs) ⟨evs, rfl, h2⟩ told_transmit
  | biDiChannel2 =>
    obtain ⟨q, evs, rfl, h2⟩ := (channel2_adds s).out _ h
    exact .of_adds (P := fun ev => ∃ bs, ev = .transmitBiDi bs) ⟨evs, rfl, h2⟩ told_transmit
  | callbackByte i v =>
    simp only [Rx.step] at h
    split at h
    · rw [callbackByte_eq] at h
      cases h
      exact .of_adds (CvFrame.answerByte ..).adds told_cv
    · cases h; exact .refl _
  | callbackBit i v =>
    simp only [Rx.step] at h
    split at h
    · rw [callbackBit_eq] at h
      cases h
      exact .of_adds (CvFrame.answerBit ..).adds told_cv
    · cases h; exact .refl _

/-- What one call tells, as one predicate. -/
theorem tells_step (e : Env) (s s' : Rx) (hr : Reachable e s) (op : RxOp) (h : s.step e op = .ok s') :
    (op.isExecute = true ∧ ∃ n bs c v, Obeys s n bs ∧ speedCode bs = some c ∧ Meets c v ∧
      Tells s s' [(target s n, v)]) ∨ Tells s s' [] := by
  cases hx : op.isExecute with
  | false => exact .inr (tells_other e s s' hr op hx h)
  | true =>
    cases op <;> try cases hx
    rename_i now rand
    simp only [Rx.step, bind_eq_ok, pure_eq_ok, Except.ok.injEq] at h
    obtain ⟨⟨z, ret⟩, h1, rfl⟩ := h
    rcases tells_execute e s z hr now rand ret h1 with ⟨n, bs, c, v, h2, h3, h4, h5⟩ | ⟨h2, -⟩
    · exact .inl ⟨rfl, n, bs, c, v, h2, h3, h4, h5⟩
    · exact .inr h2

theorem run_prefix (e : Env) (ops : List RxOp) : ∀ (s s' : Rx), Reachable e s → s.run e ops = .ok s' →
    s.trace <+: s'.trace := by
  induction ops with
  | nil => intro s s' _ h; cases h; exact List.prefix_rfl
  | cons op ops ih =>
    intro s s' hr h
    rw [Rx.run, bind_eq_ok] at h
    obtain ⟨z, h1, h2⟩ := h
    refine List.IsPrefix.trans ?_ (ih z s' (hr.step op h1) h2)
    rcases tells_step e s z hr op h1 with ⟨-, n, bs, c, v, -, -, -, h3⟩ | h3 <;> exact h3.prefix

theorem standing_append {tr : List Event} {evs : List Event} (h : Standing tr)
    (he : ∀ x ∈ toldBy evs, x.2 ≤ 0) : Standing (tr ++ evs) := by
  intro v hv
  unfold lastTold toldBy at hv
  rw [List.filterMap_append] at hv
  cases hl : (toldBy evs).getLast? with
  | none =>
    have : toldBy evs = [] := List.getLast?_eq_none_iff.mp hl
    unfold toldBy at this
    rw [this, List.append_nil] at hv
    exact h v hv
  | some x =>
    have hm := List.mem_of_getLast? hl
    unfold toldBy at hl
    rw [List.getLast?_append, hl] at hv
    simp only [Option.some_or, Option.map_some, Option.some.injEq] at hv
    rw [← hv]
    exact he x hm

theorem lastTold_append {tr evs : List Event} (he : toldBy evs ≠ []) : lastTold (tr ++ evs) = lastTold evs := by
  unfold lastTold
  have : toldBy (tr ++ evs) = toldBy tr ++ toldBy evs := by simp [toldBy]
  rw [this, List.getLast?_append]
  cases hl : (toldBy evs).getLast? with
  | none => exact absurd (List.getLast?_eq_none_iff.mp hl) he
  | some x => rfl

end Dcc
