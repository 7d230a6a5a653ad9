import Verif.Lemmas.RxStep
/-! Lemmas about the mode, the hooks and the addresses of calls. -/
namespace Dcc
open Spec

/-- The calls for the locomotive made by an instruction carry its address. -/
theorem instruction_locoAddr (e : Env) (s s' : Rx) (addr : BitVec 16) (p : Packet) (bs : List Byte)
    (rand : Nat) (h : s.executeInstruction e addr p bs rand = .ok s') :
    Adds (fun ev => ∀ a, ev.locoAddr = some a → a = addr) s s' := by
  have hcv : ∀ ev : Event, ev.isCv = true → ∀ a, ev.locoAddr = some a → a = addr := by
    intro ev h1 a h2
    cases ev <;> first | (cases h1; done) | (cases h2; done)
  obtain ⟨b, -, hc⟩ := instruction_cases e s s' addr p bs rand h
  cases hc with
  | enter ha hb h => rw [h]; exact .emit s _ nofun
  | control _ _ h => rw [h]; exact .refl s
  | consist _ h => exact ((instr_consist e s bs).out _ h).adds.mono hcv
  | drives _ h =>
    obtain ⟨evs, m, rfl, hq⟩ := h
    exact ⟨evs, rfl, fun ev hev a ha => by rw [hq ev hev] at ha; cases ha; rfl⟩
  | searches _ _ _ h => obtain ⟨b, q, rfl⟩ := h; exact .of_eq rfl
  | cvLong _ h => exact ((instr_cvLong e s addr p bs).out _ h).adds.mono hcv
  | cvShort _ h => exact ((instr_cvShort e s addr p bs).out _ h).adds.mono hcv

theorem front_eq {s : Rx} {p : Packet} : front s = some p ↔
    s.packetEnd = false ∧ ∃ rest, s.deque = p :: rest := by
  unfold front
  cases hp : s.packetEnd <;> cases hd : s.deque <;> simp

theorem hooks_append (a b : List Event) : hooks (a ++ b) = hooks a ++ hooks b :=
  List.filterMap_append

theorem hooks_nil {evs : List Event} (h : ∀ ev ∈ evs, ∀ b, ev ≠ .serviceModeHook b) : hooks evs = [] := by
  unfold hooks
  rw [List.filterMap_eq_nil_iff]
  intro ev hev
  cases ev <;> first | rfl | exact absurd rfl (h _ hev _)

/-- Nothing about the mode happened. -/
def SameMode (s s' : Rx) : Prop := ∃ evs, s'.trace = s.trace ++ evs ∧ s'.mode = s.mode ∧ hooks evs = []

theorem SameMode.of_adds {P : Event → Prop} {s s' : Rx} (h : Adds P s s') (hm : s'.mode = s.mode)
    (hp : ∀ ev, P ev → ∀ b, ev ≠ .serviceModeHook b) : SameMode s s' := by
  obtain ⟨evs, h1, h2⟩ := h
  exact ⟨evs, h1, hm, hooks_nil fun ev hev => hp ev (h2 ev hev)⟩

theorem SameMode.trans {a b c : Rx} (h : SameMode a b) (g : SameMode b c) : SameMode a c := by
  obtain ⟨e1, t1, m1, h1⟩ := h
  obtain ⟨e2, t2, m2, h2⟩ := g
  exact ⟨e1 ++ e2, by rw [t2, t1, List.append_assoc], m2.trans m1, by rw [hooks_append, h1, h2]; rfl⟩

theorem cv_no_hook (ev : Event) (h : ev.isCv = true) (b : Bool) : ev ≠ .serviceModeHook b := by
  rintro rfl; cases h

theorem quiet_no_hook (ev : Event) (h : ev.isQuiet = true) (b : Bool) : ev ≠ .serviceModeHook b := by
  rintro rfl; cases h

theorem write_no_hook (ev : Event) (h : ev.isWrite = true) (b : Bool) : ev ≠ .serviceModeHook b := by
  rintro rfl; cases h

theorem transmit_no_hook (ev : Event) (h : ∃ bs, ev = .transmitBiDi bs) (b : Bool) :
    ev ≠ .serviceModeHook b := by
  obtain ⟨bs, rfl⟩ := h; exact nofun

theorem prepared_sameMode (e : Env) (s : Rx) (now : Int) : SameMode s (s.prepared e now) := by
  obtain ⟨evs, h1, h2⟩ := prepared_trace e s now
  exact ⟨evs, h1, (prepare_total e s now).2.mode,
    hooks_nil fun ev hev => write_no_hook ev (h2.writes ev hev)⟩

theorem instr_sameMode {s s' : Rx} (h : CvInstr s s') : SameMode s s' :=
  .of_adds h.adds h.mode cv_no_hook

theorem step_sameMode (e : Env) (s s' : Rx) (op : RxOp) (hroom : s.deque.length ≤ e.rxDeque)
    (h : s.step e op = .ok s') (hx : op.isExecute = false) : SameMode s s' := by
  cases op with
  | init => exact instr_sameMode ((cv_init e s).out _ h).instr
  | enable =>
    simp only [Rx.step, Rx.enable, Except.ok.injEq] at h
    subst h
    split <;> exact ⟨[], by simp, rfl, rfl⟩
  | disable =>
    simp only [Rx.step, Rx.disable, Except.ok.injEq] at h
    subst h
    split <;> exact ⟨[], by simp [Rx.reset], rfl, rfl⟩
  | receive t r =>
    have f := (receive_frame e s hroom t r).out _ h
    exact .of_adds f.adds f.mode quiet_no_hook
  | execute now rand => cases hx
  | datagram ds =>
    obtain ⟨q, b, rfl⟩ := datagram_eq e s s' ds h
    exact ⟨[], by simp, rfl, rfl⟩
  | biDiChannel1 =>
    simp only [Rx.step, Except.ok.injEq] at h
    obtain ⟨q, evs, h1, h2⟩ := channel1_adds s
    rw [← h, h1]
    exact ⟨evs, rfl, rfl, hooks_nil fun ev hev => transmit_no_hook ev (h2 ev hev)⟩
  | biDiChannel2 =>
    obtain ⟨q, evs, rfl, h2⟩ := (channel2_adds s).out _ h
    exact ⟨evs, rfl, rfl, hooks_nil fun ev hev => transmit_no_hook ev (h2 ev hev)⟩
  | callbackByte i v =>
    simp only [Rx.step] at h
    split at h
    · rw [callbackByte_eq] at h
      cases h
      exact instr_sameMode (CvFrame.answerByte ..).instr
    · cases h; exact ⟨[], by simp, rfl, rfl⟩
  | callbackBit i v =>
    simp only [Rx.step] at h
    split at h
    · rw [callbackBit_eq] at h
      cases h
      exact instr_sameMode (CvFrame.answerBit ..).instr
    · cases h; exact ⟨[], by simp, rfl, rfl⟩

theorem serviceMode_iff (s : Rx) : (s.serviceMode = true ↔ s.mode = .service) ∧
    (s.serviceMode = false ↔ s.mode = .operations) := by
  unfold Rx.serviceMode
  cases s.mode <;> simp

theorem nibble7 (b : Byte) : b &&& 0xF0#8 = 0x70#8 ↔ 112 ≤ b.toNat ∧ b.toNat ≤ 127 := by
  revert b; decide +kernel

theorem Spec.Alternates.snoc {b : Bool} {xs : List Bool} {x : Bool} (h : Alternates b xs)
    (hx : x = (xs.getLast?.map (!·)).getD b) : Alternates b (xs ++ [x]) := by
  induction xs generalizing b with
  | nil => exact ⟨by simpa using hx, trivial⟩
  | cons y ys ih =>
    refine ⟨h.1, ih h.2 ?_⟩
    rw [hx, h.1]
    cases ys with
    | nil => simp
    | cons z zs => simp [List.getLast?_cons]

/-- Executing a special operating modes packet, in full. -/
theorem special_execute (e : Env) (s : Rx) (now : Int) (rand n : Nat) (p : Packet) (b : Byte)
    (rest : List Byte) (hf : front s = some p) (hm : s.serviceMode = false)
    (hn : locoNumber p = some n) (ha : n = 0 ∨ Active s n)
    (hb : afterAddress p = 0x3E#8 :: b :: rest) :
    ∃ s' stores, s.execute e now rand = .ok (s', true) ∧ s'.man = b.getLsbD 7 ∧
      LogonStores s stores ∧ s'.trace = s.trace ++ stores ++
        (if e.eastWest then [.eastWestDirection (target s n) (some (b.getLsbD 6))] else []) := by
  obtain ⟨hpe, rest', hd⟩ := front_eq.mp hf
  obtain ⟨stores, ht, hs⟩ := prepared_trace e s now
  have h1 : (s.prepared e now).executeInstruction e (target s n) p (afterAddress p) rand =
      .ok ((s.prepared e now).specialOperatingModes e (target s n) b) := by
    rw [hb]; rfl
  rw [execute_for e s now rand n p rest' hpe hd hm hn ha, h1]
  refine ⟨_, stores, rfl, ?_, hs, ?_⟩
  · unfold Rx.specialOperatingModes Rx.popFront
    dsimp only
    cases e.eastWest
    · rfl
    · cases b.getLsbD 6 <;> rfl
  · rw [← ht]
    unfold Rx.specialOperatingModes Rx.popFront
    dsimp only
    cases e.eastWest
    · simp
    · cases b.getLsbD 6 <;> rfl

end Dcc
