import Verif.Lemmas.RxPomExact
import Verif.Props.RxBidi
/-!
C47: the answers to CV accesses.
-/
namespace Dcc
open Spec

/-- The decoder's state agrees with what it deals with. -/
private structure Agrees (d : Dealing) (s : Rx) : Prop where
  packet : d.packet = s.lastOwnCvPacket
  count : d.count = s.ownEqualCvPackets
  pom : isLongAccess d.packet = true → s.q.pom = d.waiting.toList.map pomBytes
  obtained : ∀ v, d.waiting = some v → v ∈ d.values

private theorem agrees_callback {d : Dealing} {s s' : Rx} {i : Nat} {right : Bool} {v : Byte}
    (ha : Agrees d s) (hlast : s'.lastOwnCvPacket = s.lastOwnCvPacket)
    (hnum : s'.ownEqualCvPackets = s.ownEqualCvPackets)
    (hu : (s.serviceMode || d.callbacks.contains i) = true)
    (hval : s'.q.pom = if right && !s.serviceMode && s.cfg.ch2DataEnabled then [pomBytes v] else s.q.pom) :
    Agrees (d.callback s i right v) s' := by
  have same : s'.q.pom = s.q.pom → Agrees d s' := fun h =>
    ⟨ha.packet.trans hlast.symm, ha.count.trans hnum.symm, fun hl => h.trans (ha.pom hl), ha.obtained⟩
  unfold Dealing.callback
  cases hs : s.serviceMode
  · rw [hs, Bool.false_or] at hu
    rw [hs] at hval
    rw [hu]
    cases right
    · exact same hval
    · refine ⟨ha.packet.trans hlast.symm, ha.count.trans hnum.symm, fun hl => ?_, fun w hw => ?_⟩
      · rw [hval]
        cases hc : s.cfg.ch2DataEnabled
        · have := ha.pom hl
          simpa [hc] using this
        · simp
      · cases hc : s.cfg.ch2DataEnabled
        · refine List.mem_append_left _ (ha.obtained w ?_)
          simpa [hc] using hw
        · refine List.mem_append_right _ ?_
          have : v = w := by simpa [hc] using hw
          rw [this]; exact List.mem_singleton.mpr rfl
  · rw [hs] at hval
    cases right <;> exact same hval

private theorem cutout_isLong {s : Rx} (hc : cutout s = .cv) : isLongAccess s.link.packet = true := by
  unfold cutout at hc
  cases hx : isLongAccess s.link.packet
  · rw [hx] at hc
    simp only [Bool.false_eq_true, if_false] at hc
    split at hc
    · cases hc
    · split at hc
      · cases hc
      · split at hc <;> cases hc
    · split at hc
      · cases hc
      · split at hc <;> cases hc
    · cases hc
    · cases hc
  · rfl

private theorem cvRequest_loco {s : Rx} {p : Packet} (hm : s.serviceMode = false)
    (h : cvRequest s p = true) : ∃ n, locoNumber p = some n := by
  unfold cvRequest at h
  rw [hm] at h
  simp only [Bool.false_eq_true, if_false] at h
  split at h
  · cases h
  · rename_i n hn
    exact ⟨n, hn⟩

private theorem agrees_step (e : Env) (s s' : Rx) (op : RxOp) (d : Dealing) (hr : Reachable e s)
    (ha : Agrees d s) (hu : undisturbing d s op = true) (h : s.step e op = .ok s') :
    Agrees (d.step e s s' op) s' := by
  have hcount := step_count e s s' op hr h
  have same : (d.step e s s' op) = d → op.isExecute = false → s'.q.pom = s.q.pom →
      Agrees (d.step e s s' op) s' := by
    intro h1 h2 h3
    rw [h1]
    rw [h2] at hcount
    exact ⟨ha.packet.trans (congrArg Prod.fst hcount).symm, ha.count.trans (congrArg Prod.snd hcount).symm,
      fun hl => h3.trans (ha.pom hl), ha.obtained⟩
  cases op with
  | execute now rand =>
    have h' := h
    simp only [Rx.step, bind_eq_ok, pure_eq_ok, Except.ok.injEq] at h'
    obtain ⟨⟨s1, ret⟩, h1, rfl⟩ := h'
    have hp := execute_pom e s s1 now rand ret hr.lengths h1
    have old : d.step e s s1 (.execute now rand) = d → s1.cvCount = s.cvCount →
        s1.q.pom = s.q.pom → Agrees (d.step e s s1 (.execute now rand)) s1 := by
      intro h1 h2 h3
      rw [h1]
      exact ⟨ha.packet.trans (congrArg Prod.fst h2).symm, ha.count.trans (congrArg Prod.snd h2).symm,
        fun hl => h3.trans (ha.pom hl), ha.obtained⟩
    cases hf : front s with
    | none =>
      rw [hf] at hcount
      refine old ?_ hcount ?_
      · unfold Dealing.step; rw [hf]
      · cases hp with
        | same h _ => exact h
        | consist p hf' _ _ _ => rw [hf] at hf'; cases hf'
        | cv p hf' _ _ => rw [hf] at hf'; cases hf'
    | some p =>
      rw [hf] at hcount
      cases hq : cvRequest s p
      · refine old ?_ ?_ ?_
        · unfold Dealing.step; rw [hf]; dsimp only; rw [hq, if_neg Bool.false_ne_true]
        · rw [hcount]; simp [hq, RxOp.isExecute]
        · cases hp with
          | same h _ => exact h
          | consist p' hf' hc _ _ =>
            rw [hf] at hf'; cases hf'
            simp [undisturbing, hf, hc] at hu
          | cv p' hf' hc _ => rw [hf] at hf'; cases hf'; rw [hq] at hc; cases hc
      · have hd : d.step e s s1 (.execute now rand) = d.execute e s s1 p := by
          unfold Dealing.step; rw [hf]; dsimp only; rw [hq, if_pos rfl]
        rw [hd]
        have hcount : s1.cvCount = countPacket s.cvCount p := by
          rw [hcount]
          simp [RxOp.isExecute, hq]
        have hn : (if p = d.packet then d.count + 1 else 1) = (countPacket s.cvCount p).2 := by
          rw [ha.packet, ha.count]
          unfold countPacket Rx.cvCount
          by_cases he : p = s.lastOwnCvPacket
          · rw [if_pos he, if_pos he.symm]
          · rw [if_neg he, if_neg (Ne.symm he)]
        constructor
        · show p = s1.cvCount.1
          rw [hcount]
          unfold countPacket
          split
          · rename_i h; exact h.symm
          · rfl
        · show (if p = d.packet then d.count + 1 else 1) = s1.cvCount.2
          rw [hcount, hn]
        · intro hl
          show _ = (Option.toList (if answersNow e s (if p = d.packet then d.count + 1 else 1) p
            then (values p (newCalls s s1)).getLast?
            else if p = d.packet then d.waiting else none)).map pomBytes
          rw [hn]
          have base : s.pomBase p = (if p = d.packet then d.waiting else none).toList.map pomBytes := by
            unfold Rx.pomBase
            rw [← ha.packet]
            by_cases he : p = d.packet
            · rw [if_pos he, if_pos he]
              exact ha.pom (he ▸ hl)
            · rw [if_neg he, if_neg he]; rfl
          cases hm : s.serviceMode
          · have hl' : ∀ b, (afterAddress p).head? = some b → b.toNat < 240 := by
              intro b hb
              obtain ⟨n, hn⟩ := cvRequest_loco hm hq
              have hl : isLongAccess p = true := hl
              rw [isLongAccess, instructionByte_eq p n hn, hb, Option.any_some] at hl
              simp only [Bool.and_eq_true, decide_eq_true_eq] at hl
              exact hl.2
            rw [execute_pom_exact e s s1 now rand ret p hr.lengths hm hf hq hl' h1, base]
            split <;> rfl
          · have : answersNow e s (countPacket s.cvCount p).2 p = false := by
              unfold answersNow; rw [hm]; rfl
            rw [this, if_neg Bool.false_ne_true, ← base]
            cases hp with
            | same _ hc => rw [hc p hf] at hq; cases hq
            | consist p' hf' _ hc _ => rw [hf] at hf'; cases hf'; rw [hq] at hc; cases hc
            | cv p' hf' hc h =>
              rw [hf] at hf'; cases hf'
              rcases h with h | ⟨hm', -⟩
              · exact h
              · rw [hm] at hm'; cases hm'
        · intro v hv
          show v ∈ (if p = d.packet then d.values else []) ++
            (if s.serviceMode then [] else values p (newCalls s s1))
          have hv : (if answersNow e s (if p = d.packet then d.count + 1 else 1) p
            then (values p (newCalls s s1)).getLast? else if p = d.packet then d.waiting else none) =
              some v := hv
          by_cases hx : answersNow e s (if p = d.packet then d.count + 1 else 1) p = true
          · rw [if_pos hx] at hv
            have hm : s.serviceMode = false := by
              unfold answersNow at hx
              simp only [Bool.and_eq_true, Bool.not_eq_true'] at hx
              exact hx.1.1
            rw [hm]
            exact List.mem_append_right _ (List.mem_of_getLast? hv)
          · rw [if_neg hx] at hv
            by_cases he : p = d.packet
            · rw [if_pos he] at hv
              rw [if_pos he]
              exact List.mem_append_left _ (ha.obtained v hv)
            · rw [if_neg he] at hv; cases hv
  | callbackByte i v =>
    have hlast : s'.cvCount = s.cvCount := hcount
    simp only [Rx.step] at h
    refine agrees_callback ha (congrArg Prod.fst hlast) (congrArg Prod.snd hlast) hu ?_
    split at h
    · rename_i b hb
      rw [callbackByte_eq] at h
      cases h
      rw [hb]
      unfold Rx.answerByte
      cases hs : s.serviceMode
      · cases hc : s.cfg.ch2DataEnabled <;> rfl
      · rw [if_pos rfl]
        split <;> rfl
    · rename_i hb
      cases h
      have : s.callbacks[i]?.any forByte = false := by
        cases hx : s.callbacks[i]? with
        | none => rfl
        | some c =>
          cases c with
          | byte b => exact absurd hx (hb b)
          | bit b => rfl
      rw [this]; rfl
  | callbackBit i v =>
    have hlast : s'.cvCount = s.cvCount := hcount
    simp only [Rx.step] at h
    refine agrees_callback ha (congrArg Prod.fst hlast) (congrArg Prod.snd hlast) hu ?_
    split at h
    · rename_i b hb
      rw [callbackBit_eq] at h
      cases h
      rw [hb]
      unfold Rx.answerBit
      cases hs : s.serviceMode
      · cases hc : s.cfg.ch2DataEnabled <;> rfl
      · rw [if_pos rfl]
        split <;> rfl
    · rename_i hb
      cases h
      have : (s.callbacks[i]?.any fun c => !forByte c) = false := by
        cases hx : s.callbacks[i]? with
        | none => rfl
        | some c =>
          cases c with
          | byte b => rfl
          | bit b => exact absurd hx (hb b)
      rw [this]; rfl
  | init =>
    refine same rfl rfl ?_
    obtain ⟨cv29, prim, a, v, evs, -, -, -, -, -, rfl⟩ := init_ok e s s' h
    rfl
  | enable =>
    refine same rfl rfl ?_
    simp only [Rx.step, Rx.enable, Except.ok.injEq] at h
    subst h
    split <;> rfl
  | disable =>
    refine same rfl rfl ?_
    simp only [Rx.step, Rx.disable, Except.ok.injEq] at h
    subst h
    split <;> rfl
  | receive t r =>
    refine same rfl rfl ?_
    have f := (receive_frame e s hr.recvInv.room t r).out _ h
    exact f.pom
  | biDiChannel1 =>
    refine same rfl rfl ?_
    have h : .ok s.biDiChannel1 = Except.ok s' := h
    cases h
    unfold Rx.biDiChannel1
    split
    · unfold Rx.appAdr; split <;> rfl
    · unfold Rx.appAdr; split <;> rfl
    · unfold Rx.appAdr; split <;> rfl
    · unfold Rx.appLogon1; split <;> rfl
    · rfl
  | biDiChannel2 =>
    have h := channel2_cutout s s' h
    subst h
    by_cases hc : cutout s = .cv
    · have hl := cutout_isLong hc
      have hstep : d.step e s (s.answer (cutout s)) .biDiChannel2 =
          if cutout s = .cv ∧ s.cfg.ch2DataEnabled = true ∧ s.link.packet = d.packet then
            { d with waiting := none } else d := rfl
      rw [hc] at same hstep ⊢
      change Agrees (d.step e s s.appPom .biDiChannel2) s.appPom
      change d.step e s s.appPom .biDiChannel2 = d → _ → s.appPom.q.pom = _ →
        Agrees (d.step e s s.appPom .biDiChannel2) s.appPom at same
      change d.step e s s.appPom .biDiChannel2 = _ at hstep
      by_cases hx : s.cfg.ch2DataEnabled = true ∧ s.link.packet = d.packet
      · rw [hstep, if_pos ⟨rfl, hx⟩]
        have hk : s.appPom.cvCount = s.cvCount ∧ s.appPom.q.pom = s.q.pom.tail := by
          unfold Rx.appPom
          rw [hx.1, hx.2, ha.packet]
          simp only [Bool.not_true, Bool.false_eq_true, if_false, ne_eq, not_true_eq_false]
          cases hq : s.q.pom with
          | nil => exact ⟨rfl, hq⟩
          | cons => exact ⟨rfl, rfl⟩
        refine ⟨ha.packet.trans (congrArg Prod.fst hk.1).symm,
          ha.count.trans (congrArg Prod.snd hk.1).symm, fun hl' => ?_, nofun⟩
        rw [hk.2, ha.pom hl']
        cases d.waiting <;> rfl
      · refine same (by rw [hstep, if_neg (fun h => hx h.2)]) rfl ?_
        unfold Rx.appPom
        cases h1 : s.cfg.ch2DataEnabled
        · rfl
        · rw [h1, ha.packet] at hx
          have hx : s.link.packet ≠ s.lastOwnCvPacket := fun h => hx ⟨rfl, h⟩
          simp [hx, Rx.emit]
    · refine same (if_neg (fun h => hc h.1)) rfl ?_
      unfold Rx.answer
      split
      · rfl
      · unfold Rx.appTos; split <;> rfl
      · rename_i h; exact absurd h hc
      · unfold Rx.appDyn; split <;> rfl
      · unfold Rx.appLogon2; split <;> rfl
  | datagram ds =>
    refine same rfl rfl ?_
    obtain ⟨q, b, rfl⟩ := datagram_eq e s s' ds h
    rfl

private theorem agrees_run (e : Env) (ops : List RxOp) : ∀ (s s' : Rx) (d : Dealing), Reachable e s →
    Agrees d s → undisturbed e s d ops = true → s.run e ops = .ok s' → Agrees (dealing e s d ops) s' := by
  induction ops with
  | nil => intro s s' d _ ha _ h; cases h; exact ha
  | cons op ops ih =>
    intro s s' d hr ha hu h
    rw [Rx.run, bind_eq_ok] at h
    obtain ⟨s1, h1, h2⟩ := h
    rw [undisturbed, h1] at hu
    dsimp only at hu
    rw [Bool.and_eq_true] at hu
    rw [dealing, h1]
    exact ih s1 s' _ (hr.step op h1) (agrees_step e s s1 op d hr ha hu.1 h1) hu.2 h2

/-- **C47** (partial) As long as no consist control packets are executed, and callbacks are not used
any more once the decoder deals with another CV packet, the answer in channel 2 after a CV access in
the long form for the decoder is right: an ACK if that packet is not the CV packet executed last,
otherwise the last value obtained for that very packet, transmitted once, and nothing if none was
obtained.  Missing for the full property: histories with
consist control packets and late callbacks, for which it is false (`C47_answers_false`,
`C47_late_callback_false`). -/
theorem C47_answers_partial (e : Env) (ops : List RxOp) (s s' : Rx) (hs : Rx.run e {} ops = .ok s)
    (hu : undisturbed e {} {} ops = true) (hc : cutout s = .cv) (h : s.biDiChannel2 = .ok s') :
    RightAnswer (dealing e {} {} ops) s s' := by
  have ha := agrees_run e ops {} s {} .start ⟨rfl, rfl, fun _ => rfl, nofun⟩ hu hs
  generalize dealing e {} {} ops = d at ha
  have hl := cutout_isLong hc
  have h := channel2_cutout s s' h
  rw [hc] at h
  subst h
  show RightAnswer d s s.appPom
  unfold RightAnswer
  cases hen : s.cfg.ch2DataEnabled
  · rw [if_pos rfl]
    have : s.appPom = s := by unfold Rx.appPom; rw [hen]; rfl
    rw [this, newCalls_self rfl]
    rfl
  rw [if_neg (by decide), ha.packet]
  by_cases hp : s.link.packet = s.lastOwnCvPacket
  · rw [if_neg (fun h => h hp)]
    have he : s.appPom = match s.q.pom with
        | [] => s
        | d :: rest => Rx.emit { s with q := { s.q with pom := rest } } (.transmitBiDi d) := by
      unfold Rx.appPom
      rw [hen, hp]
      simp
      cases s.q.pom <;> rfl
    have hq := ha.pom (by rw [ha.packet, ← hp]; exact hl)
    cases hw : d.waiting with
    | none =>
      have hq : s.q.pom = [] := by rw [hq, hw]; rfl
      rw [hq] at he
      dsimp only at he ⊢
      rw [he, newCalls_self rfl]
      rfl
    | some v =>
      have hq : s.q.pom = [pomBytes v] := by rw [hq, hw]; rfl
      rw [hq] at he
      refine ⟨ha.obtained v hw, pomBytes v, ?_, ?_, read_b12 0 v.toNat (by omega) v.isLt⟩
      · rw [he, newCalls_append (s := s) (evs := [.transmitBiDi (pomBytes v)]) rfl]
        rfl
      · exact (idBytes_spec .b12 0 v.toNat (by omega) v.isLt).1
  · rw [if_pos hp]
    have he : s.appPom = s.emit (.transmitBiDi (acks.take 1)) := by
      unfold Rx.appPom
      rw [hen]
      simp [hp]
    rw [he, newCalls_append (s := s) (evs := [.transmitBiDi (acks.take 1)]) rfl]
    rfl

/-- The answer in a cutout is a value that was not obtained for the packet. -/
private def wrongAnswer (e : Env) (ops : List RxOp) : Bool :=
  let d := dealing e {} {} ops
  holdsAfter (Rx.run e {} ops) fun s => holdsAfter s.biDiChannel2 fun s' =>
    decide (cutout s = .cv) && s.cfg.ch2DataEnabled && decide (s.link.packet = d.packet) &&
      (match transmitted (newCalls s s') with
       | [m] => !(d.values.any fun v => read m = word12 0 v.toNat)
       | _ => false)

private theorem wrongAnswer_spec {e : Env} {ops : List RxOp} (h : wrongAnswer e ops = true) :
    ∃ s s', Rx.run e {} ops = .ok s ∧ cutout s = .cv ∧ s.biDiChannel2 = .ok s' ∧
      ¬ RightAnswer (dealing e {} {} ops) s s' := by
  obtain ⟨s, h1, h⟩ := holdsAfter_ok h
  obtain ⟨s', h2, h⟩ := holdsAfter_ok h
  simp only [Bool.and_eq_true, decide_eq_true_eq] at h
  obtain ⟨⟨⟨h3, h4⟩, h5⟩, h6⟩ := h
  refine ⟨s, s', h1, h3, h2, fun hr => ?_⟩
  unfold RightAnswer at hr
  rw [h4, if_neg (by decide), if_neg (fun h => h h5)] at hr
  split at hr
  · rw [hr] at h6; cases h6
  · rename_i v _
    obtain ⟨hv, m, hr, -, hv'⟩ := hr
    rw [hr] at h6
    simp only [Bool.not_eq_true', List.any_eq_false, decide_eq_true_eq] at h6
    exact h6 v hv hv'

/-- A decoder is asked for CV29, gets a consist control packet, and is asked for CV29 again. -/
def disturbedByConsist : List RxOp :=
  .init :: hears [3#8, 0xE4#8, 28#8, 0#8, 0xFB#8] ++ .execute 0 0 :: hears [3#8, 0x12#8, 5#8, 0x14#8] ++
    .execute 0 0 :: hears [3#8, 0xE4#8, 28#8, 0#8, 0xFB#8]

/-- **C47** is false: after a consist control packet the decoder answers the value of CV19, whatever
CV the packet asks for. -/
theorem C47_answers_false : ¬ ∀ (e : Env) (ops : List RxOp) (s s' : Rx), Rx.run e {} ops = .ok s →
    cutout s = .cv → s.biDiChannel2 = .ok s' → RightAnswer (dealing e {} {} ops) s s' := by
  intro h
  obtain ⟨s, s', h1, h2, h3, h4⟩ := wrongAnswer_spec (e := exampleEnv) (ops := disturbedByConsist)
    (by decide +kernel)
  exact h4 (h _ _ s s' h1 h2 h3)

/-- A decoder is asked for CV29, then for CV1, and the callback for CV29 is used afterwards. -/
def disturbedByCallback : List RxOp :=
  .init :: hears [3#8, 0xE4#8, 28#8, 0#8, 0xFB#8] ++ .execute 0 0 :: hears [3#8, 0xE4#8, 0#8, 0#8, 0xE7#8] ++
    .execute 0 0 :: .callbackByte 0 10#8 :: hears [3#8, 0xE4#8, 0#8, 0#8, 0xE7#8]

/-- **C47** is false for asynchronous access even without consist control: a callback used after the
decoder was asked for another CV sets the answer to that. -/
theorem C47_late_callback_false : ¬ ∀ (e : Env) (ops : List RxOp) (s s' : Rx),
    (∀ p, ∀ s, consistPacket s p = true → p ∉ executed e {} ops) → Rx.run e {} ops = .ok s →
    cutout s = .cv → s.biDiChannel2 = .ok s' → RightAnswer (dealing e {} {} ops) s s' := by
  intro h
  obtain ⟨s, s', h1, h2, h3, h4⟩ := wrongAnswer_spec
    (e := { exampleEnv with asyncReadable := true }) (ops := disturbedByCallback) (by decide +kernel)
  refine h4 (h _ _ s s' ?_ h1 h2 h3)
  intro p s hp hm
  have : executed { exampleEnv with asyncReadable := true } {} disturbedByCallback =
      [[3#8, 0xE4#8, 28#8, 0#8, 0xFB#8], [3#8, 0xE4#8, 0#8, 0#8, 0xE7#8]] := by decide +kernel
  rw [this] at hm
  unfold consistPacket at hp
  simp only [List.mem_cons, List.not_mem_nil, or_false] at hm
  rcases hm with rfl | rfl <;>
  · rw [show (List.head? _).any _ = false from by decide +kernel, Bool.and_false] at hp
    cases hp

/-- A history without disturbance: an ACK while the packet has not been executed, then the value of
CV29. -/
example : undisturbed exampleEnv {} {} (.init :: withCutout [3#8, 0xE4#8, 28#8, 0#8, 0xFB#8]) = true ∧
    sent (inChannel2 .cv) exampleEnv {} (.init :: hears [3#8, 0xE4#8, 28#8, 0#8, 0xFB#8] ++
      .biDiChannel2 :: withCutout [3#8, 0xE4#8, 28#8, 0#8, 0xFB#8]) =
      [[0x0F#8], pomBytes 10#8] ∧ read (pomBytes 10#8) = word12 0 10 := by
  decide +kernel

end Dcc
