import Verif.Lemmas.RxCvExec
import Verif.Lemmas.RxCvWrites
import Verif.Lemmas.RxConfig
import Verif.Spec.CvShort
/-! Short form CV access and consist control. -/
namespace Dcc
open Spec

/-- The events do not write CV15 or CV16. -/
theorem Spec.KeepsUnlocked.append {e : Env} {tr evs : List Event} (h : KeepsUnlocked e tr)
    (hn : ∀ ev ∈ evs, ev.writtenCv ≠ some 14#32 ∧ ev.writtenCv ≠ some 15#32) :
    KeepsUnlocked e (tr ++ evs) := by
  intro a b ha hb
  rw [List.append_assoc, List.append_assoc]
  refine h _ _ ?_ ?_
  · intro ev hev
    rcases List.mem_append.mp hev with h | h
    · exact hn ev h
    · exact ha ev h
  · intro ev hev
    rcases List.mem_append.mp hev with h | h
    · exact hn ev h
    · exact hb ev h

theorem written_quiet (ev : Event) (h : ev.isQuiet = true) : ev.writtenCv = none := by
  cases ev <;> first | rfl | cases h

theorem written_ack (sv m : Bool) : ∀ ev ∈ ack sv m, ev.writtenCv = none := by
  unfold ack
  split <;> simp [Event.writtenCv]

/-- Not locked, and reading the configuration will not change that. -/
structure Unlocked (e : Env) (s : Rx) : Prop where
  off : s.cfg.cvsLocked = false
  keeps : KeepsUnlocked e s.trace
  ops : s.serviceMode = false

theorem unlocked_init {e : Env} {s s' : Rx} (hk : KeepsUnlocked e s.trace)
    (ho : s.serviceMode = false) (h : s.init e = .ok s') : Unlocked e s' := by
  obtain ⟨cv29, prim, a, v, evs, -, -, -, hv, hq, rfl⟩ := init_ok e s s' h
  refine ⟨?_, hk.append fun ev hev => by rw [written_quiet ev (hq ev hev)]; exact ⟨nofun, nofun⟩, ho⟩
  obtain ⟨e1, q1, h1⟩ := hv.cv15
  obtain ⟨e2, q2, h2⟩ := hv.cv16
  have := hk e1 e2 (fun ev hev => by rw [written_quiet ev (q1 ev hev)]; exact ⟨nofun, nofun⟩)
    (fun ev hev => by rw [written_quiet ev (q2 ev hev)]; exact ⟨nofun, nofun⟩)
  rw [← h1, ← h2] at this
  show (v.cv15 != v.cv16 && v.cv15 != 0#8 && v.cv16 != 0#8) = false
  rw [Bool.eq_false_iff, ne_eq, Bool.and_eq_true, Bool.and_eq_true, bne_iff_ne, bne_iff_ne, bne_iff_ne]
  exact fun hh => this ⟨hh.1.2, hh.2, hh.1.1⟩

theorem answerByte_mode (s : Rx) (a b : Byte) : (s.answerByte a b).serviceMode = s.serviceMode := by
  unfold Rx.answerByte
  repeat' split
  all_goals rfl

theorem answerBit_mode (s : Rx) (a b : Bool) : (s.answerBit a b).serviceMode = s.serviceMode := by
  unfold Rx.answerBit
  repeat' split
  all_goals rfl

theorem wroteByte_fields (e : Env) (s : Rx) (cv : BitVec 32) (b : Byte) :
    (s.wroteByte e cv b).cfg = s.cfg ∧ (s.wroteByte e cv b).serviceMode = s.serviceMode := by
  unfold Rx.wroteByte
  split
  · exact ⟨rfl, rfl⟩
  · exact ⟨(answerByte_same ..).2, answerByte_mode ..⟩

theorem wroteBit_fields (e : Env) (s : Rx) (cv : BitVec 32) (b : Bool) (p : BitVec 32) :
    (s.wroteBit e cv b p).cfg = s.cfg ∧ (s.wroteBit e cv b p).serviceMode = s.serviceMode := by
  unfold Rx.wroteBit
  split
  · exact ⟨rfl, rfl⟩
  · exact ⟨(answerBit_same ..).2, answerBit_mode ..⟩

theorem written_accessCalls (e : Env) (tr : List Event) (sv : Bool) (a : Access) :
    ∀ ev ∈ accessCalls e tr sv .write a,
      ev.writtenCv = some (BitVec.ofNat 32 a.cv) ∨ ev.writtenCv = none := by
  intro ev hev
  cases a with
  | byte cv b =>
    unfold accessCalls at hev
    dsimp only at hev
    split at hev
    · rw [List.mem_singleton] at hev; subst hev; exact .inl rfl
    · rw [List.mem_cons] at hev
      rcases hev with rfl | hev
      · exact .inl rfl
      · exact .inr (written_ack _ _ ev hev)
  | bit cv b p =>
    unfold accessCalls at hev
    dsimp only at hev
    split at hev
    · rw [List.mem_singleton] at hev; subst hev; exact .inl rfl
    · rw [List.mem_cons] at hev
      rcases hev with rfl | hev
      · exact .inl rfl
      · exact .inr (written_ack _ _ ev hev)

/-- A write to an unlocked decoder. -/
structure Wrote (e : Env) (s s' : Rx) (ws : List Access) : Prop where
  unlocked : Unlocked e s'
  trace : ∃ evs, s'.trace = s.trace ++ evs ∧ accesses evs = ws.map (Kind.write, ·) ∧
    ∀ m, mem m evs = ws.foldl applyWrite m

theorem Wrote.trans {e : Env} {a b c : Rx} {x y : List Access} (h : Wrote e a b x)
    (g : Wrote e b c y) : Wrote e a c (x ++ y) := by
  obtain ⟨-, e1, h1, h2, h3⟩ := h
  obtain ⟨hu, e2, g1, g2, g3⟩ := g
  exact ⟨hu, e1 ++ e2, by rw [g1, h1, List.append_assoc],
    by rw [accesses_append, h2, g2, List.map_append],
    fun m => by rw [mem_append, h3, g3, List.foldl_append]⟩

theorem mem_accessCalls (e : Env) (tr : List Event) (sv : Bool) (a : Access)
    (m : BitVec 32 → Byte) : mem m (accessCalls e tr sv .write a) = applyWrite m a := by
  cases a with
  | byte cv b =>
    simp only [accessCalls]
    split
    · rfl
    · exact mem_quiet _ _ (stores_ack _ _)
  | bit cv b p =>
    simp only [accessCalls]
    split
    · rfl
    · exact mem_quiet _ _ (stores_ack _ _)

theorem wrote_initIfNeeded {e : Env} {s s1 : Rx} (hu : Unlocked e s) (a : Access)
    (hcv : a.cv < 1024) (hpos : ∀ cv b pos, a = .bit cv b pos → pos < 8) (h14 : a.cv ≠ 14)
    (h15 : a.cv ≠ 15) (hc : s1.cfg = s.cfg) (hs : s1.serviceMode = s.serviceMode)
    (ht : s1.trace = s.trace ++ accessCalls e s.trace s.serviceMode .write a) :
    Post (s1.initIfNeeded e (BitVec.ofNat 32 a.cv)) (fun s' => Wrote e s s' [a]) := by
  have hk : KeepsUnlocked e s1.trace := by
    rw [ht]
    refine hu.keeps.append fun ev hev => ?_
    rcases written_accessCalls e _ _ a ev hev with h | h <;> rw [h]
    · constructor
      · intro hh
        have := congrArg BitVec.toNat (Option.some.inj hh)
        simp at this; omega
      · intro hh
        have := congrArg BitVec.toNat (Option.some.inj hh)
        simp at this; omega
    · exact ⟨nofun, nofun⟩
  have ho : s1.serviceMode = false := hs.trans hu.ops
  unfold Rx.initIfNeeded
  split
  · refine ⟨fun s' h => ⟨unlocked_init hk ho h, ?_⟩⟩
    obtain ⟨cv29, prim, x, v, evs, -, -, -, hv, hq, rfl⟩ := init_ok e s1 s' h
    refine ⟨_, by show s1.trace ++ evs = _; rw [ht, List.append_assoc], ?_⟩
    rw [accesses_append, accesses_quiet hq, List.append_nil, accesses_accessCalls _ _ _ _ _ hcv hpos]
    exact ⟨rfl, fun m => (mem_append_quiet _ _ _ fun ev h => stores_of_quiet ev (hq ev h)).trans
      (mem_accessCalls _ _ _ _ m)⟩
  · refine Post.ok ⟨⟨by rw [hc]; exact hu.off, hk, ho⟩, _, ht, ?_⟩
    rw [accesses_accessCalls _ _ _ _ _ hcv hpos]
    exact ⟨rfl, fun m => mem_accessCalls _ _ _ _ m⟩

theorem wrote_byte {e : Env} {s : Rx} (hu : Unlocked e s) (cv : Nat) (b : Byte) (hcv : cv < 1024)
    (h14 : cv ≠ 14) (h15 : cv ≠ 15) :
    Post (s.cvWriteByte e (BitVec.ofNat 32 cv) b) (fun s' => Wrote e s s' [.byte cv b]) := by
  rw [cvWriteByte_eq, if_neg (by rw [hu.off]; simp)]
  obtain ⟨f1, f2⟩ := wroteByte_fields e s (BitVec.ofNat 32 cv) b
  exact wrote_initIfNeeded hu (.byte cv b) hcv (fun _ _ _ h => by cases h) h14 h15 f1 f2
    (wroteByte_trace ..)

theorem wrote_bit {e : Env} {s : Rx} (hu : Unlocked e s) (cv : Nat) (b : Bool) (p : Nat)
    (hcv : cv < 1024) (h14 : cv ≠ 14) (h15 : cv ≠ 15) (hp : p < 8) :
    Post (s.cvWriteBit e (BitVec.ofNat 32 cv) b (BitVec.ofNat 32 p)) (fun s' =>
      Wrote e s s' [.bit cv b p]) := by
  rw [cvWriteBit_eq, if_neg (by rw [hu.off]; simp)]
  obtain ⟨f1, f2⟩ := wroteBit_fields e s (BitVec.ofNat 32 cv) b (BitVec.ofNat 32 p)
  exact wrote_initIfNeeded hu (.bit cv b p) hcv (fun _ _ _ h => by cases h; exact hp) h14 h15 f1 f2
    (wroteBit_trace ..)

theorem lowNibble (b : Byte) (n : Nat) (hn : n < 16) :
    (b &&& 0x0F#8 = BitVec.ofNat 8 n) ↔ b.toNat % 16 = n := by
  have key : ∀ b : Byte, ∀ n : Fin 16, (b &&& 0x0F#8 = BitVec.ofNat 8 n) ↔ b.toNat % 16 = n := by
    decide +kernel
  exact key b ⟨n, hn⟩

theorem wrote_shortBody {e : Env} {s : Rx} (hu : Unlocked e s) (bs : List Byte) (n : Nat)
    (hn : s.ownEqualCvPackets = n) :
    Post (s.cvShortBody e bs) (fun s' => ∃ ws, shortWrites n bs = some ws ∧
      (if ws = [] then s' = s else Wrote e s s' ws)) := by
  unfold Rx.cvShortBody
  obtain _ | ⟨b0, rest⟩ := bs
  · exact Post.error
  rw [byteAt_zero]
  simp only [ok_bind]
  have k2 : b0 &&& 0x0F#8 = 2#8 ↔ b0.toNat % 16 = 2 := lowNibble b0 2 (by omega)
  have k3 : b0 &&& 0x0F#8 = 3#8 ↔ b0.toNat % 16 = 3 := lowNibble b0 3 (by omega)
  have k4 : b0 &&& 0x0F#8 = 4#8 ↔ b0.toNat % 16 = 4 := lowNibble b0 4 (by omega)
  have k5 : b0 &&& 0x0F#8 = 5#8 ↔ b0.toNat % 16 = 5 := lowNibble b0 5 (by omega)
  simp only [k2, k3, k4, k5, hn]
  have none : ∀ ws, shortWrites n (b0 :: rest) = some ws → ws = [] → Post (pure s : R Rx)
      (fun s' => ∃ ws, shortWrites n (b0 :: rest) = some ws ∧
      (if ws = [] then s' = s else Wrote e s s' ws)) := by
    intro ws h1 h2
    exact Post.ok ⟨ws, h1, by rw [if_pos h2]⟩
  have some' : ∀ s' w ws, shortWrites n (b0 :: rest) = some (w :: ws) → Wrote e s s' (w :: ws) →
      ∃ ws, shortWrites n (b0 :: rest) = some ws ∧ (if ws = [] then s' = s else Wrote e s s' ws) :=
    fun s' w ws h1 h2 => ⟨_, h1, by rw [if_neg (List.cons_ne_nil _ _)]; exact h2⟩
  by_cases h2 : b0.toNat % 16 = 2
  · rw [if_pos h2, byteAt_succ]
    obtain _ | ⟨b1, rest⟩ := rest
    · exact Post.error
    exact (wrote_byte hu 22 b1 (by omega) (by omega) (by omega)).mono fun s' h =>
      some' s' _ _ (by simp [shortWrites, h2]) h
  rw [if_neg h2]
  by_cases h3 : b0.toNat % 16 = 3
  · rw [if_pos h3, byteAt_succ]
    obtain _ | ⟨b1, rest⟩ := rest
    · exact Post.error
    exact (wrote_byte hu 23 b1 (by omega) (by omega) (by omega)).mono fun s' h =>
      some' s' _ _ (by simp [shortWrites, h3]) h
  rw [if_neg h3]
  by_cases h4 : b0.toNat % 16 = 4
  · rw [if_pos h4]
    by_cases hn2 : n = 2
    · rw [if_neg (by simp [hn2]), byteAt_succ]
      obtain _ | ⟨b1, rest⟩ := rest
      · exact Post.error
      rw [byteAt_zero, ok_bind, byteAt_succ, byteAt_succ]
      refine Post.bind (wrote_byte hu 16 (0xC0#8 ||| b1) (by omega) (by omega) (by omega))
        fun s1 h1 => ?_
      obtain _ | ⟨b2, rest⟩ := rest
      · exact Post.error
      rw [byteAt_zero, ok_bind]
      refine Post.bind (wrote_byte h1.unlocked 17 b2 (by omega) (by omega) (by omega)) fun s2 g2 => ?_
      exact (wrote_bit g2.unlocked 28 true 5 (by omega) (by omega) (by omega) (by omega)).mono
        fun s3 g3 => some' s3 _ _ (by simp [shortWrites, h4, hn2]) ((h1.trans g2).trans g3)
    · rw [if_pos hn2]
      exact none [] (by simp [shortWrites, h4, hn2]) rfl
  rw [if_neg h4]
  by_cases h5 : b0.toNat % 16 = 5
  · rw [if_pos h5]
    by_cases hn2 : n = 2
    · rw [if_neg (by simp [hn2]), byteAt_succ]
      obtain _ | ⟨b1, rest⟩ := rest
      · exact Post.error
      rw [byteAt_zero, ok_bind, byteAt_succ, byteAt_succ]
      refine Post.bind (wrote_byte hu 30 b1 (by omega) (by omega) (by omega)) fun s1 h1 => ?_
      obtain _ | ⟨b2, rest⟩ := rest
      · exact Post.error
      rw [byteAt_zero, ok_bind]
      exact (wrote_byte h1.unlocked 31 b2 (by omega) (by omega) (by omega)).mono
        fun s2 g2 => some' s2 _ _ (by simp [shortWrites, h5, hn2]) (h1.trans g2)
    · rw [if_pos hn2]
      exact none [] (by simp [shortWrites, h5, hn2]) rfl
  rw [if_neg h5]
  exact none [] (by simp [shortWrites, h2, h3, h4, h5]) rfl

theorem locked_write_nothing (e : Env) (s : Rx) (h : s.cfg.cvsLocked = true) :
    (∀ cv b, cv ≠ 14#32 → s.cvWriteByte e cv b = .ok s) ∧
    (∀ cv b p, cv ≠ 14#32 → s.cvWriteBit e cv b p = .ok s) := by
  constructor
  · intro cv b hc; rw [cvWriteByte_eq, if_pos ⟨h, hc⟩]
  · intro cv b p hc; rw [cvWriteBit_eq, if_pos ⟨h, hc⟩]

theorem locked_shortBody' (e : Env) (s : Rx) (h : s.cfg.cvsLocked = true) (bs : List Byte) :
    Post (s.cvShortBody e bs) (fun s' => s' = s) := by
  obtain ⟨h1, h2⟩ := locked_write_nothing e s h
  unfold Rx.cvShortBody
  refine Post.bind_any fun b0 => ?_
  dsimp only
  split
  · refine Post.bind_any fun b => ?_
    rw [h1 _ _ (by decide)]; exact Post.ok rfl
  split
  · refine Post.bind_any fun b => ?_
    rw [h1 _ _ (by decide)]; exact Post.ok rfl
  split
  · split
    · exact Post.ok rfl
    · refine Post.bind_any fun b => ?_
      rw [h1 _ _ (by decide), ok_bind]
      refine Post.bind_any fun b => ?_
      rw [h1 _ _ (by decide), ok_bind, h2 _ _ _ (by decide)]; exact Post.ok rfl
  split
  · split
    · exact Post.ok rfl
    · refine Post.bind_any fun b => ?_
      rw [h1 _ _ (by decide), ok_bind]
      refine Post.bind_any fun b => ?_
      rw [h1 _ _ (by decide)]; exact Post.ok rfl
  · exact Post.ok rfl

/-- The packet in front is executed in operations mode. -/
theorem operations_front (e : Env) (s s' : Rx) (now : Int) (rand : Nat) (ret : Bool) (p : Packet)
    (b : Byte) (hv : ∀ p ∈ s.deque, 2 ≤ p.length) (hm : s.serviceMode = false)
    (hf : front s = some p) (hd : ForDecoder s p) (hb : (afterAddress p).head? = some b)
    (h : s.execute e now rand = .ok (s', ret)) :
    ∃ n s2, locoNumber p = some n ∧ (n = 0 ∨ Active s n) ∧ s' = s2.popFront ∧
      InstrCase e (s.prepared e now) (target s n) p (afterAddress p) s2 b := by
  cases exec_cases e s s' now rand ret hv h with
  | idle h _ _ => obtain ⟨h1, r, h2⟩ := front_eq.mp hf; rcases h with h | h <;> simp_all
  | foreign q rest hp hd' hm' hfd _ _ =>
    have hfr := front_eq.mpr ⟨hp, rest, hd'⟩
    rw [hf] at hfr; cases hfr
    exact absurd hd hfd
  | service q rest s2 hp hd hm' _ _ => rw [hm] at hm'; cases hm'
  | operations q rest n s2 hp hd hm' hn ha h hs' _ =>
    have hfr := front_eq.mpr ⟨hp, rest, hd⟩
    rw [hf] at hfr; cases hfr
    obtain ⟨b', hb', hi⟩ := instruction_cases e _ s2 _ p _ rand h
    rw [hb] at hb'
    cases hb'
    exact ⟨n, s2, hn, ha, hs', hi⟩

theorem instrCase_short {e : Env} {s s' : Rx} {a : BitVec 16} {p : Packet} {bs : List Byte} {b : Byte}
    (h : InstrCase e s a p bs s' b) (hb : 240 ≤ b.toNat) : s.cvShort e a p bs = .ok s' := by
  have hd : decodeInstructionByte b = .cvShort := (decode_cv b).2.mpr hb
  cases h with
  | enter _ h _ => rw [h] at hb; simp at hb
  | control hd' _ _ => rw [hd] at hd'; cases hd'
  | consist hd' _ => rw [hd] at hd'; cases hd'
  | drives hd' _ =>
    rw [hd] at hd'
    rcases hd' with h | h | h | h | h
    · cases h
    · cases h
    · cases h
    · rw [h] at hb; simp at hb
    · rw [h] at hb; simp at hb
  | searches hd' _ _ _ => rw [hd] at hd'; cases hd'
  | cvLong hd' _ => rw [hd] at hd'; cases hd'
  | cvShort _ h => exact h

theorem instrCase_consist {e : Env} {s s' : Rx} {a : BitVec 16} {p : Packet} {bs : List Byte} {b : Byte}
    (h : InstrCase e s a p bs s' b) (hb : 16 ≤ b.toNat ∧ b.toNat < 32) :
    s.consistControl e bs = .ok s' := by
  have key : ∀ b : Byte, 16 ≤ b.toNat ∧ b.toNat < 32 → decodeInstructionByte b = .consistControl := by
    decide +kernel
  have hd := key b hb
  cases h with
  | enter _ h _ => rw [h] at hb; simp at hb
  | control hd' _ _ => rw [hd] at hd'; cases hd'
  | consist _ h => exact h
  | drives hd' _ =>
    rw [hd] at hd'
    rcases hd' with h | h | h | h | h
    · cases h
    · cases h
    · cases h
    · rw [h] at hb; simp at hb
    · rw [h] at hb; simp at hb
  | searches hd' _ _ _ => rw [hd] at hd'; cases hd'
  | cvLong hd' _ => rw [hd] at hd'; cases hd'
  | cvShort hd' _ => rw [hd] at hd'; cases hd'

theorem forDecoder_of_cvRequest {s : Rx} {p : Packet} (hm : s.serviceMode = false)
    (hc : cvRequest s p = true) : ForDecoder s p ∧
      ∀ n, locoNumber p = some n → ¬ (target s n ≠ 0#16 ∧ target s n = s.addrs.consist.value) := by
  unfold cvRequest at hc
  rw [hm] at hc
  simp only [Bool.false_eq_true, if_false] at hc
  split at hc
  · cases hc
  · rename_i n hn
    simp only [Bool.and_eq_true, Bool.or_eq_true, decide_eq_true_eq, Bool.not_eq_true',
      Bool.and_eq_false_iff, decide_eq_false_iff_not] at hc
    refine ⟨⟨n, hn, hc.1.1⟩, fun n' hn' => ?_⟩
    rw [hn] at hn'
    cases hn'
    exact fun hh => hc.1.2.elim (fun h => h hh.1) (fun h => h hh.2)

theorem stores_keep {e : Env} {s : Rx} {stores : List Event} (hs : LogonStores s stores)
    {tr : List Event} (hk : KeepsUnlocked e tr) : KeepsUnlocked e (tr ++ stores) := by
  refine hk.append fun ev hev => ?_
  obtain ⟨cv, h1, h2⟩ := hs.cvs ev hev
  rw [h2]
  constructor
  · intro h; cases h; revert h1; decide
  · intro h; cases h; revert h1; decide

/-- With a memory that does not lock the decoder, it stays unlocked. -/
theorem memory_keeps {e : Env} {m : BitVec 32 → Byte} (hm : MemoryLike e m) {s : Rx}
    (hR : Reflects (mem m s.trace) s) (hl : s.cfg.cvsLocked = false) : KeepsUnlocked e s.trace := by
  have hn : ¬ (mem m s.trace 14#32 ≠ 0#8 ∧ mem m s.trace 15#32 ≠ 0#8 ∧
      mem m s.trace 14#32 ≠ mem m s.trace 15#32) := by
    rw [← hR.locked, hl]; exact Bool.false_ne_true
  have key : ∀ (cv : BitVec 32) (evs : List Event), (∀ ev ∈ evs, ev.writtenCv ≠ some cv) →
      ∀ c : BitVec 32 → Byte, mem c evs cv = c cv := by
    intro cv evs
    induction evs with
    | nil => intro _ _; rfl
    | cons ev evs ih =>
      intro h c
      have h1 := h ev (by simp)
      have h2 := ih fun ev hev => h ev (by simp [hev])
      cases ev with
      | writeCvByte x b r =>
        refine (h2 _).trans ?_
        exact if_neg fun (hh : cv = x) => h1 (by rw [hh]; rfl)
      | writeCvBit x b p r =>
        refine (h2 _).trans ?_
        exact if_neg fun (hh : cv = x) => h1 (by rw [hh]; rfl)
      | asyncWriteCvByte x b =>
        refine (h2 _).trans ?_
        exact if_neg fun (hh : cv = x) => h1 (by rw [hh]; rfl)
      | asyncWriteCvBit x b p =>
        refine (h2 _).trans ?_
        exact if_neg fun (hh : cv = x) => h1 (by rw [hh]; rfl)
      | _ => exact h2 c
  intro a b ha hb
  rw [hm.reads, hm.reads, mem_append, mem_append, key 14#32 a (fun ev h => (ha ev h).1),
    key 15#32 b (fun ev h => (hb ev h).2)]
  exact hn

theorem prepared_unlocked {e : Env} {s : Rx} {now : Int} {stores : List Event}
    (ht : (s.prepared e now).trace = s.trace ++ stores) (hs : LogonStores s stores)
    (hm : s.serviceMode = false) (hl : s.cfg.cvsLocked = false) (hk : KeepsUnlocked e s.trace) :
    Unlocked e (s.prepared e now) := by
  obtain ⟨m1, m2, m3⟩ := prepared_modes e s now
  exact ⟨by rw [m2]; exact hl, by rw [ht]; exact stores_keep hs hk, by rw [m1]; exact hm⟩

/-- Executing a short form packet. -/
theorem execute_short_count (e : Env) (s s' : Rx) (now : Int) (rand : Nat) (ret : Bool)
    (p : Packet) (b : Byte) (hv : ∀ p ∈ s.deque, 2 ≤ p.length) (hm : s.serviceMode = false)
    (hf : front s = some p) (hc : cvRequest s p = true) (hb : (afterAddress p).head? = some b)
    (h240 : 240 ≤ b.toNat) (hk : s.cfg.cvsLocked = false → KeepsUnlocked e s.trace)
    (h : s.execute e now rand = .ok (s', ret)) :
    ∃ stores calls, LogonStores s stores ∧ s'.trace = s.trace ++ stores ++ calls ∧
      (s.cfg.cvsLocked = true → calls = []) ∧
      (s.cfg.cvsLocked = false → ∃ ws,
        shortWrites ((countPacket s.cvCount p).2) (afterAddress p) = some ws ∧
        accesses calls = ws.map (Kind.write, ·) ∧
        ∀ m, mem m calls = ws.foldl applyWrite m) := by
  obtain ⟨hd, ht⟩ := forDecoder_of_cvRequest hm hc
  obtain ⟨n, s2, hn, -, rfl, hi⟩ := operations_front e s s' now rand ret p b hv hm hf hd hb h
  have hx := instrCase_short hi h240
  obtain ⟨stores, hst, hS⟩ := prepared_trace e s now
  obtain ⟨m1, m2, m3⟩ := prepared_modes e s now
  unfold Rx.cvShort at hx
  rw [m3, if_neg (ht n hn)] at hx
  obtain ⟨f1, f2, f3, f4⟩ := count_fields (s.prepared e now) p
  have f2' : ((s.prepared e now).countOwnEqualCvPackets p).serviceMode =
      (s.prepared e now).serviceMode := by
    unfold Rx.serviceMode; rw [f2]
  have hcnt : ((s.prepared e now).countOwnEqualCvPackets p).ownEqualCvPackets =
      (countPacket s.cvCount p).2 := by
    rw [← prepared_cvCount e s now, ← count_cvCount]
    rfl
  show ∃ stores calls, _ ∧ s2.trace = _ ∧ _
  cases hl : s.cfg.cvsLocked
  · have hu0 := prepared_unlocked hst hS hm hl (hk hl)
    have hu : Unlocked e ((s.prepared e now).countOwnEqualCvPackets p) :=
      ⟨by rw [f3]; exact hu0.off, by rw [f1]; exact hu0.keeps, by rw [f2']; exact hu0.ops⟩
    obtain ⟨ws, h1, h2⟩ := (wrote_shortBody hu _ _ hcnt).out _ hx
    split at h2
    · rename_i hw
      refine ⟨stores, [], hS, by rw [h2, f1, hst]; simp, nofun, fun _ => ⟨ws, h1, ?_⟩⟩
      rw [hw]
      exact ⟨rfl, fun _ => rfl⟩
    · obtain ⟨-, evs, h3, h4, h5⟩ := h2
      exact ⟨stores, evs, hS, by rw [h3, f1, hst], nofun, fun _ => ⟨ws, h1, h4, h5⟩⟩
  · have := (locked_shortBody' e _ (by rw [f3, m2]; exact hl) _).out _ hx
    exact ⟨stores, [], hS, by rw [this, f1, hst]; simp, fun _ => rfl, nofun⟩

end Dcc
