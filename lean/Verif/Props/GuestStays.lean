import Verif.Props.Guest
/-! C98: command stations and sessions that change while a decoder is logged on. -/
namespace Dcc
open Spec

theorem replies_append (xs ys : List (Nat × GuestItem)) : ∀ g : Guest,
    g.replies (xs ++ ys) = g.replies xs ++ (g.after xs).replies ys := by
  induction xs with
  | nil => intro g; rfl
  | cons x xs ih => intro g; rw [List.cons_append, Guest.replies, Guest.replies, Guest.after, ih]; rfl

theorem replies_length (xs : List (Nat × GuestItem)) : ∀ g : Guest, (g.replies xs).length = xs.length := by
  induction xs with
  | nil => intro g; rfl
  | cons x xs ih => intro g; rw [Guest.replies, List.length_cons, ih]; rfl

/-- A decoder that is selected does not answer LOGON_ENABLE. -/
theorem replies_enable (xs : List (Nat × GuestItem)) : ∀ (g : Guest), g.selected = true → ∀ (i : Nat) (k : Nat)
    (group : AddressGroup) (c : BitVec 16) (session : Byte), xs[i]? = some (k, .enable group c session) →
    (g.replies xs)[i]? = some none := by
  induction xs with
  | nil => intro g _ i k group c session h; cases h
  | cons x xs ih =>
    intro g hs i k group c session h
    obtain _ | i := i
    · have hx : x = (k, .enable group c session) := by simpa using h
      subst hx
      simp [Guest.replies, Guest.hear, hs]
    · rw [List.getElem?_cons_succ] at h
      rw [Guest.replies, List.getElem?_cons_succ]
      exact ih _ (hear_selected g _ _ hs) i k group c session h

theorem after_select (g : Guest) (k : Nat) (m : BitVec 16) (sub : Byte) (u : BitVec 32) (h : u = g.uid)
    (ho : g.number ≠ none → g.selected = true) : (g.hear k (.select m u sub)).1.selected = true := by
  subst h
  unfold Guest.hear
  dsimp only
  split
  · rfl
  · rename_i hn
    exact ho fun hx => hn ⟨rfl, hx⟩

theorem inCutout_nothing {m : List Byte} (h : inCutout m = some none) : m = [] := by
  unfold inCutout at h
  split at h
  · assumption
  · split at h <;> cases h

theorem after_order (xs : List (Nat × GuestItem)) : ∀ (seen : List (BitVec 32)) (g : Guest),
    SelectedFirst seen (xs.map (·.2)) → (g.uid ∈ seen → g.selected = true) → (g.number ≠ none → g.selected = true) →
    (g.after xs).number ≠ none → (g.after xs).selected = true := by
  induction xs with
  | nil => intro seen g _ _ h; exact h
  | cons x xs ih =>
    intro seen g hf hs ho
    obtain ⟨k, i⟩ := x
    rw [Guest.after]
    have hu := hear_uid g k i
    cases i with
    | enable group c session =>
      refine ih seen _ hf (fun h => hear_selected g k _ (hs (hu ▸ h))) (fun h => hear_selected g k _ (ho ?_))
      intro hn; apply h; simp only [Guest.hear]; split <;> exact hn
    | select m u sub =>
      refine ih (u :: seen) _ hf (fun h => ?_) (fun h => hear_selected g k _ (ho ?_))
      · rw [hu] at h
        rcases List.mem_cons.mp h with h | h
        · exact after_select g k m sub u h.symm ho
        · exact hear_selected g k _ (hs h)
      · intro hn; apply h; simp only [Guest.hear]; split <;> exact hn
    | assign m u n =>
      refine ih seen _ hf.2 (fun h => hear_selected g k _ (hs (hu ▸ h))) (fun h => hear_selected g k _ ?_)
      by_cases hx : u = g.uid
      · exact hs (hx ▸ hf.1)
      · refine ho fun hn => h ?_
        simp [Guest.hear, hx, hn]
    | idle => exact ih seen g hf hs ho
    | drive c => exact ih seen g hf hs ho

/-- **C98** (false) A decoder logs on again as soon as the command station or its session is another one.
In truth a decoder that was selected once never answers LOGON_ENABLE again, whatever the station and
whatever the session. -/
theorem C98_new_station_false (e : Env) (ops : List RxOp) (s : Rx) (uid : BitVec 32) (rs : List Round)
    (before after : List GuestItem) (m : BitVec 16) (sub : Byte)
    (h : LogsOn e ops s uid rs (before ++ .select m uid sub :: after)) (i : Nat) (group : AddressGroup)
    (c : BitVec 16) (session : Byte) (hi : after[i]? = some (.enable group c session)) :
    (heardRounds e s rs)[before.length + 1 + i]? = some [] := by
  obtain ⟨s', -, -, h3⟩ := C88_guest e ops s uid rs _ h
  have hlen : (rs.map Round.drawn).length = before.length + (1 + after.length) := by
    have := congrArg List.length h.packets
    simp only [List.length_map, List.length_append, List.length_cons] at this
    rw [List.length_map]; omega
  generalize hks : rs.map Round.drawn = ks at h3 hlen
  generalize hg0 : ({ uid := uid, pause := logonPause e {} {} ops } : Guest) = g at h3
  have hgu : g.uid = uid ∧ g.selected = false ∧ g.number = none := by rw [← hg0]; exact ⟨rfl, rfl, rfl⟩
  obtain ⟨ka, k, kb, rfl, hka, hkb⟩ : ∃ ka k kb, ks = ka ++ k :: kb ∧ ka.length = before.length ∧
      kb.length = after.length := by
    refine ⟨ks.take before.length, ks[before.length]'(by omega), ks.drop (before.length + 1), ?_, ?_, ?_⟩
    · rw [← List.drop_eq_getElem_cons]; exact (List.take_append_drop _ _).symm
    · simp; omega
    · simp; omega
  have hz : (ka ++ k :: kb).zip (before ++ .select m uid sub :: after) =
      ka.zip before ++ ((k, .select m uid sub) :: kb.zip after) := by
    rw [List.zip_append hka]; rfl
  rw [hz, replies_append, List.map_append, Guest.replies, List.map_cons] at h3
  have hsel : ((g.after (ka.zip before)).hear k (.select m uid sub)).1.selected = true := by
    have hu : (g.after (ka.zip before)).uid = uid := (after_number _ _).1.trans hgu.1
    refine after_select _ k m sub uid hu.symm (after_order _ [] g ?_ (fun hx => absurd hx (by simp)) ?_)
    · rw [List.map_snd_zip (by omega)]; exact first_left h.first
    · intro hx; exact absurd hgu.2.2 hx
  obtain ⟨j, hj⟩ : ∃ j, (kb.zip after)[i]? = some (j, .enable group c session) := by
    obtain ⟨hlt, -⟩ := List.getElem?_eq_some_iff.mp hi
    refine ⟨kb[i]'(by omega), ?_⟩
    rw [List.getElem?_zip_eq_some]
    exact ⟨List.getElem?_eq_getElem (by omega), hi⟩
  have hr := replies_enable _ _ hsel i j group c session hj
  have h4 := congrArg (fun l => l[before.length + 1 + i]?) h3
  dsimp only at h4
  rw [List.getElem?_append_right (by rw [List.length_map, replies_length, List.length_zip]; omega)] at h4
  have hidx : before.length + 1 + i - (((g.replies (ka.zip before)).map fun r =>
      some (r.map (Reply.word e s))).length) = i + 1 := by
    rw [List.length_map, replies_length, List.length_zip]; omega
  rw [hidx, List.getElem?_cons_succ, List.getElem?_map, List.getElem?_map, hr] at h4
  cases hx : (heardRounds e s rs)[before.length + 1 + i]? with
  | none => rw [hx] at h4; cases h4
  | some l =>
    rw [hx] at h4
    rw [inCutout_nothing (m := l) (Option.some.inj h4)]

/-- **C98** (partial) As long as it has not been selected, a decoder without backoff answers LOGON_ENABLE with
its unique ID, whatever the station; if the station is the one it knows, the session must be neither the one
it knows nor one of the next four (that would be a fast logon, C89). -/
theorem C98_new_station_partial (e : Env) (ops : List RxOp) (s : Rx) (uid : BitVec 32) (r : Round)
    (group : AddressGroup) (c : BitVec 16) (session : Byte) (h : LogsOn e ops s uid [r] [.enable group c session])
    (hp : ((logonPause e {} {} ops).enable (groupNumber group) r.drawn).2 = false) :
    (heardRounds e s [r]).map inCutout = [some (some (idWord e s))] := by
  obtain ⟨s', -, -, h3⟩ := C88_guest e ops s uid [r] _ h
  rw [h3]
  show [some (Option.map (Reply.word e s) (if ((logonPause e {} {} ops).enable (groupNumber group) r.drawn).2 then
    none else some .id))] = _
  rw [hp]
  rfl

/-! ### Examples -/

/-- A decoder logs on to station 513 and hears stations 514 and 513, the latter in another session. -/
def stayItems : List GuestItem :=
  [.enable .all 513#16 7#8, .select 145#16 0x01020304#32 0xFF#8, .assign 145#16 0x01020304#32 1000,
    .enable .all 514#16 7#8, .enable .now 513#16 99#8]

example : ∃ s, LogsOn logonEnv [.init] s 0x01020304#32 (stayItems.map guestRound)
    ([.enable .all 513#16 7#8] ++ .select 145#16 0x01020304#32 0xFF#8 :: [.assign 145#16 0x01020304#32 1000,
      .enable .all 514#16 7#8, .enable .now 513#16 99#8]) := by
  have hleg : ∀ i ∈ stayItems, i.Legal 0#16 0#8 := by
    intro i hi
    simp only [stayItems, List.mem_cons, List.not_mem_nil, or_false] at hi
    rcases hi with rfl | rfl | rfl | rfl | rfl
    · exact fun hx => absurd hx.1 (by decide)
    · show (145#16).toNat < 4096; decide
    · show (145#16).toNat < 4096 ∧ 1 ≤ 1000 ∧ 1000 < 10240; decide
    · exact fun hx => absurd hx.1 (by decide)
    · exact fun hx => absurd hx.1 (by decide)
  exact guest_example logonEnv 0x01020304#32 (by decide) (by decide +kernel) stayItems (by decide +kernel) hleg
    (by simp [stayItems, SelectedFirst])

/-- The station is the one the decoder knows (its CVs hold none, that is 0), ten sessions later. -/
example : (∃ s, LogsOn logonEnv [.init] s 0x01020304#32 [guestRound (.enable .all 0#16 10#8)]
      [.enable .all 0#16 10#8]) ∧
    ((logonPause logonEnv {} {} [.init]).enable (groupNumber .all) (guestRound (.enable .all 0#16 10#8)).drawn).2 =
      false := by
  refine ⟨guest_example logonEnv 0x01020304#32 (by decide) (by decide +kernel) [.enable .all 0#16 10#8]
    (by decide +kernel) ?_ (by simp [SelectedFirst]), by decide +kernel⟩
  intro i hi
  rw [List.mem_singleton.mp hi]
  exact fun hx => absurd hx.2.2 (by decide)

end Dcc
