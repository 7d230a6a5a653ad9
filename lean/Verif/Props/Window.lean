import Verif.Model.BidiTiming
import Verif.Props.RxBidi
import Verif.Props.RxWire
import Verif.Props.Tx
import Verif.Spec.Window

/-!
Property C93: what a decoder transmits in a BiDi cutout is over before its channel ends, and the
command station leaves the track without power meanwhile.
-/

namespace Dcc

open Spec

/-! ### The station -/

private theorem outputsAt_append (a b : List TxOut) : ∀ (now : Bool × Bool) (t : Nat),
    (a.map TxOut.duration).sum ≤ t →
    ∃ now', outputsAt now (a ++ b) t = outputsAt now' b (t - (a.map TxOut.duration).sum) := by
  induction a with
  | nil => exact fun now t _ => ⟨now, rfl⟩
  | cons o a ih =>
    intro now t h
    rw [List.map_cons, List.sum_cons] at h ⊢
    obtain ⟨n', h'⟩ := ih (o.events.foldl outputsAfter now) (t - o.duration) (by omega)
    refine ⟨n', ?_⟩
    rw [List.cons_append, outputsAt, if_neg (by omega), h', Nat.sub_sub]

/-- A cutout, at least its first three phases, darkens the track until it ends. -/
private theorem dark_cut (cfg : TxConfig) (a b : List TxOut) (j : Nat) (hj : 3 ≤ j)
    (hb : 5 ≤ j ∨ b = []) :
    Dark (a ++ ((cutOut cfg).take j ++ b)) ((a.map TxOut.duration).sum + 29)
      ((a.map TxOut.duration).sum + 471) := by
  intro now t h1 h2
  obtain ⟨n', h⟩ := outputsAt_append a ((cutOut cfg).take j ++ b) now t (by omega)
  rw [h]
  generalize hu : t - (a.map TxOut.duration).sum = u
  have u1 : 29 ≤ u := by omega
  have u2 : u < 471 := by omega
  clear h hu h1 h2
  have cases : j = 3 ∨ j = 4 ∨ 5 ≤ j := by omega
  rcases cases with rfl | rfl | h5
  · obtain rfl : b = [] := hb.resolve_left (by omega)
    simp only [cutOut, List.take_succ_cons, List.take_zero, List.append_nil, outputsAt,
      List.foldl_cons, List.foldl_nil, outputsAfter]
    rw [if_neg (by omega)]
    split
    · rfl
    split <;> rfl
  · obtain rfl : b = [] := hb.resolve_left (by omega)
    simp only [cutOut, List.take_succ_cons, List.take_zero, List.append_nil, outputsAt,
      List.foldl_cons, List.foldl_nil, outputsAfter]
    rw [if_neg (by omega)]
    split
    · rfl
    split
    · rfl
    split <;> rfl
  · rw [List.take_of_length_le (by simpa [cutOut] using h5)]
    simp only [cutOut, List.cons_append, List.nil_append, outputsAt,
      List.foldl_cons, List.foldl_nil, outputsAfter]
    rw [if_neg (by omega)]
    split
    · rfl
    split
    · rfl
    split
    · rfl
    rw [if_pos (by omega)]

/-- Position in a cutout of the call in which a channel begins. -/
private def channelAt : TxEvent → Nat
  | .biDiChannel1 => 2
  | _ => 3

private theorem packet_silent (cfg : TxConfig) (w : List Nat) (ev : TxEvent)
    (hev : ev = .biDiChannel1 ∨ ev = .biDiChannel2) : ∀ o ∈ packetOuts cfg w, ev ∉ o.events := by
  intro o ho
  obtain ⟨j, hj⟩ := List.mem_iff_getElem?.mp ho
  rw [packetOuts, List.getElem?_mapIdx] at hj
  obtain ⟨d, _, rfl⟩ := Option.map_eq_some_iff.mp hj
  unfold halfOut
  rcases hev with rfl | rfl <;> split <;> simp

private theorem cut_position (cfg : TxConfig) (ev : TxEvent)
    (hev : ev = .biDiChannel1 ∨ ev = .biDiChannel2) (i : Nat) (o : TxOut)
    (h : (cutOut cfg)[i]? = some o) (ho : ev ∈ o.events) : i = channelAt ev := by
  have hi : i < 5 := by
    have := (List.getElem?_eq_some_iff.mp h).1
    simpa [cutOut] using this
  have : i = 0 ∨ i = 1 ∨ i = 2 ∨ i = 3 ∨ i = 4 := by omega
  rcases hev with rfl | rfl <;> rcases this with rfl | rfl | rfl | rfl | rfl <;>
    simp [cutOut] at h <;> subst h <;> simp [channelAt] at ho ⊢

/-- Every call in which a channel begins is the one at that position of a cutout. -/
private theorem channel_split (cfg : TxConfig) (ev : TxEvent)
    (hev : ev = .biDiChannel1 ∨ ev = .biDiChannel2) (last : List Nat) (k : Nat) :
    ∀ (waves : List (List Nat)) (i : Nat) (o : TxOut),
    (waves.flatMap (fun w => packetOuts cfg w ++ cutOut cfg) ++
      (packetOuts cfg last ++ cutOut cfg).take k)[i]? = some o → ev ∈ o.events →
    ∃ (a b : List TxOut) (j : Nat), i = a.length + channelAt ev ∧ channelAt ev < j ∧
      (5 ≤ j ∨ b = []) ∧
      waves.flatMap (fun w => packetOuts cfg w ++ cutOut cfg) ++
        (packetOuts cfg last ++ cutOut cfg).take k = a ++ ((cutOut cfg).take j ++ b) := by
  intro waves
  induction waves with
  | nil =>
    intro i o h ho
    simp only [List.flatMap_nil, List.nil_append] at h ⊢
    rw [List.getElem?_take] at h
    split at h
    rotate_left
    · exact absurd h nofun
    rename_i hi
    by_cases hp : i < (packetOuts cfg last).length
    · rw [List.getElem?_append_left hp] at h
      exact absurd ho (packet_silent cfg last ev hev o (List.mem_of_getElem? h))
    · rw [List.getElem?_append_right (by omega)] at h
      have hc := cut_position cfg ev hev _ o h ho
      refine ⟨packetOuts cfg last, [], k - (packetOuts cfg last).length, by omega, by omega,
        .inr rfl, ?_⟩
      rw [List.take_append, List.take_of_length_le (by omega), List.append_nil]
  | cons w waves ih =>
    intro i o h ho
    rw [List.flatMap_cons, List.append_assoc, List.append_assoc] at h ⊢
    by_cases hp : i < (packetOuts cfg w).length
    · rw [List.getElem?_append_left hp] at h
      exact absurd ho (packet_silent cfg w ev hev o (List.mem_of_getElem? h))
    rw [List.getElem?_append_right (by omega)] at h
    by_cases hq : i - (packetOuts cfg w).length < (cutOut cfg).length
    · rw [List.getElem?_append_left hq] at h
      have hc := cut_position cfg ev hev _ o h ho
      refine ⟨packetOuts cfg w, waves.flatMap (fun w => packetOuts cfg w ++ cutOut cfg) ++
        (packetOuts cfg last ++ cutOut cfg).take k, 5, by omega, ?_, .inl (Nat.le_refl _), ?_⟩
      · rcases hev with rfl | rfl <;> decide
      · rw [show (cutOut cfg).take 5 = cutOut cfg from rfl]
    · rw [List.getElem?_append_right (by omega)] at h
      obtain ⟨a, b, j, h1, h2, h3, h4⟩ := ih _ o h ho
      refine ⟨packetOuts cfg w ++ (cutOut cfg ++ a), b, j, ?_, h2, h3, ?_⟩
      · rw [List.length_append, List.length_append]; omega
      · rw [h4, List.append_assoc, List.append_assoc]

private theorem sum_take_add (a c : List TxOut) (n : Nat) :
    callTime (a ++ c) (a.length + n) = (a.map TxOut.duration).sum + callTime c n := by
  unfold callTime
  rw [List.take_append, List.take_of_length_le (by omega), Nat.add_sub_cancel_left, List.map_append,
    List.sum_append]

/-- **C93** In every history of a command station with BiDi enabled, whenever it announces channel 1
the track has been without power for 51 us and stays so for another 391 us. -/
theorem C93_dark_channel1 (n : Nat) (cfg : TxConfig) (hb : cfg.bidi = true)
    (ops : List TxOp) (hs : ∀ c, .init c ∈ ops → c.invert = cfg.invert ∧ c.bidi = cfg.bidi)
    (h : TxHist)
    (hr : ({ s := {} } : TxHist).run n (.init cfg :: ops) = .ok h)
    (i : Nat) (o : TxOut) (hi : h.out[i]? = some o) (ho : .biDiChannel1 ∈ o.events) :
    51 ≤ callTime h.out i ∧
    Dark h.out (callTime h.out i - 51) (callTime h.out i + 391) := by
  obtain ⟨waves, last, k, hout⟩ := C19_cutout_after_every_packet n cfg hb ops hs h hr
  rw [hout] at hi ⊢
  obtain ⟨a, b, j, rfl, h2, h3, h4⟩ := channel_split cfg .biDiChannel1 (.inl rfl) last k waves i o hi ho
  rw [h4]
  have hj : 3 ≤ j := h2
  have ht : callTime ((cutOut cfg).take j ++ b) 2 = 80 := by
    unfold callTime
    rw [List.take_append_of_le_length (by simp [cutOut]; omega), List.take_take, Nat.min_eq_left (by omega)]
    rfl
  have := dark_cut cfg a b j hj h3
  rw [show channelAt .biDiChannel1 = 2 from rfl, sum_take_add, ht]
  exact ⟨by omega, fun now t h1 h2 => this now t (by omega) (by omega)⟩

/-- **C93** Whenever it announces channel 2 the track has been without power for 164 us and stays so
for another 278 us. -/
theorem C93_dark_channel2 (n : Nat) (cfg : TxConfig) (hb : cfg.bidi = true)
    (ops : List TxOp) (hs : ∀ c, .init c ∈ ops → c.invert = cfg.invert ∧ c.bidi = cfg.bidi)
    (h : TxHist)
    (hr : ({ s := {} } : TxHist).run n (.init cfg :: ops) = .ok h)
    (i : Nat) (o : TxOut) (hi : h.out[i]? = some o) (ho : .biDiChannel2 ∈ o.events) :
    164 ≤ callTime h.out i ∧
    Dark h.out (callTime h.out i - 164) (callTime h.out i + 278) := by
  obtain ⟨waves, last, k, hout⟩ := C19_cutout_after_every_packet n cfg hb ops hs h hr
  rw [hout] at hi ⊢
  obtain ⟨a, b, j, rfl, h2, h3, h4⟩ := channel_split cfg .biDiChannel2 (.inr rfl) last k waves i o hi ho
  rw [h4]
  have hj : 4 ≤ j := h2
  have ht : callTime ((cutOut cfg).take j ++ b) 3 = 193 := by
    unfold callTime
    rw [List.take_append_of_le_length (by simp [cutOut]; omega), List.take_take, Nat.min_eq_left (by omega)]
    rfl
  have := dark_cut cfg a b j (by omega) h3
  rw [show channelAt .biDiChannel2 = 3 from rfl, sum_take_add, ht]
  exact ⟨by omega, fun now t h1 h2 => this now t (by omega) (by omega)⟩

/-! ### The decoder -/

/-- **C93** In every history of a decoder everything it transmits is as long as its channel allows,
and begun at the earliest time for the channel it is over at the latest one: with 17 us left after
channel 1 and 21 us after channel 2 at least. -/
theorem C93_fits (e : Env) (ops : List RxOp) (op : RxOp) (s s' : Rx)
    (h : ({} : Rx).run e ops = .ok s) (h' : s.step e op = .ok s') (m : List Byte)
    (hm : m ∈ transmitted (newCalls s s')) :
    (op = .biDiChannel1 ∧ m.length ≤ channel1Size ∧
      bidiTTS1 + byteTime bidiBaudrate * m.length + 17 ≤ bidiTTC1 ∧ bidiTTC1 ≤ bidiTTS2) ∨
    (op = .biDiChannel2 ∧ m.length ≤ channel2Size ∧
      bidiTTS2 + byteTime bidiBaudrate * m.length + 21 ≤ bidiTTC2 ∧ bidiTTC2 ≤ bidiTCEMin) := by
  have hw := C49_well_formed e ops op s s' h h'
  generalize transmitted (newCalls s s') = ms at hw hm
  have hbt : byteTime bidiBaudrate = 40 := rfl
  cases hw with
  | nothing => cases hm
  | channel1 m' h1 =>
    obtain rfl := List.mem_singleton.mp hm
    refine .inl ⟨rfl, by rw [h1]; decide, ?_, by decide⟩
    rw [hbt, h1]; decide
  | channel2 m' h1 h2 =>
    obtain rfl := List.mem_singleton.mp hm
    refine .inr ⟨rfl, h2, ?_, by decide⟩
    rw [hbt]
    show 193 + 40 * _ + 21 ≤ 454
    omega

/-! ### Both -/

/-- **C93** A decoder that is told by the command station (or sees itself) that a channel begins,
and begins to transmit at most `late` us afterwards, is done before the next channel begins and
before the track has power again: for channel 1 if `late` is at most 33 us, for channel 2 if it is at
most 38 us. -/
theorem C93_undisturbed (n : Nat) (cfg : TxConfig) (hb : cfg.bidi = true)
    (tops : List TxOp) (hs : ∀ c, .init c ∈ tops → c.invert = cfg.invert ∧ c.bidi = cfg.bidi)
    (t : TxHist)
    (hr : ({ s := {} } : TxHist).run n (.init cfg :: tops) = .ok t)
    (i : Nat) (o : TxOut) (hi : t.out[i]? = some o)
    (e : Env) (ops : List RxOp) (op : RxOp) (s s' : Rx)
    (h : ({} : Rx).run e ops = .ok s) (h' : s.step e op = .ok s') (m : List Byte)
    (hm : m ∈ transmitted (newCalls s s')) (late : Nat) :
    (op = .biDiChannel1 → .biDiChannel1 ∈ o.events → late ≤ 33 →
      Dark t.out (callTime t.out i) (callTime t.out i + late + byteTime bidiBaudrate * m.length) ∧
      callTime t.out i + late + byteTime bidiBaudrate * m.length ≤ callTime t.out (i + 1)) ∧
    (op = .biDiChannel2 → .biDiChannel2 ∈ o.events → late ≤ 38 →
      Dark t.out (callTime t.out i) (callTime t.out i + late + byteTime bidiBaudrate * m.length)) := by
  have fits := C93_fits e ops op s s' h h' m hm
  have hbt : byteTime bidiBaudrate = 40 := rfl
  rw [hbt] at fits ⊢
  constructor
  · rintro rfl ho hl
    obtain ⟨-, f1, -⟩ := fits.resolve_right (fun h => nomatch h.1)
    have f1 : m.length ≤ 2 := f1
    obtain ⟨-, dark⟩ := C93_dark_channel1 n cfg hb tops hs t hr i o hi ho
    refine ⟨fun now u h1 h2 => dark now u (by omega) (by omega), ?_⟩
    obtain ⟨waves, last, k, hout⟩ := C19_cutout_after_every_packet n cfg hb tops hs t hr
    rw [hout] at hi ⊢
    obtain ⟨a, b, j, rfl, h2, h3, h4⟩ := channel_split cfg .biDiChannel1 (.inl rfl) last k waves i o hi ho
    rw [h4]
    have hj : 3 ≤ j := h2
    have ht : ∀ q, q ≤ 3 → callTime ((cutOut cfg).take j ++ b) q = callTime (cutOut cfg) q := by
      intro q hq
      unfold callTime
      rw [List.take_append_of_le_length (by simp [cutOut]; omega), List.take_take,
        Nat.min_eq_left (by omega)]
    rw [show channelAt .biDiChannel1 = 2 from rfl, Nat.add_assoc a.length 2 1, sum_take_add,
      sum_take_add, ht 2 (by omega), ht 3 (by omega), show callTime (cutOut cfg) 2 = 80 from rfl,
      show callTime (cutOut cfg) (2 + 1) = 193 from rfl]
    omega
  · rintro rfl ho hl
    obtain ⟨-, f1, -⟩ := fits.resolve_left (fun h => nomatch h.1)
    have f1 : m.length ≤ 6 := f1
    obtain ⟨-, dark⟩ := C93_dark_channel2 n cfg hb tops hs t hr i o hi ho
    exact fun now u h1 h2 => dark now u (by omega) (by omega)

/-- A command station with BiDi sending idle packets announces both channels after the first one. -/
example :
    (match ({ s := {} } : TxHist).run 3
      (.init { numPreamble := 17, bidi := true } :: List.replicate 120 .transmit) with
    | .ok h => (h.out[92]?.map TxOut.events, h.out[93]?.map TxOut.events, callTime h.out 92)
    | .error _ => (none, none, 0)) = (some [.biDiChannel1], some [.biDiChannel2], 6224) := by
  decide +kernel

/-- A decoder fills both channels: its address in channel 1 and two values in channel 2. -/
example :
    let ops : List RxOp := .init :: .datagram [.raw 10#16 1#8, .raw 20#16 2#8] ::
      (hears [3#8, 0x3F#8, 0x80#8, 0xBC#8] ++ [.execute 0 0] ++ hears [3#8, 0x3F#8, 0x80#8, 0xBC#8])
    (sent inChannel1 exampleEnv {} (ops ++ [.biDiChannel1])).map List.length = [channel1Size] ∧
    (sent (inChannel2 .dynamic) exampleEnv {} (ops ++ [.biDiChannel1, .biDiChannel2])).map List.length =
      [channel2Size] := by
  decide +kernel

end Dcc
