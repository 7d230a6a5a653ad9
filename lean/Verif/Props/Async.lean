import Verif.Props.Independence
import Verif.Spec.Async
/-!
C100: asynchronous methods of the user's class.
-/
namespace Dcc
open Spec

private theorem bareOf_false : bareOf false = withoutCallbacks := by
  funext op
  cases op <;> rfl

theorem effects_append (a b : List Event) : effects (a ++ b) = effects a ++ effects b := List.filterMap_append

theorem effects_none {ev : Event} (h : effect ev = none) : effects [ev] = [] := List.filterMap_cons_none h

theorem Spec.SameCvs.replies {e e' : Env} (h : SameCvs e e') :
    Replies false effect e e' fun a b => effects a = effects b where
  rxDeque := h.rxDeque
  highCurrent := h.highCurrent
  eastWest := h.eastWest
  async := nofun
  readCv := h.readCv
  readCvByte := nofun
  readCvBit := nofun
  writeCvByte := nofun
  writeCvBit := nofun
  both a b ev hab := by rw [effects_append, effects_append, hab]
  left a b m hab := by rw [effects_append, hab]; exact List.append_nil _
  right a b m hab := by rw [effects_append, ← hab]; exact (List.append_nil _).symm
  silent _ := rfl
  hiddenLeft _ a b ev hn hab := by rw [effects_append, effects_none hn, List.append_nil, hab]
  hiddenRight _ a b ev hn hab := by rw [effects_append, effects_none hn, List.append_nil, hab]
  same _ a b ev ev' hn hab := by
    rw [effects_append, effects_append, hab]
    unfold effects
    rw [List.filterMap_cons, List.filterMap_cons, hn]
  ack _ := rfl
  reads _ := ⟨fun _ _ _ => rfl, fun _ _ _ _ => rfl, fun _ _ => rfl, fun _ _ _ => rfl⟩
  writes _ := ⟨fun _ _ _ => rfl, fun _ _ _ _ => rfl⟩

/-- **C100** Two decoders that do not differ except in what BiDi is about and in the callbacks their classes hold
get the same calls, apart from callbacks, called at any time or not at all, and from what C95 mentions.  Each of
the classes may have synchronous or asynchronous methods.  As long as reading a CV gives the same in both after the
same writes and none of the decoders faults, they make the same calls, apart from answers to a command
station, and have the same state, apart from what BiDi is about. -/
theorem C100_callbacks {e e' : Env} (he : SameCvs e e') {F : Packet → Prop} {s t s' t' : Rx}
    (h : Similar (fun a b => effects a = effects b) F s t) (ops ops' : List RxOp)
    (hb : ops.filterMap withoutCallbacks = ops'.filterMap withoutCallbacks) (hF : ∀ p ∈ executed e s ops, F p)
    (hs : s.run e ops = .ok s') (ht : t.run e' ops' = .ok t') :
    Similar (fun a b => effects a = effects b) F s' t' :=
  (Pair.run (V := effects s.trace) (W := effects t.trace) he.replies ops ops'
    { h with callbacks := nofun, out := ⟨[], (List.append_nil _).symm, (List.append_nil _).symm⟩ }
    (by rw [bareOf_false]; exact hb) hF hs ht).toSimilar

theorem mem_effects (tr : List Event) : ∀ m : BitVec 32 → Byte, mem m (effects tr) = mem m tr := by
  induction tr with
  | nil => exact fun _ => rfl
  | cons ev tr ih =>
    intro m
    cases ev <;> exact ih _

/-- Classes with a memory of CVs hold the same CVs. -/
theorem sameCvs_memory {e e' : Env} {m : BitVec 32 → Byte} (h : MemoryLike e m) (h' : MemoryLike e' m)
    (hq : e.rxDeque = e'.rxDeque) (hh : e.highCurrent = e'.highCurrent) (hw : e.eastWest = e'.eastWest) :
    SameCvs e e' where
  rxDeque := hq
  highCurrent := hh
  eastWest := hw
  readCv a b cv hab := by rw [h.reads, h'.reads, ← mem_effects a, ← mem_effects b, hab]

/-- **C100** for decoders that are switched on: with synchronous and with asynchronous methods, and whenever
the callbacks are called, a decoder whose class is a memory of CVs makes the same calls, apart from answers to a
command station, holds the same CVs, and has the same configuration. -/
theorem C100_asynchronous {e e' : Env} {m : BitVec 32 → Byte} (he : MemoryLike e m) (he' : MemoryLike e' m)
    (hq : e.rxDeque = e'.rxDeque) (hh : e.highCurrent = e'.highCurrent) (hw : e.eastWest = e'.eastWest)
    (ops ops' : List RxOp) (hb : ops.filterMap withoutCallbacks = ops'.filterMap withoutCallbacks) (s s' : Rx)
    (hs : ({} : Rx).run e ops = .ok s) (hs' : ({} : Rx).run e' ops' = .ok s') :
    effects s.trace = effects s'.trace ∧ mem m s.trace = mem m s'.trace ∧ s.cfg = s'.cfg ∧
      s.addrs.primary = s'.addrs.primary ∧ s.addrs.consist = s'.addrs.consist ∧ s.mode = s'.mode := by
  have h := C100_callbacks (sameCvs_memory he he' hq hh hw)
    (Alike.refl (ρ := fun a b => effects a = effects b) (fun _ => True) rfl).toSimilar ops ops' hb (fun _ _ => trivial) hs hs'
  exact ⟨h.calls, by rw [← mem_effects s.trace, h.calls, mem_effects], h.cfg, h.primary, h.consist, h.mode⟩

/-- The class of the examples with asynchronous methods. -/
def Spec.asyncEnv : Env := { exampleEnv with asyncReadable := true, asyncWritable := true }

/-- Service mode: CV1 is set to 5.  After `callback` the decoder is driven at the addresses 3 and 5. -/
def Spec.readdressing (callback : List RxOp) : List RxOp :=
  .init :: .enable :: hears [0#8, 0#8, 0#8] ++ [.execute 0 0] ++ hears [0#8, 0#8, 0#8] ++ [.execute 0 0] ++
    hears [0x7C#8, 0#8, 5#8, 0x79#8] ++ [.execute 0 0] ++ hears [0x7C#8, 0#8, 5#8, 0x79#8] ++ [.execute 0 0] ++
    callback ++ hears [0xFF#8, 0#8, 0xFF#8] ++ [.execute 0 0] ++ hears [3#8, 0x3F#8, 0x80#8, 0xBC#8] ++
    [.execute 0 0] ++ hears [5#8, 0x3F#8, 0x80#8, 0xBA#8] ++ [.execute 0 0]

/-- The hypotheses of C100 hold: the decoder with an asynchronous class is driven at its new address like the one
with a synchronous class, but acknowledges only when the callback is called. -/
example : MemoryLike exampleEnv exampleCvs ∧ MemoryLike asyncEnv exampleCvs ∧
    (readdressing []).filterMap withoutCallbacks = (readdressing [.callbackByte 0 5#8]).filterMap withoutCallbacks ∧
    holdsAfter (({} : Rx).run exampleEnv (readdressing [])) (fun s =>
      s.trace.any (· == .direction 5#16 true) && s.trace.any (· == .serviceAck)) = true ∧
    holdsAfter (({} : Rx).run asyncEnv (readdressing [.callbackByte 0 5#8])) (fun s =>
      s.trace.any (· == .direction 5#16 true) && s.trace.any (· == .serviceAck)) = true ∧
    holdsAfter (({} : Rx).run asyncEnv (readdressing [])) (fun s =>
      s.trace.any (· == .direction 5#16 true) && !s.trace.any (· == .serviceAck)) = true :=
  ⟨⟨fun _ _ => rfl⟩, ⟨fun _ _ => rfl⟩, by decide +kernel, by decide +kernel, by decide +kernel, by decide +kernel⟩

/-- **C100** is false if an asynchronous method stores later than it returns: CV1 is written, the callback is called
and the write acknowledged, and reading CV1 gives 5, but the decoder still obeys address 3 and not address 5. -/
theorem C100_stored_later_false : ∃ s : Rx,
    ({} : Rx).run (lateEnv exampleCvs) (readdressing [.callbackByte 0 5#8]) = .ok s ∧ .serviceAck ∈ s.trace ∧
    (lateEnv exampleCvs).readCv s.trace 0#32 = 5#8 ∧ ¬ Reflects ((lateEnv exampleCvs).readCv s.trace) s ∧
    .direction 3#16 true ∈ s.trace ∧ .direction 5#16 true ∉ s.trace := by
  obtain ⟨s, hs, h⟩ := holdsAfter_ok (r := ({} : Rx).run (lateEnv exampleCvs) (readdressing [.callbackByte 0 5#8]))
    (p := fun s => decide (.serviceAck ∈ s.trace ∧ (lateEnv exampleCvs).readCv s.trace 0#32 = 5#8 ∧
      primaryNumber ((lateEnv exampleCvs).readCv s.trace) = 5 ∧ s.addrs.primary.value = 3#16 ∧
      .direction 3#16 true ∈ s.trace ∧ .direction 5#16 true ∉ s.trace)) (by decide +kernel)
  obtain ⟨h1, h2, h3, h4, h5, h6⟩ := of_decide_eq_true h
  refine ⟨s, hs, h1, h2, fun hR => ?_, h5, h6⟩
  have := hR.primaryValue
  rw [h3, h4] at this
  exact absurd this (by decide)

end Dcc
