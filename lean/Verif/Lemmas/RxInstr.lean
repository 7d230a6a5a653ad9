import Verif.Lemmas.RxCv
import Verif.Lemmas.Utility
/-! What each instruction may change. -/
namespace Dcc
open Spec (locoNumber afterAddress Active ForDecoder target LogonStores)

/-- Only calls for the locomotive are made, and the MAN flag may change. -/
def Drives (addr : BitVec 16) (s s' : Rx) : Prop :=
  ∃ evs m, s' = { s with trace := s.trace ++ evs, man := m } ∧
    ∀ ev ∈ evs, ev.locoAddr = some addr

theorem Drives.refl (addr : BitVec 16) (s : Rx) : Drives addr s s := ⟨[], s.man, by simp, by simp⟩

theorem Drives.trans {addr : BitVec 16} {a b c : Rx} (h : Drives addr a b) (g : Drives addr b c) :
    Drives addr a c := by
  obtain ⟨e1, m1, rfl, q1⟩ := h
  obtain ⟨e2, m2, rfl, q2⟩ := g
  refine ⟨e1 ++ e2, m2, by simp, fun ev hev => ?_⟩
  rcases List.mem_append.mp hev with h | h
  · exact q1 ev h
  · exact q2 ev h

theorem Drives.emit (addr : BitVec 16) (s : Rx) (ev : Event) (h : ev.locoAddr = some addr) :
    Drives addr s (s.emit ev) := ⟨[ev], s.man, rfl, by simpa using h⟩

theorem drives_directionSpeed (s : Rx) (a : BitVec 16) (d : Bool) (v : Int) :
    Drives a s (s.directionSpeed a d v) :=
  (Drives.emit a s _ rfl).trans (.emit a _ _ rfl)

theorem drives_speed126 (s : Rx) (a : BitVec 16) (b : Byte) : Drives a s (s.speed126 a b) := by
  unfold Rx.speed126
  dsimp only
  split
  · exact drives_directionSpeed ..
  split
  · exact .emit _ _ _ rfl
  · exact drives_directionSpeed ..

theorem drives_special (e : Env) (s : Rx) (a : BitVec 16) (b : Byte) :
    Drives a s (s.specialOperatingModes e a b) := by
  unfold Rx.specialOperatingModes
  dsimp only
  have h0 : Drives a s { s with man := b.getLsbD 7 } :=
    ⟨[], b.getLsbD 7, by rw [List.append_nil], by simp⟩
  split
  · split
    · exact h0.trans (.emit _ _ _ rfl)
    split
    · exact h0.trans (.emit _ _ _ rfl)
    · exact h0.trans (.emit _ _ _ rfl)
  · exact h0

theorem drives_optFunctions (s : Rx) (a : BitVec 16) (bs : List Byte) (i : Nat) (m : BitVec 32)
    (sh : Nat) : Post (s.optFunctions a bs i m sh) (Drives a s) := by
  unfold Rx.optFunctions
  split
  · split
    · exact Post.ok (.emit _ _ _ rfl)
    · exact Post.error
  · exact Post.ok (.refl _ _)

theorem drives_speedDirFunctions (s : Rx) (a : BitVec 16) (bs : List Byte) :
    Post (s.speedDirFunctions a bs) (Drives a s) := by
  unfold Rx.speedDirFunctions
  refine Post.bind (drives_optFunctions ..) fun s1 h1 => ?_
  refine Post.bind (drives_optFunctions ..) fun s2 h2 => ?_
  refine Post.bind (drives_optFunctions ..) fun s3 h3 => ?_
  exact (drives_optFunctions ..).mono fun s4 h4 => ((h1.trans h2).trans h3).trans h4

theorem drives_advanced (e : Env) (s : Rx) (a : BitVec 16) (bs : List Byte) :
    Post (s.advancedOperations e a bs) (Drives a s) := by
  unfold Rx.advancedOperations
  refine Post.bind_any fun b0 => ?_
  split
  · refine Post.bind (drives_speedDirFunctions ..) fun s1 h1 => ?_
    exact Post.bind_any fun b1 => Post.ok (h1.trans (drives_speed126 ..))
  split
  · exact Post.bind_any fun b1 => Post.ok (drives_speed126 ..)
  split
  · exact Post.bind_any fun b1 => Post.ok (drives_special ..)
  · exact Post.ok (.refl _ _)

theorem drives_speedAndDirection (s : Rx) (a : BitVec 16) (bs : List Byte) :
    Post (s.speedAndDirection a bs) (Drives a s) := by
  unfold Rx.speedAndDirection
  refine Post.bind_any fun b0 => ?_
  dsimp only
  split
  · exact Post.ok (.emit _ _ _ rfl)
  · split
    · exact Post.ok ((Drives.emit _ _ _ rfl).trans (drives_directionSpeed ..))
    · exact Post.ok (drives_directionSpeed ..)

theorem drives_functionGroup (s : Rx) (a : BitVec 16) (bs : List Byte) :
    Post (s.functionGroup a bs) (Drives a s) := by
  unfold Rx.functionGroup
  refine Post.bind_any fun b0 => ?_
  dsimp only
  generalize (if s.cfg.f0Exception then 0x1E#32 else 0x1F#32 : BitVec 32) = m
  repeat' split
  all_goals exact Post.ok (.emit _ _ _ rfl)

/-- Only the answer to a tip-off search is prepared. -/
def Searches (s s' : Rx) : Prop :=
  ∃ b q, s' = { s with tosBackoff := b, q := { s.q with tos := q } }

theorem searches_tipOffSearch (s : Rx) (rand : Nat) : Post (s.tipOffSearch rand) (Searches s) := by
  unfold Rx.tipOffSearch
  dsimp only
  split
  · exact Post.ok ⟨_, _, rfl⟩
  split
  · exact Post.ok ⟨_, _, rfl⟩
  · refine Post.bind_any fun a => Post.bind_any fun b => Post.bind_any fun c => Post.bind_any fun d => ?_
    exact Post.ok ⟨_, _, rfl⟩

theorem featureExpansion_cases (s : Rx) (a : BitVec 16) (bs : List Byte) (rand : Nat) :
    Post (s.featureExpansion a bs rand) (fun s' =>
      (∃ b, bs.head? = some b ∧ (b = 0xDE#8 ∨ b = 0xDF#8) ∧ Drives a s s') ∨
      (∃ b, bs.head? = some b ∧ b ≠ 0xDE#8 ∧ b ≠ 0xDF#8 ∧ Searches s s')) := by
  unfold Rx.featureExpansion
  obtain _ | ⟨b, rest⟩ := bs
  · exact Post.error
  rw [byteAt_zero, ok_bind]
  have hs : ∀ (x : BitVec 32) (st : Bool), Post (s.binaryState x st rand) (Searches s) := by
    intro x st
    unfold Rx.binaryState
    split
    · exact searches_tipOffSearch ..
    · exact Post.ok ⟨_, _, rfl⟩
  split
  · rename_i h
    refine Post.bind_any fun _ => Post.bind_any fun _ => (hs _ _).mono fun s' h' => .inr ⟨b, rfl, ?_, ?_, h'⟩ <;>
      (rw [h]; decide)
  split
  · rename_i h
    refine Post.bind_any fun _ => (hs _ _).mono fun s' h' => .inr ⟨b, rfl, ?_, ?_, h'⟩ <;>
      (rw [h]; decide)
  split
  · rename_i h
    exact Post.bind_any fun _ => Post.ok (.inl ⟨b, rfl, .inl h, .emit _ _ _ rfl⟩)
  split
  · rename_i h
    exact Post.bind_any fun _ => Post.ok (.inl ⟨b, rfl, .inr h, .emit _ _ _ rfl⟩)
  · exact Post.ok (.inr ⟨b, rfl, by assumption, by assumption, _, _, rfl⟩)

/-- What executing an instruction can be. -/
inductive InstrCase (e : Env) (s : Rx) (addr : BitVec 16) (p : Packet) (bs : List Byte) (s' : Rx)
    (b : Byte) : Prop
  | enter (ha : addr = 0#16) (hb : b = 0#8) (h : s' = s.setServiceMode true)
  | control (hc : decodeInstructionByte b = .decoderControl) (hn : ¬ (addr = 0#16 ∧ b = 0#8))
      (h : s' = s)
  | consist (hc : decodeInstructionByte b = .consistControl) (h : s.consistControl e bs = .ok s')
  | drives (hc : decodeInstructionByte b = .advancedOperations ∨
      decodeInstructionByte b = .speedDirection ∨ decodeInstructionByte b = .functionGroup ∨
      b = 0xDE#8 ∨ b = 0xDF#8) (h : Drives addr s s')
  | searches (hc : decodeInstructionByte b = .featureExpansion) (h1 : b ≠ 0xDE#8) (h2 : b ≠ 0xDF#8)
      (h : Searches s s')
  | cvLong (hc : decodeInstructionByte b = .cvLong) (h : s.cvLong e addr p bs = .ok s')
  | cvShort (hc : decodeInstructionByte b = .cvShort) (h : s.cvShort e addr p bs = .ok s')

theorem instruction_cases (e : Env) (s s' : Rx) (addr : BitVec 16) (p : Packet) (bs : List Byte)
    (rand : Nat) (h : s.executeInstruction e addr p bs rand = .ok s') :
    ∃ b, bs.head? = some b ∧ InstrCase e s addr p bs s' b := by
  unfold Rx.executeInstruction decodeInstruction at h
  obtain _ | ⟨b, rest⟩ := bs
  · cases h
  rw [byteAt_zero] at h
  refine ⟨b, rfl, ?_⟩
  simp only [ok_bind, pure_eq_ok] at h
  cases hc : decodeInstructionByte b <;> rw [hc] at h <;> dsimp only at h
  · exact absurd hc (by revert b; decide +kernel)
  · split at h
    · split at h
      · cases h; exact .enter (by assumption) (by assumption) rfl
      · cases h; exact .control hc (fun hh => by simp_all) rfl
    · cases h; exact .control hc (fun hh => by simp_all) rfl
  · exact .consist hc h
  · exact .drives (.inl hc) ((drives_advanced e s addr _).out _ h)
  · exact .drives (.inr (.inl hc)) ((drives_speedAndDirection s addr _).out _ h)
  · exact .drives (.inr (.inr (.inl hc))) ((drives_functionGroup s addr _).out _ h)
  · rcases (featureExpansion_cases s addr _ rand).out _ h with ⟨c, h1, h2, h3⟩ | ⟨c, h1, h2, h3, h4⟩
    · cases h1; exact .drives (.inr (.inr (.inr h2))) h3
    · cases h1; exact .searches hc h2 h3 h4
  · exact .cvLong hc h
  · exact .cvShort hc h
  · exact absurd hc (by revert b; decide +kernel)

/-- What every CV instruction leaves alone, besides counting the packet. -/
structure CvInstr (s s' : Rx) : Prop where
  indexReg : s'.indexReg = s.indexReg
  mode : s'.mode = s.mode
  man : s'.man = s.man
  tosBackoff : s'.tosBackoff = s.tosBackoff
  tos : s'.q.tos = s.q.tos
  adds : Adds (fun ev => ev.isCv = true) s s'

theorem CvFrame.instr {s s' : Rx} (h : CvFrame s s') : CvInstr s s' :=
  ⟨h.indexReg, h.mode, h.man, h.tosBackoff, h.tos, h.adds⟩

theorem count_instr (s : Rx) (p : Packet) : CvInstr s (s.countOwnEqualCvPackets p) := by
  unfold Rx.countOwnEqualCvPackets
  split <;> exact ⟨rfl, rfl, rfl, rfl, rfl, .of_eq rfl⟩

theorem CvInstr.trans {a b c : Rx} (h : CvInstr a b) (g : CvInstr b c) : CvInstr a c :=
  ⟨g.indexReg.trans h.indexReg, g.mode.trans h.mode, g.man.trans h.man,
    g.tosBackoff.trans h.tosBackoff, g.tos.trans h.tos, h.adds.trans g.adds⟩

theorem CvInstr.refl (s : Rx) : CvInstr s s := (CvFrame.refl s).instr

theorem instr_cvLong (e : Env) (s : Rx) (addr : BitVec 16) (p : Packet) (bs : List Byte) :
    Post (s.cvLong e addr p bs) (CvInstr s) := by
  unfold Rx.cvLong
  split
  · exact Post.ok (.refl s)
  dsimp only
  split
  · exact Post.ok (count_instr s p)
  · exact (cv_longBody ..).mono fun s' h => (count_instr s p).trans h.instr

theorem instr_cvShort (e : Env) (s : Rx) (addr : BitVec 16) (p : Packet) (bs : List Byte) :
    Post (s.cvShort e addr p bs) (CvInstr s) := by
  unfold Rx.cvShort
  split
  · exact Post.ok (.refl s)
  · exact (cv_shortBody ..).mono fun s' h => (count_instr s p).trans h.instr

theorem instr_consist (e : Env) (s : Rx) (bs : List Byte) :
    Post (s.consistControl e bs) (CvFrame s) := by
  unfold Rx.consistControl
  exact Post.bind_any fun _ => Post.bind_any fun _ => cv_writeByte ..

end Dcc
