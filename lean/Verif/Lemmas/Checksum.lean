import Verif.Model.Checksum
import Verif.Spec.Codec
import Verif.Lemmas.Bits
/-! Helper lemmas about the two checksums. -/
namespace Dcc

theorem foldl_xor (bs : List Byte) (a : Byte) :
    bs.foldl (fun a b => a ^^^ b) a = a ^^^ exor bs := by
  unfold exor
  induction bs generalizing a with
  | nil => simp
  | cons b bs ih =>
    simp only [List.foldl_cons]
    rw [ih, ih (0#8 ^^^ b), BitVec.zero_xor, BitVec.xor_assoc]

@[simp] theorem exor_nil : exor [] = 0#8 := rfl

theorem exor_cons (b : Byte) (bs : List Byte) : exor (b :: bs) = b ^^^ exor bs := by
  simp only [exor, List.foldl_cons, BitVec.zero_xor]
  exact foldl_xor bs b

theorem exor_append (as bs : List Byte) : exor (as ++ bs) = exor as ^^^ exor bs := by
  induction as with
  | nil => simp
  | cons a as ih => simp [exor_cons, ih, BitVec.xor_assoc]

theorem exor_finish (bs : List Byte) : exor (bs ++ [exor bs]) = 0#8 := by
  rw [exor_append, exor_cons]; simp

theorem exor_set (p : List Byte) (i : Nat) (b : Byte) (h : i < p.length) :
    exor (p.set i b) = exor p ^^^ (p[i] ^^^ b) := by
  induction p generalizing i with
  | nil => simp at h
  | cons a p ih =>
    cases i with
    | zero =>
      simp only [List.set_cons_zero, exor_cons, List.getElem_cons_zero]
      rw [BitVec.xor_comm a (exor p), BitVec.xor_assoc, ← BitVec.xor_assoc a a b]
      simp [BitVec.xor_comm]
    | succ i =>
      simp only [List.set_cons_succ, exor_cons, List.getElem_cons_succ]
      rw [ih i (by simpa using h), BitVec.xor_assoc]

theorem xor_eq_zero_iff {w} (a b : BitVec w) : a ^^^ b = 0#w ↔ a = b := by
  constructor
  · intro h
    have : (a ^^^ b) ^^^ b = 0#w ^^^ b := by rw [h]
    rw [BitVec.xor_assoc] at this
    simpa using this
  · rintro rfl; simp

/-! ### CRC -/

theorem crc8Byte_eq_spec : ∀ b : Byte, crc8Byte b = Spec.crcStep 0#8 b := by decide +kernel

theorem crcStep_xor (c b : Byte) : Spec.crcStep c b = Spec.crcStep 0#8 (c ^^^ b) := by
  simp [Spec.crcStep]

theorem crc8_eq_spec (m : List Byte) : crc8 m = Spec.crcMsg m := by
  unfold crc8 Spec.crcMsg
  have : (fun a b => crc8Byte (a ^^^ b)) = Spec.crcStep := by
    funext a b; rw [crc8Byte_eq_spec, ← crcStep_xor]
  rw [this]

theorem crcBit_xor (a b : Byte) : Spec.crcBit (a ^^^ b) = Spec.crcBit a ^^^ Spec.crcBit b := by
  unfold Spec.crcBit
  have e : ∀ x y z : Byte, x ^^^ z ^^^ y = x ^^^ y ^^^ z := by
    intro x y z; rw [BitVec.xor_assoc, BitVec.xor_comm z y, ← BitVec.xor_assoc]
  have e2 : ∀ x y z : Byte, x ^^^ z ^^^ (y ^^^ z) = x ^^^ y := by
    intro x y z; rw [e x (y ^^^ z) z, ← BitVec.xor_assoc, BitVec.xor_assoc, BitVec.xor_self,
      BitVec.xor_zero]
  rw [BitVec.getLsbD_xor, BitVec.ushiftRight_xor_distrib]
  cases a.getLsbD 0 <;> cases b.getLsbD 0
  · rfl
  · exact BitVec.xor_assoc _ _ _
  · exact (e _ _ _).symm
  · exact (e2 _ _ _).symm

theorem crcBit_zero : Spec.crcBit 0#8 = 0#8 := by decide
theorem crcBit_eq_zero : ∀ c : Byte, Spec.crcBit c = 0#8 → c = 0#8 := by decide +kernel

theorem crcStep_linear (a b c d : Byte) :
    Spec.crcStep (a ^^^ b) (c ^^^ d) = Spec.crcStep a c ^^^ Spec.crcStep b d := by
  have : a ^^^ b ^^^ (c ^^^ d) = (a ^^^ c) ^^^ (b ^^^ d) := by grind
  simp only [Spec.crcStep, this, crcBit_xor]

theorem crc_foldl_linear (m n : List Byte) (h : m.length = n.length) (a b : Byte) :
    (Spec.xorMsg m n).foldl Spec.crcStep (a ^^^ b) =
      m.foldl Spec.crcStep a ^^^ n.foldl Spec.crcStep b := by
  induction m generalizing n a b with
  | nil => cases n with
    | nil => rfl
    | cons _ _ => simp at h
  | cons x m ih => cases n with
    | nil => simp at h
    | cons y n =>
      simp only [Spec.xorMsg, List.zipWith_cons_cons, List.foldl_cons]
      rw [crcStep_linear]
      exact ih n (by simpa using h) _ _

/-- One bit through the register. -/
def crcBitIn (c : Byte) (x : Bool) : Byte := Spec.crcBit (c ^^^ (BitVec.ofBool x).setWidth 8)

theorem crcBitIn_linear (a b : Byte) (x y : Bool) :
    crcBitIn (a ^^^ b) (x ^^ y) = crcBitIn a x ^^^ crcBitIn b y := by
  unfold crcBitIn
  rw [← crcBit_xor]
  congr 1
  cases x <;> cases y <;> simp <;> grind

def bits8 (b : Byte) : List Bool := (List.range 8).map fun i => b.getLsbD i

theorem crcBits_zero_reg : ∀ b : Byte, (bits8 b).foldl crcBitIn 0#8 = Spec.crcStep 0#8 b := by
  decide +kernel

theorem crcBits_zero_msg : ∀ c : Byte, (bits8 0#8).foldl crcBitIn c = Spec.crcStep c 0#8 := by
  decide +kernel

theorem crcBits_foldl_linear (xs ys : List Bool) (h : xs.length = ys.length) (a b : Byte) :
    (List.zipWith (· ^^ ·) xs ys).foldl crcBitIn (a ^^^ b) =
      xs.foldl crcBitIn a ^^^ ys.foldl crcBitIn b := by
  induction xs generalizing ys a b with
  | nil => cases ys with
    | nil => rfl
    | cons _ _ => simp at h
  | cons x xs ih => cases ys with
    | nil => simp at h
    | cons y ys =>
      simp only [List.zipWith_cons_cons, List.foldl_cons]
      rw [crcBitIn_linear]
      exact ih ys (by simpa using h) _ _

theorem crcStep_bits (c b : Byte) : (bits8 b).foldl crcBitIn c = Spec.crcStep c b := by
  have h1 := crcBits_foldl_linear (bits8 0#8) (bits8 b) (by simp [bits8]) c 0#8
  have h2 : List.zipWith (· ^^ ·) (bits8 0#8) (bits8 b) = bits8 b := by
    simp [bits8, List.range, List.range.loop]
  rw [h2, crcBits_zero_msg, crcBits_zero_reg, ← crcStep_linear] at h1
  simpa using h1

theorem crcMsg_bits (m : List Byte) (c : Byte) :
    (Spec.msgBits m).foldl crcBitIn c = m.foldl Spec.crcStep c := by
  induction m generalizing c with
  | nil => rfl
  | cons b m ih =>
    have : Spec.msgBits (b :: m) = bits8 b ++ Spec.msgBits m := by
      simp [Spec.msgBits, bits8]
    rw [this, List.foldl_append, crcStep_bits, List.foldl_cons, ih]

theorem crcBits_zeros (l : List Bool) (h : ∀ x ∈ l, x = false) : l.foldl crcBitIn 0#8 = 0#8 := by
  induction l with
  | nil => rfl
  | cons x l ih =>
    have hx := h x (by simp)
    subst hx
    have : crcBitIn 0#8 false = 0#8 := by decide
    simp only [List.foldl_cons, this]
    exact ih fun y hy => h y (by simp [hy])

theorem crcBits_zeros_ne (l : List Bool) (h : ∀ x ∈ l, x = false) (c : Byte) (hc : c ≠ 0#8) :
    l.foldl crcBitIn c ≠ 0#8 := by
  induction l generalizing c with
  | nil => exact hc
  | cons x l ih =>
    have hx := h x (by simp)
    subst hx
    simp only [List.foldl_cons]
    apply ih fun y hy => h y (by simp [hy])
    intro h0
    exact hc (crcBit_eq_zero c (by simpa [crcBitIn] using h0))

theorem crcBits_eight : ∀ b0 b1 b2 b3 b4 b5 b6 b7 : Bool,
    [b0, b1, b2, b3, b4, b5, b6, b7].foldl crcBitIn 0#8 = 0#8 →
    [b0, b1, b2, b3, b4, b5, b6, b7] = List.replicate 8 false := by decide +kernel

theorem crcBits_window (l : List Bool) (hl : l.length ≤ 8) (h : true ∈ l) :
    l.foldl crcBitIn 0#8 ≠ 0#8 := by
  intro h0
  have hp : (l ++ List.replicate (8 - l.length) false).foldl crcBitIn 0#8 = 0#8 := by
    rw [List.foldl_append, h0]
    exact crcBits_zeros _ (by simp)
  have hlen : (l ++ List.replicate (8 - l.length) false).length = 8 := by simp; omega
  generalize hq : l ++ List.replicate (8 - l.length) false = q at hp hlen
  match q, hlen, hp with
  | [b0, b1, b2, b3, b4, b5, b6, b7], _, hp =>
    have := crcBits_eight b0 b1 b2 b3 b4 b5 b6 b7 hp
    have hm : true ∈ l ++ List.replicate (8 - l.length) false := by simp [h]
    rw [hq, this] at hm
    simp at hm

theorem popcount_crcBit : ∀ c : Byte, Spec.popcount (Spec.crcBit c) % 2 = Spec.popcount c % 2 := by
  decide +kernel

theorem popcount_crcStep0 : ∀ b : Byte,
    Spec.popcount (Spec.crcStep 0#8 b) % 2 = Spec.popcount b % 2 := by
  decide +kernel

theorem parity_xor_bit (f g : Nat → Bool) (l : List Nat) :
    (l.countP fun i => f i ^^ g i) % 2 = (l.countP f + l.countP g) % 2 := by
  induction l with
  | nil => rfl
  | cons x l ih =>
    simp only [List.countP_cons]
    cases hf : f x <;> cases hg : g x <;> simp <;> omega

theorem popcount_xor {w} (a b : BitVec w) :
    Spec.popcount (a ^^^ b) % 2 = (Spec.popcount a + Spec.popcount b) % 2 := by
  unfold Spec.popcount
  rw [← parity_xor_bit]
  simp

theorem popcount_crcMsg (m : List Byte) (c : Byte) :
    Spec.popcount (m.foldl Spec.crcStep c) % 2 =
      (Spec.popcount c + (m.map Spec.popcount).sum) % 2 := by
  induction m generalizing c with
  | nil => simp
  | cons b m ih =>
    simp only [List.foldl_cons, List.map_cons, List.sum_cons]
    rw [ih, Nat.add_mod, crcStep_xor, popcount_crcStep0, popcount_xor]
    omega

theorem crc8_snoc (m : List Byte) (b : Byte) : crc8 (m ++ [b]) = crc8Byte (crc8 m ^^^ b) := by
  simp [crc8]

theorem crc8_append_self (m : List Byte) : crc8 (m ++ [crc8 m]) = 0#8 := by
  rw [crc8_snoc, BitVec.xor_self]; decide

theorem crc8_zero_last (m : List Byte) (b : Byte) (h : crc8 (m ++ [b]) = 0#8) : b = crc8 m := by
  rw [crc8_snoc] at h
  have key : ∀ x : Byte, crc8Byte x = 0#8 → x = 0#8 := by decide +kernel
  exact ((xor_eq_zero_iff _ _).mp (key _ h)).symm

end Dcc
