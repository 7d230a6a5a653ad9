import Verif.Spec.Exec
/-! How many bytes an instruction has. -/
namespace Dcc.Spec

/-- The bytes an instruction has at least, without the check byte (RCN-212, RCN-214): consist control `0001xxxx`,
`001111xx` and the other instructions with a data byte two, `11000000`, CV accesses in the long form and the short
form for two CVs three. -/
def wholeLength (b : Byte) : Nat :=
  if b.toNat < 16 then 1
  else if b.toNat < 64 then 2
  else if b.toNat < 192 then 1
  else if b.toNat = 192 then 3
  else if b.toNat < 224 then 2
  else if b.toNat < 240 then 3
  else if b.toNat < 244 then 2
  else 3

/-- None of the bytes of the instruction is missing. -/
def Whole (data : List Byte) : Prop := ∃ b, data.head? = some b ∧ wholeLength b ≤ data.length

instance (data : List Byte) : Decidable (Whole data) :=
  match h : data.head? with
  | none => .isFalse fun ⟨b, hb, _⟩ => by rw [h] at hb; cases hb
  | some b =>
    if hl : wholeLength b ≤ data.length then .isTrue ⟨b, h, hl⟩
    else .isFalse fun ⟨c, hc, hl'⟩ => by rw [h] at hc; cases hc; exact hl hl'

/-- The instruction in a packet, without the check byte. -/
def instructionOf (p : Packet) : List Byte := (afterAddress p).dropLast

end Dcc.Spec
