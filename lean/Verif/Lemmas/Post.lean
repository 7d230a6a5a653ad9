import Verif.Model.RxMachine
/-! Reasoning about functions that may fault: what holds of the result if there is one. -/
namespace Dcc

/-- If there is a result then `P` holds of it. -/
structure Post {α} (x : R α) (P : α → Prop) : Prop where
  out : ∀ a, x = .ok a → P a

theorem Post.ok {α} {a : α} {P : α → Prop} (h : P a) : Post (.ok a) P := by
  refine ⟨fun b hb => ?_⟩; cases hb; exact h

theorem Post.pure {α} {a : α} {P : α → Prop} (h : P a) : Post (pure a : R α) P := Post.ok h

theorem Post.error {α} {f : Fault} {P : α → Prop} : Post (.error f) P := by
  refine ⟨fun b hb => ?_⟩; cases hb

theorem Post.bind {α β} {x : R α} {f : α → R β} {Q : α → Prop} {P : β → Prop}
    (hx : Post x Q) (hf : ∀ a, Q a → Post (f a) P) : Post (x >>= f) P := by
  refine ⟨fun b hb => ?_⟩
  obtain ⟨a, h1, h2⟩ := bind_eq_ok.mp hb
  exact (hf a (hx.out a h1)).out b h2

theorem Post.bind_any {α β} {x : R α} {f : α → R β} {P : β → Prop}
    (hf : ∀ a, Post (f a) P) : Post (x >>= f) P :=
  Post.bind (Q := fun _ => True) ⟨fun _ _ => trivial⟩ (fun a _ => hf a)

theorem Post.mono {α} {x : R α} {P Q : α → Prop} (h : Post x P) (hpq : ∀ a, P a → Q a) : Post x Q :=
  ⟨fun a ha => hpq a (h.out a ha)⟩

theorem Post.and {α} {x : R α} {P Q : α → Prop} (h : Post x P) (h' : Post x Q) :
    Post x (fun a => P a ∧ Q a) := ⟨fun a ha => ⟨h.out a ha, h'.out a ha⟩⟩

/-- There is a result and `P` holds of it. -/
def Total {α} (x : R α) (P : α → Prop) : Prop := ∃ a, x = .ok a ∧ P a

theorem Total.ok {α} {a : α} {P : α → Prop} (h : P a) : Total (.ok a) P := ⟨a, rfl, h⟩

theorem Total.pure {α} {a : α} {P : α → Prop} (h : P a) : Total (pure a : R α) P := ⟨a, rfl, h⟩

theorem Total.bind {α β} {x : R α} {f : α → R β} {Q : α → Prop} {P : β → Prop}
    (hx : Total x Q) (hf : ∀ a, Q a → Total (f a) P) : Total (x >>= f) P := by
  obtain ⟨a, rfl, ha⟩ := hx
  exact hf a ha

theorem Total.mono {α} {x : R α} {P Q : α → Prop} (h : Total x P) (hpq : ∀ a, P a → Q a) :
    Total x Q := by
  obtain ⟨a, h1, h2⟩ := h
  exact ⟨a, h1, hpq a h2⟩

theorem Total.and_post {α} {x : R α} {P Q : α → Prop} (h : Total x P) (h' : Post x Q) :
    Total x (fun a => P a ∧ Q a) := by
  obtain ⟨a, h1, h2⟩ := h
  exact ⟨a, h1, h2, h'.out a h1⟩

end Dcc
