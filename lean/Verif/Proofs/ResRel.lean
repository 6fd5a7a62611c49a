import Verif.Proofs.Evo

/-! Two computations compared. -/

namespace Gdx

/-- both undefined, or both defined and related -/
def ResRel {α β : Type} (R : α → β → Prop) : Res α → Res β → Prop
  | .ok a, .ok b => R a b
  | .ub, .ub => True
  | _, _ => False

theorem ResRel.bind {α β γ δ : Type} {R : α → β → Prop} {S : γ → δ → Prop} {x : Res α} {y : Res β} {f : α → Res γ} {k : β → Res δ}
    (h : ResRel R x y) (hf : ∀ a b, R a b → ResRel S (f a) (k b)) : ResRel S (x >>= f) (y >>= k) := by
  cases x <;> cases y <;> first | exact h.elim | trivial | exact hf _ _ h

theorem ResRel.same {α γ δ : Type} {S : γ → δ → Prop} {x : Res α} {f : α → Res γ} {k : α → Res δ}
    (hf : ∀ a, ResRel S (f a) (k a)) : ResRel S (x >>= f) (x >>= k) := by
  cases x
  · exact hf _
  · trivial

theorem ResRel.sameE {α γ δ : Type} {S : γ → δ → Prop} {x : Res α} {f : α → Res γ} {k : α → Res δ}
    (hf : ∀ a, x = .ok a → ResRel S (f a) (k a)) : ResRel S (x >>= f) (x >>= k) := by
  cases x
  · exact hf _ rfl
  · trivial

theorem ResRel.withLeft {α β : Type} {R : α → β → Prop} {P : α → Prop} {x : Res α} {y : Res β} (h : ResRel R x y) (hx : x.All P) :
    ResRel (fun a b => R a b ∧ P a) x y := by
  cases x <;> cases y <;> first | exact h.elim | exact ⟨h, hx⟩ | trivial

end Gdx
