/-!
Specification of a stable sort by key, independent of the model.
-/

namespace Gdx.Spec

/-- `b` is a stable lexicographic sort of `a` with respect to `key`: sorted, and for each key the elements with that key
    are the same ones in the same order. -/
structure StableSorted {β : Type} (key : β → List Int) (a b : List β) : Prop where
  sorted : b.Pairwise fun x y => ¬ key y < key x
  stable : ∀ k : List Int, b.filter (fun x => key x = k) = a.filter (fun x => key x = k)

end Gdx.Spec
