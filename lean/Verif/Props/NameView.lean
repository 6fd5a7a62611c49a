import Verif.Proofs.Names
import Verif.Props.Names

/-! C15: the list view of name tables used by the models of the API. -/

namespace Gdx.Props
open Gdx Gdx.Spec

/-- C15: in a 1-based table without two entries of the same name, reached by any history of operations, IndexOf of the hash
    list is `lookup` in the list of its strings, for either kind of comparison. -/
theorem C15_list_view {α : Type} (cs : Bool) (os : List (TOp α)) (l : HList α)
    (h : HList.empty.run cs true (os.map toHOp) = .ok l) (hd : l.ents.Pairwise fun a b => ¬ SameName cs a.1 b.1) (s : Str) :
    ∃ l', l.indexOf cs s = .ok (l', lookup cs s (l.ents.map Prod.fst)) := by
  have hc := C15_lookup cs os
  cases ht : (Table.mk ([] : List (Str × α)) false).run cs os with
  | none => rw [ht] at hc; simp only at hc; rw [hc] at h; cases h
  | some t =>
    rw [ht] at hc
    obtain ⟨l2, h1, h2, h3⟩ := hc
    rw [h1] at h
    cases h
    obtain ⟨l', r, h4, _, h6⟩ := h3 s
    refine ⟨l', ?_⟩
    rw [h4]
    have hd' : Distinct cs (l.ents.map Prod.fst) := List.pairwise_map.mpr hd
    congr 2
    cases r with
    | none =>
      symm
      rw [lookup_none]
      intro x hx
      obtain ⟨e, he, rfl⟩ := List.mem_map.mp hx
      exact h6.none_iff.mp rfl e (h2 ▸ he)
    | some n =>
      obtain ⟨e, he, hs⟩ := h6.found n rfl
      symm
      refine hd'.lookup (x := e.1) ?_ hs
      rw [List.getElem?_map, h2, he]
      rfl

-- the table with "Ef", "cd", "AB": "eF" is entry 0
example : lookup false [101, 70] [[69, 102], [99, 100], [65, 66]] = some 0 := by decide

#print axioms C15_list_view

end Gdx.Props
