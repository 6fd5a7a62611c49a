import Verif.Proofs.RadixSort

/-! C16: record sorting. -/

namespace Gdx.Props
open Gdx Gdx.Spec

variable {α : Type}

/-- Records that can be held by the sort list: `dim` keys, each a non-negative int below INT_MAX. -/
def SortableItem (dim : Nat) (it : LItem α) : Prop :=
  it.key.length = dim ∧ ∀ k ∈ it.key, 0 ≤ k ∧ k ≤ 2147483646

/-- C16: adding any records and reading them back through Sort is defined and gives a permutation of the records, in
    lexicographic order, records with equal keys in the order of insertion; this determines the result uniquely. -/
theorem C16_sort (dim : Nat) (its : List (LItem α)) (h : ∀ it ∈ its, SortableItem dim it) :
    ∃ s out, LData.empty.addAll its = .ok s ∧ s.readAll dim = .ok out ∧ out.Perm its ∧
      StableSorted LItem.key its out ∧ ∀ out', StableSorted LItem.key its out' → out' = out := by
  obtain ⟨s, e1, e2, hi⟩ := (LInv.empty dim).addAll its h
  obtain ⟨s', e3, hs⟩ := hi.sort
  have e4 : s.items = its := by rw [e2]; rfl
  rw [e4] at hs
  refine ⟨s, s'.items, e1, ?_, hs.perm, hs, fun out' h' => h'.unique hs⟩
  unfold LData.readAll
  by_cases h0 : s.items.length = 0
  · have h1 : its = [] := by rw [← e4]; exact List.length_eq_zero_iff.mp h0
    have h2 : s'.items = [] := by
      have := hs.perm.length_eq
      rw [h1] at this
      exact List.length_eq_zero_iff.mp this
    simp [h0, h2]
  · simp [h0, e3]

/-- C16: the shortcut. If the list is already sorted, the records come back exactly as they were added. -/
theorem C16_shortcut (dim : Nat) (its : List (LItem α)) (h : ∀ it ∈ its, SortableItem dim it)
    (hs : its.Pairwise fun x y => ¬ y.key < x.key) :
    ∃ s, LData.empty.addAll its = .ok s ∧ s.readAll dim = .ok its := by
  obtain ⟨s, out, e1, e2, _, _, hu⟩ := C16_sort dim its h
  exact ⟨s, e1, by rw [e2, ← hu its ⟨hs, fun _ => rfl⟩]⟩

-- four records of dimension 2 in wrong order with a repeated key
def exItems : List (LItem Nat) := [⟨[5, 1], 10⟩, ⟨[2, 7], 11⟩, ⟨[5, 1], 12⟩, ⟨[2, 3], 13⟩]
example : ∀ it ∈ exItems, SortableItem 2 it := by
  intro it h
  simp only [exItems, List.mem_cons, List.not_mem_nil, or_false] at h
  rcases h with rfl | rfl | rfl | rfl <;> exact ⟨rfl, by decide⟩
example : (LData.empty.addAll exItems >>= LData.readAll 2) =
    .ok [⟨[2, 3], 13⟩, ⟨[2, 7], 11⟩, ⟨[5, 1], 10⟩, ⟨[5, 1], 12⟩] := by decide
example : ([⟨[2, 3], 1⟩, ⟨[2, 3], 0⟩, ⟨[3, 1], 5⟩] : List (LItem Nat)).Pairwise fun x y => ¬ y.key < x.key := by decide

/-- C16: the condition that nothing is added after sorting is needed (FTail is a null pointer then). -/
theorem C16_add_after_sort : ∃ s s' : LData Nat, LData.empty.addAll [⟨[2], 0⟩, ⟨[1], 1⟩] = .ok s ∧ s.sort 1 = .ok s' ∧
    s'.add ⟨[3], 2⟩ = .ub := ⟨_, _, rfl, rfl, by decide⟩

#print axioms C16_sort
#print axioms C16_shortcut
#print axioms C16_add_after_sort

end Gdx.Props
