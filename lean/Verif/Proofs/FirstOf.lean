import Verif.Spec.Writing
import Verif.Proofs.RadixSort

/-!
Records in the order of their keys: which are stored, and why the others are refused.
-/

namespace Gdx

open Spec

variable {α : Type}

theorem verdict_sorted {doms : List Dom} {dim : Nat} (hd : dim ≠ 0) {o : Option (List Int)} {k : List Int} (ho : ∀ l, o = some l → ¬ k < l) :
    verdict doms dim o k = if inside doms k = false then .outside else if o = some k then .duplicate else .stored := by
  unfold verdict inside
  by_cases hi : true ∈ outsides doms k
  · simp [hi]
  · simp only [hi, hd, if_false, not_false_eq_true, decide_true, Bool.true_eq_false]
    cases o with
    | none => simp
    | some l =>
      dsimp only
      by_cases he : k = l
      · subst he
        rw [if_neg (List.lt_irrefl k), if_pos rfl, if_pos rfl]
      · rw [if_pos (by
          by_contra hn
          exact he (List.le_antisymm (α := Int) hn (ho l rfl))), if_neg (by
          intro h
          cases h
          exact he rfl)]

theorem storedOf_first {doms : List Dom} {dim : Nat} (hd : dim ≠ 0) : ∀ (ss : List (List Int × α)) (o : Option (List Int)),
    (∀ l, o = some l → ∀ x ∈ ss, ¬ x.1 < l) → (ss.Pairwise fun x y => ¬ y.1 < x.1) →
    ((storedOf doms dim o ss).map Prod.fst).Pairwise (· < ·) ∧ (∀ l, o = some l → ∀ x ∈ storedOf doms dim o ss, l < x.1) ∧
      (∀ k, (storedOf doms dim o ss).find? (fun x => decide (x.1 = k)) =
        if o = some k then none else (ss.filter fun x => inside doms x.1).find? fun x => decide (x.1 = k)) ∧
      ∀ r ∈ refusals doms dim o ss, r.1 = if inside doms r.2.1 then .duplicate else .outside
  | [], o, _, _ => by
    refine ⟨by simp [storedOf], by simp [storedOf], ?_, by simp [refusals]⟩
    intro k
    simp [storedOf]
  | (key, v) :: ss, o, ho, hp => by
    rw [List.pairwise_cons] at hp
    have hk : ∀ l, o = some l → ¬ key < l := fun l hl => ho l hl (key, v) (by simp)
    have hv := verdict_sorted (doms := doms) hd hk
    unfold storedOf refusals
    cases hi : inside doms key with
    | false =>
      rw [hi, if_pos rfl] at hv
      have hne : ¬ verdict doms dim o key = .stored := by rw [hv]; decide
      obtain ⟨i1, i2, i3, i4⟩ := storedOf_first hd ss o (fun l hl x hx => ho l hl x (by simp [hx])) hp.2
      rw [if_neg hne, if_neg hne]
      refine ⟨i1, i2, ?_, ?_⟩
      · intro k
        rw [List.filter_cons_of_neg (by simpa using hi)]
        exact i3 k
      · intro r hr
        rcases List.mem_cons.mp hr with rfl | hr
        · show verdict doms dim o key = if inside doms key then _ else _
          rw [hi, hv]
          rfl
        · exact i4 r hr
    | true =>
      rw [hi, if_neg (by decide)] at hv
      by_cases he : o = some key
      · rw [if_pos he] at hv
        have hne : ¬ verdict doms dim o key = .stored := by rw [hv]; decide
        obtain ⟨i1, i2, i3, i4⟩ := storedOf_first hd ss o (fun l hl x hx => ho l hl x (by simp [hx])) hp.2
        rw [if_neg hne, if_neg hne]
        refine ⟨i1, i2, ?_, ?_⟩
        · intro k
          rw [i3 k, List.filter_cons_of_pos (by simpa using hi)]
          by_cases hkk : o = some k
          · rw [if_pos hkk, if_pos hkk]
          · rw [if_neg hkk, if_neg hkk, List.find?_cons_of_neg (by
              simp only [decide_eq_true_eq]
              intro h
              rw [he, h] at hkk
              exact hkk rfl)]
        · intro r hr
          rcases List.mem_cons.mp hr with rfl | hr
          · show verdict doms dim o key = if inside doms key then _ else _
            rw [hi, hv]
            rfl
          · exact i4 r hr
      · rw [if_neg he] at hv
        have hlt : ∀ l, o = some l → l < key := by
          intro l hl
          by_contra hn
          exact he (by rw [hl, List.le_antisymm (α := Int) hn (hk l hl)])
        obtain ⟨i1, i2, i3, i4⟩ := storedOf_first hd ss (some key) (by
          rintro l ⟨⟩ x hx
          exact hp.1 x hx) hp.2
        rw [if_pos hv, if_pos hv]
        refine ⟨?_, ?_, ?_, i4⟩
        · rw [List.map_cons, List.pairwise_cons]
          refine ⟨?_, i1⟩
          intro x hx
          obtain ⟨y, hy, rfl⟩ := List.mem_map.mp hx
          exact i2 key rfl y hy
        · intro l hl x hx
          rcases List.mem_cons.mp hx with rfl | hx
          · exact hlt l hl
          · exact List.lt_trans (hlt l hl) (i2 key rfl x hx)
        · intro k
          rw [List.filter_cons_of_pos (by simpa using hi)]
          by_cases hkk : key = k
          · subst hkk
            rw [if_neg he, List.find?_cons_of_pos (by simp), List.find?_cons_of_pos (by simp)]
          · rw [List.find?_cons_of_neg (by simpa using hkk), List.find?_cons_of_neg (by simpa using hkk), i3 k, if_neg (by
              intro h
              cases h
              exact hkk rfl)]
            by_cases hok : o = some k
            · rw [if_pos hok]
              -- a smaller key does not come again
              rw [List.find?_eq_none]
              intro x hx hx2
              have hx1 := (List.mem_filter.mp hx).1
              have := hp.1 x hx1
              rw [decide_eq_true_eq] at hx2
              rw [hx2] at this
              exact this (hlt k hok)
            · rw [if_neg hok]

/-- sorted records are stored and refused as the properties say -/
theorem firstOfEach {doms : List Dom} {dim : Nat} (hd : dim ≠ 0) {its ss : List (List Int × α)} (h : StableSorted Prod.fst its ss) :
    FirstOfEach (its.filter fun x => inside doms x.1) (storedOf doms dim none ss) ∧
      ∀ r ∈ refusals doms dim none ss, r.1 = if inside doms r.2.1 then .duplicate else .outside := by
  obtain ⟨h1, _, h3, h4⟩ := storedOf_first (doms := doms) hd ss none (by intro l hl; cases hl) h.sorted
  refine ⟨⟨h1, ?_⟩, h4⟩
  intro k
  rw [h3 k, if_neg (by simp), ← List.head?_filter, ← List.head?_filter]
  congr 1
  have e := h.stable k
  have : ∀ l : List (List Int × α), (l.filter fun x => inside doms x.1).filter (fun x => decide (x.1 = k)) =
      (l.filter fun x => decide (x.1 = k)).filter fun x => inside doms x.1 := by
    intro l
    rw [List.filter_filter, List.filter_filter]
    congr 1
    funext x
    exact Bool.and_comm _ _
  rw [this, this, e]

/-- every record is stored or refused -/
theorem stored_refused (doms : List Dom) (dim : Nat) : ∀ (ss : List (List Int × α)) (o : Option (List Int)),
    (storedOf doms dim o ss).length + (refusals doms dim o ss).length = ss.length
  | [], _ => rfl
  | (k, v) :: ss, o => by
    unfold storedOf refusals
    split
    · have := stored_refused doms dim ss (some k)
      simp only [List.length_cons]
      omega
    · have := stored_refused doms dim ss o
      simp only [List.length_cons]
      omega

end Gdx
