import Verif.Model.Names
import Verif.Proofs.StrHash

/-! Lemmas about the list view of name tables. -/

namespace Gdx
open Gdx.Spec

theorem sameName_refl (cs : Bool) (a : Str) : SameName cs a a := by
  unfold SameName SameNoCase; cases cs <;> simp

theorem sameName_comm {cs : Bool} {a b : Str} (h : SameName cs a b) : SameName cs b a := by
  unfold SameName SameNoCase at *
  cases cs <;> simp_all

theorem sameName_tr {cs : Bool} {a b c : Str} (h : SameName cs a b) (h' : SameName cs b c) : SameName cs a c := by
  unfold SameName SameNoCase at *
  cases cs <;> simp_all

theorem sameText_congr {cs : Bool} {a b c : Str} (h : SameName cs b c) : sameText cs a b = sameText cs a c := by
  rw [Bool.eq_iff_iff, sameText_iff, sameText_iff]
  exact ⟨fun h' => sameName_tr h' h, fun h' => sameName_tr h' (sameName_comm h)⟩

theorem lookup_some {cs : Bool} {s : Str} : ∀ {l : List Str} {n : Nat}, lookup cs s l = some n →
    ∃ x, l[n]? = some x ∧ SameName cs x s
  | [], n, h => by simp [lookup] at h
  | x :: xs, n, h => by
    rw [lookup] at h
    cases hx : lookup cs s xs with
    | some m =>
      rw [hx] at h
      simp only [Option.some.injEq] at h
      subst h
      obtain ⟨y, h1, h2⟩ := lookup_some hx
      exact ⟨y, by simpa using h1, h2⟩
    | none =>
      rw [hx] at h
      by_cases hs : sameText cs x s = true
      · simp only [hs, if_true, Option.some.injEq] at h
        subst h
        exact ⟨x, rfl, (sameText_iff cs x s).mp hs⟩
      · simp [hs] at h

theorem lookup_lt {cs : Bool} {s : Str} {l : List Str} {n : Nat} (h : lookup cs s l = some n) : n < l.length := by
  obtain ⟨x, h1, _⟩ := lookup_some h
  exact (List.getElem?_eq_some_iff.mp h1).1

theorem lookup_none {cs : Bool} {s : Str} : ∀ {l : List Str}, lookup cs s l = none ↔ ∀ x ∈ l, ¬ SameName cs x s
  | [] => by simp [lookup]
  | x :: xs => by
    rw [lookup]
    cases hx : lookup cs s xs with
    | some m =>
      obtain ⟨y, h1, h2⟩ := lookup_some hx
      simp only [reduceCtorEq, List.mem_cons, forall_eq_or_imp, false_iff, not_and, not_forall, not_not]
      intro _
      exact ⟨y, List.mem_of_getElem? h1, h2⟩
    | none =>
      have := lookup_none.mp hx
      by_cases hs : sameText cs x s = true
      · simp only [hs, if_true, reduceCtorEq, List.mem_cons, forall_eq_or_imp, false_iff, not_and]
        intro h; exact absurd ((sameText_iff cs x s).mp hs) h
      · simp only [hs, Bool.false_eq_true, if_false, List.mem_cons, forall_eq_or_imp, true_iff]
        exact ⟨fun h => hs ((sameText_iff cs x s).mpr h), this⟩

/-- no two entries with the same name -/
def Distinct (cs : Bool) (l : List Str) : Prop := l.Pairwise fun a b => ¬ SameName cs a b

theorem Distinct.eq {cs : Bool} {l : List Str} (h : Distinct cs l) {i j : Nat} {a b : Str} (hi : l[i]? = some a)
    (hj : l[j]? = some b) (hs : SameName cs a b) : i = j := by
  obtain ⟨hi1, hi2⟩ := List.getElem?_eq_some_iff.mp hi
  obtain ⟨hj1, hj2⟩ := List.getElem?_eq_some_iff.mp hj
  rcases Nat.lt_trichotomy i j with hlt | heq | hlt
  · have := List.pairwise_iff_getElem.mp h i j hi1 hj1 hlt
    rw [hi2, hj2] at this
    exact absurd hs this
  · exact heq
  · have := List.pairwise_iff_getElem.mp h j i hj1 hi1 hlt
    rw [hi2, hj2] at this
    exact absurd (sameName_comm hs) this

theorem Distinct.lookup {cs : Bool} {l : List Str} (h : Distinct cs l) {n : Nat} {x s : Str} (hn : l[n]? = some x)
    (hs : SameName cs x s) : lookup cs s l = some n := by
  cases hl : Gdx.lookup cs s l with
  | none => exact absurd hs (lookup_none.mp hl x (List.mem_of_getElem? hn))
  | some m =>
    obtain ⟨y, h1, h2⟩ := lookup_some hl
    rw [h.eq h1 hn (sameName_tr h2 (sameName_comm hs))]

theorem Distinct.append {cs : Bool} {l : List Str} (h : Distinct cs l) {s : Str} (hs : Gdx.lookup cs s l = none) :
    Distinct cs (l ++ [s]) := by
  refine List.pairwise_append.mpr ⟨h, List.pairwise_singleton _ _, ?_⟩
  intro a ha b hb
  rw [List.mem_singleton] at hb
  subst hb
  exact lookup_none.mp hs a ha

theorem Distinct.set {cs : Bool} {l : List Str} (h : Distinct cs l) {s : Str} (hs : Gdx.lookup cs s l = none) (n : Nat) :
    Distinct cs (l.set n s) := by
  refine List.pairwise_iff_getElem.mpr ?_
  intro i j hi hj hij
  simp only [List.length_set] at hi hj
  have hij' := List.pairwise_iff_getElem.mp h i j hi hj hij
  rw [List.getElem_set, List.getElem_set]
  have h1 := lookup_none.mp hs
  split
  · split
    · omega
    · intro h2; exact h1 _ (List.getElem_mem hj) (sameName_comm h2)
  · split
    · intro h2; exact h1 _ (List.getElem_mem hi) h2
    · exact hij'

theorem lookup_congr {cs : Bool} {s t : Str} (h : SameName cs s t) : ∀ l : List Str, lookup cs s l = lookup cs t l
  | [] => rfl
  | x :: xs => by rw [lookup, lookup, lookup_congr h xs, sameText_congr h]

theorem lookup_append_none {cs : Bool} {s : Str} : ∀ {l l' : List Str}, lookup cs s l' = none →
    lookup cs s (l ++ l') = lookup cs s l
  | [], l', h => by simpa [lookup] using h
  | x :: xs, l', h => by
    rw [List.cons_append, lookup, lookup, lookup_append_none h]

theorem at1_ok {α : Type} {l : List α} {n : Int} {a : α} (h : at1 l n = .ok a) :
    1 ≤ n ∧ n ≤ l.length ∧ l[(n - 1).toNat]? = some a := by
  unfold at1 at h
  split at h
  · rename_i h1
    cases hx : l[(n - 1).toNat]? with
    | none => rw [hx] at h; cases h
    | some b =>
      rw [hx] at h; cases h
      have := (List.getElem?_eq_some_iff.mp hx).1
      exact ⟨h1, by omega, rfl⟩
  · cases h

theorem at1_of {α : Type} {l : List α} {n : Int} {a : α} (h1 : 1 ≤ n) (h : l[(n - 1).toNat]? = some a) :
    at1 l n = .ok a := by
  unfold at1
  rw [if_pos h1, h]

theorem at1_nat {α : Type} {l : List α} {n : Nat} {a : α} (h : l[n]? = some a) : at1 l ((n : Int) + 1) = .ok a :=
  at1_of (by omega) (by simpa using h)

theorem at1_total {α : Type} {l : List α} {n : Int} (h1 : 1 ≤ n) (h2 : n ≤ l.length) : ∃ a, at1 l n = .ok a := by
  have : (n - 1).toNat < l.length := by omega
  exact ⟨_, at1_of h1 (List.getElem?_eq_getElem this)⟩

theorem at0_ok {α : Type} {l : List α} {n : Int} {a : α} (h : at0 l n = .ok a) :
    0 ≤ n ∧ n < l.length ∧ l[n.toNat]? = some a := by
  unfold at0 at h
  split at h
  · rename_i h1
    cases hx : l[n.toNat]? with
    | none => rw [hx] at h; cases h
    | some b =>
      rw [hx] at h; cases h
      have := (List.getElem?_eq_some_iff.mp hx).1
      exact ⟨h1, by omega, rfl⟩
  · cases h

theorem need_ok {α : Type} {o : Option α} {a : α} (h : need o = .ok a) : o = some a := by
  cases o with
  | none => cases h
  | some b => cases h; rfl

theorem indexOf1_cases (cs : Bool) (s : Str) (l : List Str) :
    (lookup cs s l = none ∧ indexOf1 cs s l = -1) ∨ ∃ n, lookup cs s l = some n ∧ indexOf1 cs s l = (n : Int) + 1 := by
  unfold indexOf1
  cases h : lookup cs s l with
  | none => exact Or.inl ⟨rfl, rfl⟩
  | some n => exact Or.inr ⟨n, rfl, rfl⟩

end Gdx
