import Verif.Spec.Listing
import Verif.Spec.IntText
import Verif.Model.DumpList
import Verif.Props.IntText
import Verif.Proofs.MergeNames
import Mathlib.Data.List.Perm.Basic

/-! Lines, words and sorted maps, for the lists of gdxdump. -/

namespace Gdx.Listing
open Gdx Gdx.Dump

/-! ### lines and words -/

theorem isLines_nil : IsLines [] [] := ⟨rfl, by simp⟩

theorem isLines_cons {l t : Str} {ls : List Str} (h : (10 : UInt8) ∉ l) (ht : IsLines t ls) : IsLines (l ++ [10] ++ t) (l :: ls) := by
  refine ⟨by rw [ht.1]; simp, ?_⟩
  intro x hx
  rcases List.mem_cons.mp hx with rfl | hx
  · exact h
  · exact ht.2 x hx

/-- a word: something without blanks -/
def Word (w : Str) : Prop := w ≠ [] ∧ (32 : UInt8) ∉ w ∧ (10 : UInt8) ∉ w

theorem dropWhile_blanks (k : Nat) {w : Str} (hw : w.head? ≠ some 32) : (List.replicate k 32 ++ w).dropWhile (· == (32 : UInt8)) = w := by
  induction k with
  | zero =>
    cases w with
    | nil => rfl
    | cons c w =>
      rw [List.replicate_zero, List.nil_append, List.dropWhile_cons_of_neg]
      intro h
      exact hw (by rw [eq_of_beq h]; rfl)
  | succ k ih =>
    rw [List.replicate_succ, List.cons_append, List.dropWhile_cons_of_pos (by decide)]
    exact ih

theorem span_word {w r : Str} (hw : (32 : UInt8) ∉ w) (hr : r.head? = some 32 ∨ r = []) : (w ++ r).takeWhile (· != (32 : UInt8)) = w ∧ (w ++ r).dropWhile (· != (32 : UInt8)) = r := by
  induction w with
  | nil =>
    rcases hr with hr | rfl
    · cases r with
      | nil => cases hr
      | cons c r =>
        cases hr
        exact ⟨rfl, rfl⟩
    · exact ⟨rfl, rfl⟩
  | cons c w ih =>
    obtain ⟨i1, i2⟩ := ih (fun h => hw (List.mem_cons_of_mem _ h))
    have hc : (c != (32 : UInt8)) = true := by
      rw [bne_iff_ne]
      rintro rfl
      exact hw List.mem_cons_self
    rw [List.cons_append, List.takeWhile_cons_of_pos (p := (· != (32 : UInt8))) hc, List.dropWhile_cons_of_pos (p := (· != (32 : UInt8))) hc, i1, i2]
    exact ⟨rfl, rfl⟩

theorem words_step {n : Nat} {w r : Str} {ws : List Str} {q : Str} (k : Nat) (hw : Word w) (hr : r.head? = some 32 ∨ r = []) (h : words n r = some (ws, q)) :
    words (n + 1) (List.replicate k 32 ++ w ++ r) = some (w :: ws, q) := by
  have hh : (w ++ r).head? ≠ some 32 := by
    obtain ⟨h1, h2, _⟩ := hw
    cases w with
    | nil => exact absurd rfl h1
    | cons c w =>
      intro hc
      cases hc
      exact h2 List.mem_cons_self
  obtain ⟨s1, s2⟩ := span_word hw.2.1 hr
  unfold words
  rw [List.append_assoc, dropWhile_blanks k hh, s1, s2, h, if_neg]
  · rfl
  · intro hc
    exact hw.1 (List.append_eq_nil_iff.mp hc).1

theorem nonl_append {a b : Str} (ha : (10 : UInt8) ∉ a) (hb : (10 : UInt8) ∉ b) : (10 : UInt8) ∉ a ++ b := by
  simp [ha, hb]

theorem nonl_blanks (k : Nat) : (10 : UInt8) ∉ List.replicate k (32 : UInt8) := fun h => by
  have := List.eq_of_mem_replicate h
  revert this
  decide

/-! ### columns -/

theorem padLeft_eq (s : Str) (w : Nat) : ∃ k, padLeft s w = List.replicate k 32 ++ s := ⟨_, rfl⟩

theorem padRight_eq (s : Str) (w : Nat) : ∃ k, padRight s w = s ++ List.replicate k 32 := ⟨_, rfl⟩

theorem padLeft_length {s : Str} {w : Nat} (h : s.length ≤ w) (hw : w ≤ 255) : (padLeft s w).length = w := by
  unfold padLeft
  rw [List.length_append, List.length_replicate]
  omega

theorem padRight_length {s : Str} {w : Nat} (h : s.length ≤ w) (hw : w ≤ 255) : (padRight s w).length = w := by
  unfold padRight
  rw [List.length_append, List.length_replicate]
  omega

/-! ### numbers -/

theorem digits_word (f n : Nat) : Word (digits (f + 1) n) := by
  refine ⟨IntText.digits_ne f n, fun h => ?_, fun h => ?_⟩ <;>
  · have := Merge.digits_of _ _ _ h
    revert this
    decide

theorem int_word {n : Int} (h : 0 ≤ n) : Word (intToStr n) := by
  unfold intToStr
  rw [if_neg (by omega)]
  exact digits_word _ _

theorem int_is {n : Int} (h : 0 ≤ n) (h2 : n ≤ 2147483647) : IntText.IsIntStr (intToStr n) n := by
  unfold intToStr
  rw [if_neg (by omega)]
  refine Or.inl ⟨h, ?_⟩
  rw [show n.natAbs = n.toNat by omega]
  exact IntText.digits_decimal (by norm_num; omega)

theorem width_eq {n : Int} (h : 0 ≤ n) (h2 : n ≤ 2147483647) : IntText.intWidth n = .ok (intToStr n).length := by
  obtain ⟨s, h1, h3⟩ := IntText.C78_width_partial (n := n) (by unfold ValInt.InInt; omega) (by omega)
  rw [IntText.intToStr_eq (by unfold Gdx.I64; omega)] at h1
  rw [h3, Res.ok.inj h1]

theorem digits_mono : ∀ (f n m : Nat), n ≤ m → (digits f n).length ≤ (digits f m).length := by
  intro f
  induction f with
  | zero => intro n m _; exact Nat.le_refl _
  | succ f ih =>
    intro n m h
    rw [IntText.digits_step, IntText.digits_step]
    by_cases h1 : n / 10 = 0
    · rw [if_pos h1]
      split
      · simp
      · simp
    · have h2 : m / 10 ≠ 0 := by omega
      rw [if_neg h1, if_neg h2]
      have := ih (n / 10) (m / 10) (by omega)
      simp
      omega

theorem int_mono {n m : Int} (h : 0 ≤ n) (h2 : n ≤ m) : (intToStr n).length ≤ (intToStr m).length := by
  unfold intToStr
  rw [if_neg (by omega), if_neg (by omega)]
  exact digits_mono _ _ _ (by omega)

theorem digits_le : ∀ (f n : Nat), (digits f n).length ≤ f := by
  intro f
  induction f with
  | zero => intro n; exact Nat.le_refl _
  | succ f ih =>
    intro n
    rw [IntText.digits_step]
    split
    · simp
    · have := ih (n / 10)
      simp
      omega

theorem int_short {n : Int} (h : 0 ≤ n) : (intToStr n).length ≤ 20 := by
  unfold intToStr
  rw [if_neg (by omega)]
  exact digits_le _ _

/-! ### the order of names -/

theorem strLt_iff : ∀ (s t : Str), strLt s t = true ↔ Before s t := by
  intro s
  induction s with
  | nil =>
    intro t
    cases t with
    | nil => exact ⟨fun h => (by cases h), fun h => (by cases h)⟩
    | cons c t => exact ⟨fun _ => .nil, fun _ => rfl⟩
  | cons a s ih =>
    intro t
    cases t with
    | nil => exact ⟨fun h => (by cases h), fun h => (by cases h)⟩
    | cons b t =>
      unfold strLt
      simp only [Bool.or_eq_true, decide_eq_true_eq, Bool.and_eq_true, beq_iff_eq]
      constructor
      · rintro (h | ⟨rfl, h⟩)
        · exact .less h
        · exact .same ((ih t).mp h)
      · intro h
        cases h with
        | less h => exact Or.inl h
        | same h => exact Or.inr ⟨rfl, (ih t).mpr h⟩

theorem Before.trans {a b c : Str} (h1 : Before a b) (h2 : Before b c) : Before a c := by
  induction h1 generalizing c with
  | nil => cases h2 <;> exact .nil
  | less h =>
    cases h2 with
    | less h' => exact .less (UInt8.lt_trans h h')
    | same h' => exact .less h
  | same h ih =>
    cases h2 with
    | less h' => exact .less h'
    | same h' => exact .same (ih h')

theorem before_total : ∀ (s t : Str), Before s t ∨ s = t ∨ Before t s := by
  intro s
  induction s with
  | nil =>
    intro t
    cases t with
    | nil => exact Or.inr (Or.inl rfl)
    | cons c t => exact Or.inl .nil
  | cons a s ih =>
    intro t
    cases t with
    | nil => exact Or.inr (Or.inr .nil)
    | cons b t =>
      by_cases hab : a = b
      · subst hab
        rcases ih t with h | rfl | h
        · exact Or.inl (.same h)
        · exact Or.inr (Or.inl rfl)
        · exact Or.inr (Or.inr (.same h))
      · rcases UInt8.lt_or_lt_of_ne hab with h | h
        · exact Or.inl (.less h)
        · exact Or.inr (Or.inr (.less h))

/-- the entry of the map for a symbol and its number, counted from 0 -/
def keyOf (x : Sym × Nat) : Str × Int := (x.1.name, (x.2 : Int) + 1)

theorem mapIns_ok (x : Sym × Nat) : ∀ (l : List (Sym × Nat)), (∀ y ∈ l, y.1.name ≠ x.1.name) → l.Pairwise (fun y z => Before y.1.name z.1.name) →
    ∃ l' : List (Sym × Nat), mapIns (keyOf x).1 (keyOf x).2 (l.map keyOf) = l'.map keyOf ∧ l'.Perm (x :: l) ∧ l'.Pairwise (fun y z => Before y.1.name z.1.name) := by
  intro l
  induction l with
  | nil => intro _ _; exact ⟨[x], rfl, .refl _, List.pairwise_singleton _ _⟩
  | cons y l ih =>
    intro hne hs
    obtain ⟨hy, hs'⟩ := List.pairwise_cons.mp hs
    rw [List.map_cons]
    by_cases h1 : strLt x.1.name y.1.name = true
    · refine ⟨x :: y :: l, ?_, .refl _, ?_⟩
      · show (if strLt x.1.name y.1.name = true then _ else _) = _
        rw [if_pos h1]
        rfl
      · refine List.pairwise_cons.mpr ⟨?_, hs⟩
        intro z hz
        rcases List.mem_cons.mp hz with rfl | hz
        · exact (strLt_iff _ _).mp h1
        · exact ((strLt_iff _ _).mp h1).trans (hy z hz)
    · have h2 : strLt y.1.name x.1.name = true := by
        rw [strLt_iff]
        rcases before_total x.1.name y.1.name with h | h | h
        · exact absurd ((strLt_iff _ _).mpr h) h1
        · exact absurd h.symm (hne y List.mem_cons_self)
        · exact h
      obtain ⟨l', e1, e2, e3⟩ := ih (fun z hz => hne z (List.mem_cons_of_mem _ hz)) hs'
      refine ⟨y :: l', ?_, (e2.cons y).trans (.swap _ _ _), ?_⟩
      · show (if strLt x.1.name y.1.name = true then _ else if strLt y.1.name x.1.name = true then _ else _) = _
        rw [if_neg h1, if_pos h2, e1]
        rfl
      · refine List.pairwise_cons.mpr ⟨?_, e3⟩
        intro z hz
        rcases List.mem_cons.mp (e2.mem_iff.mp hz) with rfl | hz
        · exact (strLt_iff _ _).mp h2
        · exact hy z hz

end Gdx.Listing
