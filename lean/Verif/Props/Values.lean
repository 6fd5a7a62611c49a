import Verif.Spec.Values
import Verif.Proofs.Val
import Mathlib.Tactic.FinCases
import Mathlib.Tactic.IntervalCases

/-! C04 (values survive the file) and C05 (special-value tables). -/

namespace Gdx.Props
open Gdx Gdx.Spec

theorem findIdx_cons_ne {x y : Dbl} {ys : List Dbl} {i : Nat} (h : x ≠ y) :
    findIdxFrom x (y :: ys) i = findIdxFrom x ys (i + 1) := by simp [findIdxFrom, h]

theorem findIdx_ordinary {w : SVTab} {x : Dbl} (h : Ordinary w x) :
    findIdxFrom x w.toList 0 = findIdxFrom x [Dbl.zero, Dbl.one, Dbl.mone, Dbl.half, Dbl.two] 5 := by
  have h1 := h .undef; have h2 := h .na; have h3 := h .pinf; have h4 := h .minf; have h5 := h .eps
  simp only [val] at h1 h2 h3 h4 h5
  unfold SVTab.toList
  rw [findIdx_cons_ne h1, findIdx_cons_ne h2, findIdx_cons_ne h3, findIdx_cons_ne h4, findIdx_cons_ne h5]

/-- C04, special values: they come back as the reader's value of the same kind, whatever the tables are. -/
theorem C04_special (w r : SVTab) (hw : Distinct w) (remap : Dbl → Dbl) (k : Kind) :
    loadVal r remap (storeVal w (val w k)) = val r k := by
  have hne : ∀ a, a ≠ k → val w k ≠ val w a := fun a ha h => ha (hw _ _ h.symm)
  cases k <;>
    · have h1 := hne .undef; have h2 := hne .na; have h3 := hne .pinf; have h4 := hne .minf; have h5 := hne .eps
      simp only [val, ne_eq, reduceCtorEq, not_false_eq_true, not_true_eq_false, forall_const, false_implies] at h1 h2 h3 h4 h5
      simp [storeVal, SVTab.toList, findIdxFrom, loadVal, val, *]

example : Distinct SVTab.default := by
  intro a b h; cases a <;> cases b <;> first | rfl | (revert h; decide)

/-- C04, the small numbers with their own code: they come back unchanged. -/
theorem C04_small (w r : SVTab) (remap : Dbl → Dbl) (x : Dbl)
    (hx : x ∈ [Dbl.zero, Dbl.one, Dbl.mone, Dbl.half, Dbl.two]) (ho : Ordinary w x) :
    loadVal r remap (storeVal w x) = x := by
  unfold storeVal
  rw [findIdx_ordinary ho]
  fin_cases hx <;> rfl

example : Ordinary SVTab.default Dbl.one := by intro k; cases k <;> decide

/-- C04, negative zero becomes zero. -/
theorem C04_negZero (w r : SVTab) (remap : Dbl → Dbl) (ho : Ordinary w Dbl.negZero) :
    loadVal r remap (storeVal w Dbl.negZero) = Dbl.zero := by
  unfold storeVal
  rw [findIdx_ordinary ho]
  rfl

example : Ordinary SVTab.default Dbl.negZero := by intro k; cases k <;> decide

/-- the numbers with their own code -/
def small : List Dbl := [Dbl.zero, Dbl.one, Dbl.mone, Dbl.half, Dbl.two]

theorem storeVal_ordinary {w : SVTab} {x : Dbl} (ho : Ordinary w x) (hs : x ∉ small) :
    storeVal w x = if x = Dbl.negZero then .code 5 else match dblInfo x with
      | .ninf => .code 3 | .pinf => .code 2 | .nan => .code 1 | .finite => .num x := by
  unfold storeVal
  rw [findIdx_ordinary ho, findIdxFrom_none.2 (show x ∉ [Dbl.zero, Dbl.one, Dbl.mone, Dbl.half, Dbl.two] from hs)]
  rfl

theorem dblInfo_nan {x : Dbl} (h : IsNaN x) : dblInfo x = .nan := by
  unfold IsNaN infMag mag at h
  have hx := x.toNat_lt
  unfold dblInfo
  rw [if_pos (by omega), if_pos (by omega)]

theorem dblInfo_finite {x : Dbl} (h : IsFinite x) : dblInfo x = .finite := by
  unfold IsFinite infMag mag at h
  have hx := x.toNat_lt
  unfold dblInfo
  rw [if_neg (by omega)]

theorem not_small {x : Dbl} (h : infMag ≤ mag x) : x ∉ small ∧ x ≠ Dbl.negZero := by
  unfold infMag mag at h
  refine ⟨?_, ?_⟩
  · intro hm
    simp only [small, List.mem_cons, List.not_mem_nil, or_false] at hm
    rcases hm with rfl | rfl | rfl | rfl | rfl <;> revert h <;> decide
  · rintro rfl; revert h; decide

/-- C04: every NaN that is not a user special value is read back as the reader's NA. -/
theorem C04_nan (w r : SVTab) (remap : Dbl → Dbl) (x : Dbl) (ho : Ordinary w x) (hx : IsNaN x) :
    loadVal r remap (storeVal w x) = r.na := by
  have hm := not_small (x := x) (Nat.le_of_lt hx)
  rw [storeVal_ordinary ho hm.1, if_neg hm.2, dblInfo_nan hx]
  rfl

example : IsNaN 0xfff8000000000001 ∧ Ordinary SVTab.default 0xfff8000000000001 :=
  ⟨by decide, by intro k; cases k <;> decide⟩

/-- C04: IEEE infinities that are not user special values are read back as the reader's +inf / -inf. -/
theorem C04_inf (w r : SVTab) (remap : Dbl → Dbl) :
    (Ordinary w Dbl.posInf → loadVal r remap (storeVal w Dbl.posInf) = r.pin) ∧
    (Ordinary w Dbl.negInf → loadVal r remap (storeVal w Dbl.negInf) = r.min) := by
  constructor <;>
  · intro ho
    rw [storeVal_ordinary ho (by decide), if_neg (by decide)]
    have : dblInfo Dbl.posInf = .pinf := by decide
    have : dblInfo Dbl.negInf = .ninf := by decide
    simp [*, loadVal, SVTab.toList]

example : Ordinary SVTab.default Dbl.posInf ∧ Ordinary SVTab.default Dbl.negInf :=
  ⟨by intro k; cases k <;> decide, by intro k; cases k <;> decide⟩

theorem geAcr_false {x : Dbl} (h : BelowAcr x) (hf : IsFinite x) : geAcr x = false := by
  unfold IsFinite infMag mag at hf
  have hx := x.toNat_lt
  simp only [geAcr, Bool.and_eq_false_iff, decide_eq_false_iff_not]
  rcases h with h | h
  · right
    unfold isNeg at h
    rw [UInt64.le_iff_toNat_le]
    have : Dbl.posInf.toNat = 0x7ff0000000000000 := by decide
    omega
  · by_cases hn : isNeg x
    · right
      unfold isNeg at hn
      rw [UInt64.le_iff_toNat_le]
      have : Dbl.posInf.toNat = 0x7ff0000000000000 := by decide
      omega
    · left
      unfold isNeg at hn
      unfold mag at h
      rw [UInt64.le_iff_toNat_le]
      have : Dbl.acr.toNat = 0x7e6ddd4baa009303 := by decide
      omega

/-- C04: every other finite double below the acronym threshold keeps its 64 bits (negative zero excepted, see
    `C04_negZero`). -/
theorem C04_finite (w r : SVTab) (remap : Dbl → Dbl) (x : Dbl) (ho : Ordinary w x) (hf : IsFinite x)
    (ha : BelowAcr x) (hz : x ≠ Dbl.negZero) : loadVal r remap (storeVal w x) = x := by
  by_cases hs : x ∈ small
  · exact C04_small w r remap x hs ho
  · rw [storeVal_ordinary ho hs, if_neg hz, dblInfo_finite hf]
    simp [loadVal, geAcr_false ha hf]

-- 3.14159… and the largest negative double
example : IsFinite 0x400921fb54442d18 ∧ BelowAcr 0x400921fb54442d18 ∧ Ordinary SVTab.default 0x400921fb54442d18 :=
  ⟨by decide, by right; decide, by intro k; cases k <;> decide⟩
example : IsFinite 0xffefffffffffffff ∧ BelowAcr 0xffefffffffffffff ∧ Ordinary SVTab.default 0xffefffffffffffff :=
  ⟨by decide, by left; decide, by intro k; cases k <;> decide⟩

/-- C04, as bytes: what is read at the place where the value was written, for every value. -/
theorem C04_bytes (w r : SVTab) (remap : Dbl → Dbl) (x : Dbl) (rest : List UInt8) :
    (rdSVal (encSVal (storeVal w x) ++ rest)).map (fun p => (loadVal r remap p.1, p.2)) =
      some (loadVal r remap (storeVal w x), rest) := by
  rw [rdSVal_encSVal _ (storeVal_wf w x)]
  rfl

/-- C04: the acronyms are the finite numbers from 1e301 on -/
theorem C04_acronym (w r : SVTab) (remap : Dbl → Dbl) (x : Dbl) (ho : Ordinary w x) (hf : IsFinite x) (ha : ¬ BelowAcr x) :
    loadVal r remap (storeVal w x) = remap x := by
  have hb : 0x7e6ddd4baa009303 ≤ x.toNat ∧ x.toNat < 0x7ff0000000000000 := by
    unfold BelowAcr isNeg mag at ha
    unfold IsFinite infMag mag at hf
    have hx := x.toNat_lt
    push Not at ha
    omega
  have hs : x ∉ small ∧ x ≠ Dbl.negZero := by
    refine ⟨?_, ?_⟩
    · intro hm
      simp only [small, List.mem_cons, List.not_mem_nil, or_false] at hm
      rcases hm with rfl | rfl | rfl | rfl | rfl <;> revert hb <;> decide
    · rintro rfl; revert hb; decide
  rw [storeVal_ordinary ho hs.1, if_neg hs.2, dblInfo_finite hf]
  have hg : geAcr x = true := by
    simp only [geAcr, Bool.and_eq_true, decide_eq_true_eq, UInt64.le_iff_toNat_le]
    have h1 : Dbl.posInf.toNat = 0x7ff0000000000000 := by decide
    have h2 : Dbl.acr.toNat = 0x7e6ddd4baa009303 := by decide
    omega
  simp [loadVal, hg]

example : IsFinite 0x7e8ddd4baa009302 ∧ ¬ BelowAcr 0x7e8ddd4baa009302 ∧ Ordinary SVTab.default 0x7e8ddd4baa009302 :=
  ⟨by decide, by unfold BelowAcr; decide, by intro k; cases k <;> decide⟩

/-- C04, all values at once -/
theorem C04_all (w r : SVTab) (hw : Distinct w) (remap : Dbl → Dbl) (x : Dbl) :
    ReadsAs w r remap x (loadVal r remap (storeVal w x)) := by
  by_cases hk : ∃ k, x = val w k
  · obtain ⟨k, rfl⟩ := hk
    rw [C04_special w r hw remap k]
    exact .special k
  have ho : Ordinary w x := fun k h => hk ⟨k, h⟩
  rcases lt_trichotomy (mag x) infMag with h | h | h
  · by_cases hb : BelowAcr x
    · by_cases hz : x = Dbl.negZero
      · subst hz
        rw [C04_negZero w r remap ho]
        exact .negZero ho
      · rw [C04_finite w r remap x ho h hb hz]
        exact .same ho h hb hz
    · rw [C04_acronym w r remap x ho h hb]
      exact .acronym ho h hb
  · have hx : x = Dbl.posInf ∨ x = Dbl.negInf := by
      unfold mag infMag at h
      have hl := x.toNat_lt
      have h1 : Dbl.posInf.toNat = 0x7ff0000000000000 := by decide
      have h2 : Dbl.negInf.toNat = 0xfff0000000000000 := by decide
      rw [← UInt64.toNat_inj, ← UInt64.toNat_inj, h1, h2]
      omega
    rcases hx with rfl | rfl
    · rw [(C04_inf w r remap).1 ho]
      exact .pinf ho
    · rw [(C04_inf w r remap).2 ho]
      exact .minf ho
  · rw [C04_nan w r remap x ho h]
    exact .nan ho h

/-- C04: what must be read is determined by what was written -/
theorem C04_unique (w r : SVTab) (hw : Distinct w) (acr : Dbl → Dbl) (x y y' : Dbl) (h : ReadsAs w r acr x y) (h' : ReadsAs w r acr x y') :
    y = y' := by
  have key : ∀ {y}, ReadsAs w r acr x y → y = loadVal r acr (storeVal w x) := by
    intro y h
    cases h with
    | special k => exact (C04_special w r hw acr k).symm
    | nan ho hx => exact (C04_nan w r acr x ho hx).symm
    | pinf ho => exact ((C04_inf w r acr).1 ho).symm
    | minf ho => exact ((C04_inf w r acr).2 ho).symm
    | negZero ho => exact (C04_negZero w r acr ho).symm
    | same ho hf hb hz => exact (C04_finite w r acr x ho hf hb hz).symm
    | acronym ho hf hb => exact (C04_acronym w r acr x ho hf hb).symm
  rw [key h, key h']

theorem eq_of_val {v v' : SVTab} (h : ∀ k, val v k = val v' k) : v = v' := by
  have h1 := h .undef; have h2 := h .na; have h3 := h .pinf; have h4 := h .minf; have h5 := h .eps
  cases v; cases v'; simp_all [val]

/-- C05: success exactly for unambiguous tables, and then the table is the one given. -/
theorem C05_set (v : SVTab) :
    (Distinct v → setSpecialValues v = some v) ∧ (¬ Distinct v → setSpecialValues v = none) := by
  have key : Distinct v ↔ ((List.range 5).any fun i => (List.range 5).any fun j =>
      i < j && [v.und, v.na, v.pin, v.min, v.eps][i]? == [v.und, v.na, v.pin, v.min, v.eps][j]?) = false := by
    constructor
    · intro h
      simp only [List.any_eq_false, Bool.and_eq_true, decide_eq_true_eq, beq_iff_eq, not_and,
        List.mem_range, Bool.not_eq_true]
      have n1 : ∀ a b, a ≠ b → val v a ≠ val v b := fun a b hab e => hab (h a b e)
      intro i hi j hj hij
      have := n1 .undef .na (by decide); have := n1 .undef .pinf (by decide)
      have := n1 .undef .minf (by decide); have := n1 .undef .eps (by decide)
      have := n1 .na .pinf (by decide); have := n1 .na .minf (by decide); have := n1 .na .eps (by decide)
      have := n1 .pinf .minf (by decide); have := n1 .pinf .eps (by decide); have := n1 .minf .eps (by decide)
      simp only [val] at *
      interval_cases i <;> interval_cases j <;> simp_all
    · intro h a b hab
      simp only [List.any_eq_false, Bool.and_eq_true, decide_eq_true_eq, beq_iff_eq, not_and,
        List.mem_range, Bool.not_eq_true] at h
      have q : ∀ i j, i < 5 → j < 5 → i < j →
          [v.und, v.na, v.pin, v.min, v.eps][i]? ≠ [v.und, v.na, v.pin, v.min, v.eps][j]? :=
        fun i j hi hj hij => h i hi j hj hij
      have q01 := q 0 1 (by decide) (by decide) (by decide)
      have q02 := q 0 2 (by decide) (by decide) (by decide)
      have q03 := q 0 3 (by decide) (by decide) (by decide)
      have q04 := q 0 4 (by decide) (by decide) (by decide)
      have q12 := q 1 2 (by decide) (by decide) (by decide)
      have q13 := q 1 3 (by decide) (by decide) (by decide)
      have q14 := q 1 4 (by decide) (by decide) (by decide)
      have q23 := q 2 3 (by decide) (by decide) (by decide)
      have q24 := q 2 4 (by decide) (by decide) (by decide)
      have q34 := q 3 4 (by decide) (by decide) (by decide)
      clear q h
      cases a <;> cases b <;> simp_all [val]
  constructor
  · intro h
    unfold setSpecialValues
    simp only [key.1 h]
    rfl
  · intro h
    have : ¬ _ := fun e => h (key.2 e)
    rw [Bool.not_eq_false] at this
    unfold setSpecialValues
    simp only [this]
    rfl

example : Distinct { und := 7, na := 8, pin := 9, min := 10, eps := 11 } := by
  intro a b h; cases a <;> cases b <;> first | rfl | (revert h; decide)
example : ¬ Distinct { und := 7, na := 8, pin := 9, min := 7, eps := 11 } := by
  intro h; exact absurd (h .undef .minf rfl) (by decide)

/-- number of a kind in gdxMapValue's result -/
def kindNr : Kind → Nat
  | .undef => 0 | .na => 1 | .pinf => 2 | .minf => 3 | .eps => 4

/-- C05: gdxMapValue classifies each special value as its own kind and everything else as normal (5). -/
theorem C05_map (t : SVTab) (ht : Distinct t) :
    (∀ k, mapValue t (val t k) = kindNr k) ∧ (∀ x, Ordinary t x → mapValue t x = 5) := by
  constructor
  · intro k
    have hne : ∀ a, a ≠ k → val t k ≠ val t a := fun a ha h => ha (ht _ _ h.symm)
    cases k <;>
      · have h1 := hne .undef; have h2 := hne .na; have h3 := hne .pinf; have h4 := hne .minf; have h5 := hne .eps
        simp only [val, ne_eq, reduceCtorEq, not_false_eq_true, not_true_eq_false, forall_const, false_implies] at h1 h2 h3 h4 h5
        simp [mapValue, val, kindNr, *]
  · intro x hx
    have h1 := hx .undef; have h2 := hx .na; have h3 := hx .pinf; have h4 := hx .minf; have h5 := hx .eps
    simp only [val] at h1 h2 h3 h4 h5
    simp [mapValue, *]

#print axioms C04_special
#print axioms C04_small
#print axioms C04_negZero
#print axioms C04_nan
#print axioms C04_inf
#print axioms C04_finite
#print axioms C04_bytes
#print axioms C05_set
#print axioms C05_map

end Gdx.Props
