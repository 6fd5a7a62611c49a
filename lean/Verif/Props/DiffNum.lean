import Verif.Model.Diff
import Verif.Proofs.Float
import Verif.Proofs.Names
import Verif.Proofs.StrHash
import Verif.Proofs.Evo

/-!
C56: how `gdxdiff` compares two numbers (DoublesEqual). The values are exact rational numbers here; what the program computes is rounded.
-/

namespace Gdx.Props
open Gdx Gdx.Diff Gdx.Spec

/-- the value is none of the five special values of the object -/
def Ordinary (g : Gx) (v : Dbl) : Prop := mapValue g.sv v = 5

/-- both are ordinary and gdxAcronymName knows at most one of the two as an acronym -/
structure Numbers (g1 g2 : Gx) (v1 v2 : Dbl) : Prop where
  left : Ordinary g1 v1
  right : Ordinary g2 v2
  acr : ∃ b1 s1 b2 s2, acronymName g1 v1 = .ok (b1, s1) ∧ acronymName g2 v2 = .ok (b2, s2) ∧ (b1 && b2) = false

theorem Numbers.symm {g1 g2 : Gx} {v1 v2 : Dbl} (h : Numbers g1 g2 v1 v2) : Numbers g2 g1 v2 v1 := by
  obtain ⟨h1, h2, b1, s1, b2, s2, h3, h4, h5⟩ := h
  exact ⟨h2, h1, b2, s2, b1, s1, h4, h3, by rw [Bool.and_comm]; exact h5⟩

theorem Numbers.eq {g1 g2 : Gx} {v1 v2 : Dbl} (h : Numbers g1 g2 v1 v2) (o : Opt) : doublesEqual o g1 g2 v1 v2 = .ok (close o v1 v2) := by
  obtain ⟨h1, h2, b1, s1, b2, s2, h3, h4, h5⟩ := h
  unfold doublesEqual
  rw [show mapValue g1.sv v1 = 5 from h1, show mapValue g2.sv v2 = 5 from h2, h3, h4]
  cases b1 <;> cases b2 <;> first | rfl | exact absurd h5 (by decide)

/-- C56: two special values are equal if and only if they are the same kind of special value -/
theorem C56_special (o : Opt) (g1 g2 : Gx) (v1 v2 : Dbl) (h1 : ¬ Ordinary g1 v1) (h2 : ¬ Ordinary g2 v2) :
    doublesEqual o g1 g2 v1 v2 = .ok (decide (mapValue g1.sv v1 = mapValue g2.sv v2)) := by
  unfold doublesEqual
  rw [if_neg (show ¬ mapValue g1.sv v1 = 5 from h1), if_neg (show ¬ mapValue g2.sv v2 = 5 from h2)]

/-- C56: a special value and a number are equal only for EPS and a number that is at most the absolute tolerance, which must not be 0 -/
theorem C56_mixed (o : Opt) (g1 g2 : Gx) (v1 v2 : Dbl) (q e : ℚ) (hq : v1.fv = .fin q) (he : o.eps.fv = .fin e) (h1 : Ordinary g1 v1)
    (h2 : ¬ Ordinary g2 v2) :
    doublesEqual o g1 g2 v1 v2 = .ok (decide (mapValue g2.sv v2 = 4 ∧ 0 < e ∧ |q| ≤ e)) ∧
      doublesEqual o g2 g1 v2 v1 = .ok (decide (mapValue g2.sv v2 = 4 ∧ 0 < e ∧ |q| ≤ e)) := by
  have h : (decide (mapValue g2.sv v2 = 4) && (FV.fin 0).lt o.eps.fv && v1.fv.abs.le o.eps.fv) =
      decide (mapValue g2.sv v2 = 4 ∧ 0 < e ∧ |q| ≤ e) := by
    rw [hq, he]
    simp only [FV.lt, FV.abs, FV.le, Bool.decide_and, Bool.and_assoc]
  unfold doublesEqual
  rw [if_pos (show mapValue g1.sv v1 = 5 from h1), if_neg (show ¬ mapValue g2.sv v2 = 5 from h2), if_neg (show ¬ mapValue g2.sv v2 = 5 from h2),
    if_pos (show mapValue g1.sv v1 = 5 from h1), h]
  exact ⟨rfl, rfl⟩

/-- C56: two acronyms are equal if and only if their names are, not regarding case -/
theorem C56_acronyms (o : Opt) (g1 g2 : Gx) (v1 v2 : Dbl) (h1 : Ordinary g1 v1) (h2 : Ordinary g2 v2) (n1 n2 : Str)
    (a1 : acronymName g1 v1 = .ok (true, n1)) (a2 : acronymName g2 v2 = .ok (true, n2)) :
    doublesEqual o g1 g2 v1 v2 = .ok (decide (SameNoCase n1 n2)) := by
  unfold doublesEqual
  rw [show mapValue g1.sv v1 = 5 from h1, show mapValue g2.sv v2 = 5 from h2, a1, a2]
  simp only [if_true, Res.bind_ok, Res.pure_eq]
  congr 1
  rw [Bool.eq_iff_iff, sameText_iff, decide_eq_true_iff]
  exact Iff.rfl

theorem close_eq (o : Opt) (v1 v2 : Dbl) : close o v1 v2 = ((v1.fv.sub v2.fv).abs.le o.eps.fv || ((FV.fin 0).lt o.rel.fv &&
    ((v1.fv.sub v2.fv).abs.divPos ((FV.fin 1).add (if v1.fv.abs.le v2.fv.abs then v1.fv.abs else v2.fv.abs))).le o.rel.fv)) := by
  unfold close
  dsimp only
  cases (v1.fv.sub v2.fv).abs.le o.eps.fv <;> cases (FV.fin 0).lt o.rel.fv <;> rfl

/-- the program's rounded difference of two numbers and its absolute value -/
theorem diff_fin {v1 v2 : Dbl} {a b : ℚ} (h1 : v1.fv = .fin a) (h2 : v2.fv = .fin b) :
    (v1.fv.sub v2.fv).abs = if (2 : ℚ) ^ (1024 : Int) ≤ FV.near |a - b| then .inf false else .fin (FV.near |a - b|) := by
  rw [h1, h2]
  show (FV.round (a + -b)).abs = _
  unfold FV.round
  rw [FV.near_abs, ← sub_eq_add_neg]
  split
  · rfl
  · show FV.fin _ = _
    rw [FV.near_abs]

/-- C56: Two numbers, no relative tolerance (0): if they differ by at most the absolute tolerance they are equal; if they differ by more
    than that, and there is a double `r` above the tolerance that the difference reaches, they are not. (The difference is rounded to a
    double before it is compared; in the gap between the tolerance and the next double the result can be either.) -/
theorem C56_absolute (o : Opt) (g1 g2 : Gx) (v1 v2 : Dbl) (hn : Numbers g1 g2 v1 v2) (a b e : ℚ) (h1 : v1.fv = .fin a) (h2 : v2.fv = .fin b)
    (he : o.eps.fv = .fin e) (hr : o.rel.fv = .fin 0) (h0 : 0 ≤ e) :
    (|a - b| ≤ e → doublesEqual o g1 g2 v1 v2 = .ok true) ∧
    (∀ r, FV.IsDouble r → e < r → r ≤ |a - b| → doublesEqual o g1 g2 v1 v2 = .ok false) := by
  have hlt : (FV.fin 0).lt (.fin 0) = false := by decide
  rw [hn.eq, close_eq, diff_fin h1 h2, he, hr, hlt, Bool.false_and, Bool.or_false]
  constructor
  · intro h
    have hle : FV.near |a - b| ≤ e := by
      rcases eq_or_lt_of_le (abs_nonneg (a - b)) with h3 | h3
      · rw [← h3, FV.near_zero]
        exact h0
      · exact FV.near_le (Dbl.fv_isDouble he) h3 h
    have he2 : e < (2 : ℚ) ^ (1024 : Int) := Dbl.fv_lt he
    rw [if_neg (not_le.mpr (lt_of_le_of_lt hle he2))]
    simp only [FV.le, decide_eq_true hle]
  · intro r hr1 hr2 hr3
    have hle : e < FV.near |a - b| := lt_of_lt_of_le hr2 (FV.le_near hr1 (lt_of_le_of_lt h0 hr2) hr3)
    split
    · rfl
    · simp only [FV.le, decide_eq_false (not_le.mpr hle)]

/-- C56: Without tolerances two numbers are equal if and only if they have the same value: the same bits, or both are zero. -/
theorem C56_exact (o : Opt) (g1 g2 : Gx) (v1 v2 : Dbl) (hn : Numbers g1 g2 v1 v2) (a b : ℚ) (h1 : v1.fv = .fin a) (h2 : v2.fv = .fin b)
    (he : o.eps.fv = .fin 0) (hr : o.rel.fv = .fin 0) :
    doublesEqual o g1 g2 v1 v2 = .ok (decide (a = b)) ∧ (a = b ↔ v1 = v2 ∨ a = 0 ∧ b = 0) := by
  constructor
  · by_cases hab : a = b
    · rw [(C56_absolute o g1 g2 v1 v2 hn a b 0 h1 h2 he hr le_rfl).1 (by rw [hab]; simp), decide_eq_true hab]
    · have e1 := Dbl.fv_fin h1
      have e2 := Dbl.fv_fin h2
      have e3 : |a - b| = (|v1.units - v2.units| : Int) * (2 : ℚ) ^ (-1074 : Int) := by
        rw [e1, e2, ← sub_mul, abs_mul, abs_of_pos (show (0 : ℚ) < (2 : ℚ) ^ (-1074 : Int) by positivity)]
        push_cast
        rfl
      have h3 : (1 : Int) ≤ |v1.units - v2.units| := by
        refine Int.one_le_abs ?_
        intro hc
        refine hab ?_
        rw [e1, e2, show v1.units = v2.units by omega]
      have hd : FV.IsDouble ((1 : Int) * (2 : ℚ) ^ (-1074 : Int)) := ⟨1, -1074, by norm_num, le_rfl, rfl⟩
      rw [(C56_absolute o g1 g2 v1 v2 hn a b 0 h1 h2 he hr le_rfl).2 _ hd (by positivity) ?_, decide_eq_false hab]
      rw [e3]
      exact mul_le_mul_of_nonneg_right (Int.cast_le.mpr h3) (by positivity)
  · constructor
    · rintro rfl
      rcases Dbl.fv_inj h1 h2 with h | h
      · exact Or.inl h
      · exact Or.inr ⟨h, h⟩
    · rintro (rfl | ⟨h, h'⟩)
      · rw [h1] at h2
        cases h2
        rfl
      · rw [h, h']

theorem le_total_fin {a b : FV} (h : a.le b = true) (h' : b.le a = true) : a = b := by
  cases a <;> cases b <;> simp only [FV.le, decide_eq_true_eq, Bool.false_eq_true, Bool.or_eq_true, Bool.not_eq_true'] at h h'
  · rw [le_antisymm h h']
  · rw [h'] at h
    cases h
  · rw [h] at h'
    cases h'
  · rename_i m n
    cases m <;> cases n <;> simp_all

/-- C56: the comparison does not depend on which file is the first (values that are not "not a number") -/
theorem C56_symm (o : Opt) (g1 g2 : Gx) (v1 v2 : Dbl) (a1 : ∃ x, acronymName g1 v1 = .ok x) (a2 : ∃ x, acronymName g2 v2 = .ok x)
    (n1 : v1.fv ≠ .nan) (n2 : v2.fv ≠ .nan) : doublesEqual o g1 g2 v1 v2 = doublesEqual o g2 g1 v2 v1 := by
  obtain ⟨⟨b1, s1⟩, a1⟩ := a1
  obtain ⟨⟨b2, s2⟩, a2⟩ := a2
  have hc : close o v1 v2 = close o v2 v1 := by
    rw [close_eq, close_eq, FV.sub_comm_abs]
    congr 5
    have nn : ∀ x : FV, x ≠ .nan → x.abs ≠ .nan := by
      intro x hx
      cases x <;> simp_all [FV.abs]
    have m1 := nn _ n1
    have m2 := nn _ n2
    have tot : ∀ x y : FV, x ≠ .nan → y ≠ .nan → x.le y = true ∨ y.le x = true := by
      intro x y hx hy
      cases x with
      | nan => exact absurd rfl hx
      | fin p =>
        cases y with
        | nan => exact absurd rfl hy
        | fin q => simpa [FV.le] using le_total p q
        | inf n => cases n <;> simp [FV.le]
      | inf m =>
        cases y with
        | nan => exact absurd rfl hy
        | fin q => cases m <;> simp [FV.le]
        | inf n => cases m <;> cases n <;> simp [FV.le]
    by_cases h1 : v1.fv.abs.le v2.fv.abs = true
    · by_cases h2 : v2.fv.abs.le v1.fv.abs = true
      · rw [if_pos h1, if_pos h2, le_total_fin h1 h2]
      · rw [if_pos h1, if_neg h2]
    · rw [if_neg h1, if_pos ((tot _ _ m1 m2).resolve_left h1)]
  have hs : sameText false s1 s2 = sameText false s2 s1 := by
    rw [Bool.eq_iff_iff, sameText_iff, sameText_iff]
    exact ⟨fun h => Eq.symm h, fun h => Eq.symm h⟩
  unfold doublesEqual
  by_cases h1 : mapValue g1.sv v1 = 5 <;> by_cases h2 : mapValue g2.sv v2 = 5
  · simp only [h1, h2, if_true, a1, a2, Res.bind_ok, Res.pure_eq, hc, hs]
    cases b1 <;> cases b2 <;> rfl
  · simp only [h1, h2, if_true, if_false]
  · simp only [h1, h2, if_true, if_false]
  · simp only [h1, h2, if_false]
    rw [decide_eq_decide.mpr eq_comm]

theorem le_fin_trans {x : FV} {a b : ℚ} (h : x.le (.fin a) = true) (hab : a ≤ b) : x.le (.fin b) = true := by
  cases x with
  | fin q =>
    simp only [FV.le, decide_eq_true_eq] at h ⊢
    exact le_trans h hab
  | inf m => exact h
  | nan => exact h

/-- C56: a larger tolerance accepts more -/
theorem C56_mono (o o' : Opt) (g1 g2 : Gx) (v1 v2 : Dbl) (e e' r r' : ℚ) (he : o.eps.fv = .fin e) (he' : o'.eps.fv = .fin e')
    (hr : o.rel.fv = .fin r) (hr' : o'.rel.fv = .fin r') (h1 : e ≤ e') (h2 : r ≤ r') (h : doublesEqual o g1 g2 v1 v2 = .ok true) :
    doublesEqual o' g1 g2 v1 v2 = .ok true := by
  have hc : close o v1 v2 = true → close o' v1 v2 = true := by
    rw [close_eq, close_eq, he, he', hr, hr']
    simp only [Bool.or_eq_true, Bool.and_eq_true]
    rintro (h | ⟨h, h3⟩)
    · exact Or.inl (le_fin_trans h h1)
    · refine Or.inr ⟨?_, le_fin_trans h3 h2⟩
      simp only [FV.lt, decide_eq_true_eq] at h ⊢
      exact lt_of_lt_of_le h h2
  have hm : ∀ v : Dbl, ((FV.fin 0).lt o.eps.fv && v.fv.abs.le o.eps.fv) = true → ((FV.fin 0).lt o'.eps.fv && v.fv.abs.le o'.eps.fv) = true := by
    intro v
    rw [he, he', Bool.and_eq_true, Bool.and_eq_true]
    rintro ⟨h, h3⟩
    refine ⟨?_, le_fin_trans h3 h1⟩
    simp only [FV.lt, decide_eq_true_eq] at h ⊢
    exact lt_of_lt_of_le h h1
  unfold doublesEqual at h ⊢
  dsimp only at h ⊢
  by_cases k1 : mapValue g1.sv v1 = 5 <;> by_cases k2 : mapValue g2.sv v2 = 5
  · simp only [k1, k2, if_true] at h ⊢
    obtain ⟨⟨b1, s1⟩, x1, h⟩ := Res.bind_eq_ok.mp h
    rw [x1]
    simp only [Res.bind_ok]
    cases b1
    · simp only [Bool.false_eq_true, if_false] at h ⊢
      exact congrArg Res.ok (hc (by injection h))
    · simp only [if_true] at h ⊢
      obtain ⟨⟨b2, s2⟩, x2, h⟩ := Res.bind_eq_ok.mp h
      rw [x2]
      simp only [Res.bind_ok]
      cases b2
      · simp only [Bool.false_eq_true, if_false] at h ⊢
        exact congrArg Res.ok (hc (by injection h))
      · exact h
  · simp only [k1, k2, if_true, if_false] at h ⊢
    injection h with h
    rw [Bool.and_assoc, Bool.and_eq_true] at h
    rw [Bool.and_assoc, h.1, hm _ h.2]
    rfl
  · simp only [k1, k2, if_true, if_false] at h ⊢
    injection h with h
    rw [Bool.and_assoc, Bool.and_eq_true] at h
    rw [Bool.and_assoc, h.1, hm _ h.2]
    rfl
  · simp only [k1, k2, if_false] at h ⊢
    exact h

/-- C56: a value that is not infinite is equal to itself -/
theorem C56_refl (o : Opt) (g : Gx) (v : Dbl) (q e : ℚ) (hq : v.fv = .fin q) (he : o.eps.fv = .fin e) (h0 : 0 ≤ e)
    (a : ∃ x, acronymName g v = .ok x) : doublesEqual o g g v v = .ok true := by
  obtain ⟨⟨b, s⟩, a⟩ := a
  have hc : close o v v = true := by
    rw [close_eq, diff_fin hq hq, sub_self, abs_zero, FV.near_zero, if_neg (by norm_num), he]
    simp only [FV.le, decide_eq_true h0, Bool.true_or]
  unfold doublesEqual
  by_cases h : mapValue g.sv v = 5
  · simp only [h, if_true, a, Res.bind_ok, Res.pure_eq, hc]
    cases b
    · rfl
    · simp only [if_true]
      congr 1
      rw [sameText_iff]
      exact rfl
  · simp only [h, if_false, decide_true]

/-! ### examples -/

/-- the bits of 0.1 + 0.2, 0.3, 0.5, 1e-15 -/
def dblSum : Dbl := 0x3fd3333333333334
def dbl03 : Dbl := 0x3fd3333333333333
def dblTiny : Dbl := 0x3cd203af9ee75616

/-- 0.1 + 0.2 and 0.3 differ without tolerance and are equal with an absolute or a relative tolerance of 1e-15 -/
example : doublesEqual {} Gx.new Gx.new dblSum dbl03 = .ok false ∧ doublesEqual { eps := dblTiny } Gx.new Gx.new dblSum dbl03 = .ok true ∧
    doublesEqual { rel := dblTiny } Gx.new Gx.new dblSum dbl03 = .ok true := by decide +kernel

/-- the two zeros are equal; EPS is not 0 without tolerance, and is 0 with one; NA is equal to NA only -/
example : doublesEqual {} Gx.new Gx.new Dbl.zero Dbl.negZero = .ok true ∧ doublesEqual {} Gx.new Gx.new Dbl.sv_eps Dbl.zero = .ok false ∧
    doublesEqual { eps := dblTiny } Gx.new Gx.new Dbl.sv_eps Dbl.zero = .ok true ∧
    doublesEqual { eps := dblTiny } Gx.new Gx.new Dbl.sv_na Dbl.sv_na = .ok true ∧
    doublesEqual { eps := dblTiny } Gx.new Gx.new Dbl.sv_na Dbl.sv_und = .ok false := by decide +kernel

/-- the smallest double and 0 are not equal: the difference is not rounded to 0 -/
example : doublesEqual {} Gx.new Gx.new 1 0 = .ok false := by decide +kernel

end Gdx.Props
