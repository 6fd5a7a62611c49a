import Verif.Proofs.Ieee

/-! C31: acronym value and acronym index. -/

namespace Gdx.Props
open Gdx

/-- C31 for the indices whose value is a finite double: the index of the value of `i` is `i`, and the value is not
    below the acronym limit and not an infinity. (Missing: larger indices, see `C31_overflow`.) -/
theorem C31_inverse_partial (i : Int) (h : 1 ≤ i) (h2 : i ≤ 17976931) :
    acrIndex (acrValue i) = .ok i ∧ geAcr (acrValue i) = true ∧ dblInfo (acrValue i) = .finite := by
  have hb := acrValue_ge i h h2
  have hg : geAcr (acrValue i) = true := (geAcr_iff _).mpr ⟨hb.1, hb.2.le⟩
  have hd : dblInfo (acrValue i) = .finite := by
    unfold dblInfo
    rw [if_neg]
    omega
  refine ⟨?_, hg, hd⟩
  unfold acrIndex ltAcr acrDiv
  rw [hg, hd]
  have hni : acrValue i ≠ Dbl.posInf := by
    intro e
    rw [e] at hb
    exact absurd hb.2 (by decide)
  simp only [Bool.not_true, Bool.false_and, Bool.false_eq_true, if_false, reduceCtorEq, if_neg hni]
  rw [index_of_value i h h2]

/-- C31 does not hold for larger indices: from 17976932 on the value overflows to the IEEE infinity, and asking for the
    index of it converts an infinity to an integer (undefined behaviour). -/
theorem C31_overflow (i : Int) (h : 17976932 ≤ i) : acrValue i = Dbl.posInf ∧ acrIndex (acrValue i) = .ub := by
  have hv : acrValue i = Dbl.posInf := by
    unfold acrValue
    rw [if_neg (by omega)]
    apply acr_bits_inf
    apply mul_le_mul_of_nonneg_left _ acr_pos.le
    exact_mod_cast h
  refine ⟨hv, ?_⟩
  rw [hv]
  decide

/-- C31: the index is 0 for every number below the limit: negative doubles (also minus infinity), and non-negative ones
    that stand for a number below that of the double 1e301 (subnormal numbers and zero have exponent field 0). -/
theorem C31_below (x : Dbl) (hn : dblInfo x ≠ .nan)
    (h : 9223372036854775808 ≤ x.toNat ∨ x.toNat < 4503599627370496 ∨
      (dblInfo x = .finite ∧ x.toRat < Dbl.acr.toRat)) : acrIndex x = .ok 0 := by
  have hl : ltAcr x = true := by
    unfold ltAcr
    have : geAcr x = false := by
      rw [Bool.eq_false_iff]
      intro hg
      obtain ⟨h1, h2⟩ := (geAcr_iff x).mp hg
      rcases h with h | h | ⟨hd, h⟩
      · omega
      · omega
      · have hx : x.toNat < 9218868437227405312 := by
          rcases Nat.lt_or_ge x.toNat 9218868437227405312 with hc | hc
          · exact hc
          · exfalso
            have he : x.toNat = 9218868437227405312 := by omega
            unfold dblInfo at hd
            rw [he] at hd
            exact absurd hd (by decide)
        rcases Nat.lt_or_ge Dbl.acr.toNat x.toNat with hc | hc
        · have := toRat_lt_of_bits (by decide) hx hc
          exact absurd h (not_lt.mpr this.le)
        · have : x.toNat = Dbl.acr.toNat := le_antisymm hc h1
          rw [UInt64.toNat_inj.mp this] at h
          exact absurd h (lt_irrefl _)
    rw [this]
    simp [hn]
  unfold acrIndex
  rw [if_pos hl]

/-- a NaN is taken for an acronym: undefined behaviour -/
theorem C31_nan (x : Dbl) (h : dblInfo x = .nan) : acrIndex x = .ub := by
  unfold acrIndex ltAcr
  rw [h]
  simp

example : acrIndex Dbl.sv_eps = .ok 0 := by decide +kernel
example : (acrValue 1).toNat = 9110180938284831491 := by
  rw [acrValue_bits 1 (by norm_num) (by norm_num)]
  simp only [Int.cast_one, mul_one]
  rw [acr_binExp, acr_signif]
  decide
example : acrIndex (acrValue 12) = .ok 12 := (C31_inverse_partial 12 (by norm_num) (by norm_num)).1

#print axioms C31_inverse_partial
#print axioms C31_overflow
#print axioms C31_below
#print axioms C31_nan

end Gdx.Props
