import Verif.Proofs.Float
import Verif.Model.Merge

/-! Rounding a small whole number gives the number (for Proofs/Merge*): numbers of texts survive the way through a double. -/

namespace Gdx.Merge
open Gdx

theorem whole_isDouble {n : Int} (h : |n| < 2 ^ 53) : FV.IsDouble (n : ℚ) := ⟨n, 0, h, by norm_num, by simp⟩

theorem whole_floor {n : Int} (h : 0 ≤ n) : ⌊(n : ℚ)⌋₊ = n.toNat := by
  rw [show (n : ℚ) = ((n.toNat : Nat) : ℚ) by
    rw [show ((n.toNat : Nat) : ℚ) = ((n.toNat : Int) : ℚ) by push_cast; rfl, Int.toNat_of_nonneg h]]
  exact Nat.floor_natCast _

theorem whole_binExp {n : Int} (h1 : 1 ≤ n) (h2 : n < 2147483648) : binExp (n : ℚ) < 31 := by
  unfold binExp
  rw [whole_floor (by omega)]
  exact Nat.log_lt_of_lt_pow (by omega) (by omega)

/-- the significand of a small whole number is exact -/
theorem whole_signif {n : Int} (h1 : 1 ≤ n) (h2 : n < 2147483648) : signif (n : ℚ) = n * 2 ^ (52 - binExp (n : ℚ)) := by
  have hb := whole_binExp h1 h2
  unfold signif
  rw [show (n : ℚ) / (2 : ℚ) ^ ((binExp (n : ℚ) : Int) - 52) = ((n * 2 ^ (52 - binExp (n : ℚ)) : Int) : ℚ) by
    rw [div_eq_mul_inv, ← zpow_neg, show -((binExp (n : ℚ) : Int) - 52) = ((52 - binExp (n : ℚ) : Nat) : Int) by omega, zpow_natCast]
    push_cast
    rfl]
  exact roundEven_int _

theorem fv_intDbl {n : Int} (h0 : 0 ≤ n) (h2 : n < 2147483648) : (intDbl n).fv = .fin n := by
  unfold intDbl
  by_cases hn : n ≤ 0
  · obtain rfl : n = 0 := by omega
    rw [if_pos (by omega)]
    have e1 : (Dbl.zero).toNat = 0 := rfl
    simp [Dbl.fv, Dbl.expo, Dbl.frac, Dbl.units, Dbl.isNeg, e1]
  · rw [if_neg hn]
    have h1 : 1 ≤ n := by omega
    have hq : (1 : ℚ) ≤ n := by exact_mod_cast h1
    have hb := whole_binExp h1 h2
    obtain ⟨s1, s2⟩ := signif_bounds (n : ℚ) hq
    have hlt : signif (n : ℚ) < 9007199254740992 := by
      have := lt_binExp (n : ℚ)
      rw [whole_signif h1 h2]
      have h3 : n < 2 ^ (binExp (n : ℚ) + 1) := by
        have e : (2 : ℚ) ^ ((binExp (n : ℚ) : Int) + 1) = ((2 ^ (binExp (n : ℚ) + 1) : Int) : ℚ) := by
          push_cast
          rw [← zpow_natCast]
          push_cast
          rfl
        rw [e] at this
        exact_mod_cast this
      calc n * 2 ^ (52 - binExp (n : ℚ)) < 2 ^ (binExp (n : ℚ) + 1) * 2 ^ (52 - binExp (n : ℚ)) := mul_lt_mul_of_pos_right h3 (by positivity)
        _ = 2 ^ 53 := by rw [← pow_add]; congr 1; omega
        _ = _ := by norm_num
    have hfits : (binExp (n : ℚ) + 1022) * 4503599627370496 + (signif (n : ℚ)).toNat < 9218868437227405312 := by omega
    obtain ⟨m, hm⟩ : ∃ m : Nat, signif (n : ℚ) = m := ⟨(signif (n : ℚ)).toNat, by omega⟩
    have hN : (toDbl (n : ℚ)).toNat = (binExp (n : ℚ) + 1022) * 4503599627370496 + m := by
      unfold toDbl
      simp only
      rw [if_pos hfits, UInt64.toNat_ofNat', hm]
      simp only [Int.toNat_natCast]
      rw [hm] at hfits
      simp only [Int.toNat_natCast] at hfits
      omega
    rw [hm] at s1 s2 hlt
    have ex : (toDbl (n : ℚ)).expo = binExp (n : ℚ) + 1023 := by unfold Dbl.expo; rw [hN]; omega
    have fr : (toDbl (n : ℚ)).frac = m - 4503599627370496 := by unfold Dbl.frac; rw [hN]; omega
    have ng : (toDbl (n : ℚ)).isNeg = false := by
      unfold Dbl.isNeg
      rw [hN]
      simp only [decide_eq_false_iff_not]
      omega
    unfold Dbl.fv Dbl.units
    rw [ex, fr, ng, if_neg (by omega)]
    simp only [Bool.false_eq_true, if_false]
    rw [if_neg (by omega), show 4503599627370496 + (m - 4503599627370496) = m by omega]
    congr 1
    rw [← hm, whole_signif h1 h2]
    push_cast
    rw [← zpow_natCast, ← zpow_natCast, mul_assoc, mul_assoc, ← zpow_add₀ (by norm_num), ← zpow_add₀ (by norm_num)]
    rw [show (((52 - binExp (n : ℚ) : Nat) : Int) + (((binExp (n : ℚ) + 1022 : Nat) : Int) + -1074)) = 0 by omega]
    simp

/-- the number of a text comes back from a double -/
theorem roundInt_intDbl {n : Int} (h0 : 0 ≤ n) (h2 : n < 2147483648) : Diff.roundInt (intDbl n) = .ok n := by
  have hq : (0 : ℚ) ≤ n := by exact_mod_cast h0
  have hq2 : (n : ℚ) < 2147483648 := by exact_mod_cast h2
  have hd : FV.IsDouble ((n : ℚ) + 1 / 2) := by
    refine ⟨2 * n + 1, -1, ?_, by norm_num, ?_⟩
    · rw [abs_of_nonneg (by omega)]
      norm_num
      omega
    · push_cast
      rw [zpow_neg, zpow_one]
      ring
  have hr : FV.round ((n : ℚ) + 1 / 2) = .fin ((n : ℚ) + 1 / 2) := by
    unfold FV.round
    rw [FV.near_self hd (by linarith), if_neg]
    rw [not_le, abs_of_nonneg (by linarith)]
    calc (n : ℚ) + 1 / 2 < 2147483648 + 1 := by linarith
      _ ≤ (2 : ℚ) ^ (32 : Int) := by norm_num
      _ ≤ _ := zpow_le_zpow_right₀ (by norm_num) (by norm_num)
  unfold Diff.roundInt
  rw [fv_intDbl h0 h2]
  dsimp only
  rw [if_pos hq, hr]
  dsimp only
  have hpos : (0 : ℚ) ≤ (n : ℚ) + 1 / 2 := by linarith
  rw [if_pos hpos]
  have hfl : ⌊(n : ℚ) + 1 / 2⌋ = n := by
    rw [Int.floor_eq_iff]
    constructor <;> linarith
  rw [hfl, if_pos (by unfold I64; omega)]
  congr 1
  rw [Int.bmod_def]
  omega

theorem nonZero_intDbl {n : Int} (h0 : 0 ≤ n) (h2 : n < 2147483648) : nonZero (intDbl n) = decide (n ≠ 0) := by
  by_cases hn : n = 0
  · subst hn
    rfl
  · have h := fv_intDbl h0 h2
    have : nonZero (intDbl n) = true := by
      by_contra hc
      have hc : nonZero (intDbl n) = false := by simpa using hc
      unfold nonZero at hc
      have hz : intDbl n = 0 ∨ intDbl n = 9223372036854775808 := by
        simp at hc
        tauto
      have hf : (intDbl n).fv = .fin 0 := by
        rcases hz with hz | hz <;> rw [hz] <;> simp [Dbl.fv, Dbl.expo, Dbl.frac, Dbl.units, Dbl.isNeg]
      rw [h] at hf
      injection hf with hf
      exact hn (by exact_mod_cast hf)
    rw [this]
    simp [hn]

end Gdx.Merge
