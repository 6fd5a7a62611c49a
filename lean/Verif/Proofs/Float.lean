import Verif.Model.Float
import Verif.Proofs.Ieee

/-! Facts about rounding to double. -/

namespace Gdx

theorem roundEven_int (n : Int) : roundEven (n : ℚ) = n := le_antisymm (roundEven_le_int _ _ le_rfl) (roundEven_mono_int _ _ le_rfl)

theorem roundEven_neg (r : ℚ) : roundEven (-r) = -roundEven r := by
  rcases eq_or_ne (r - ⌊r⌋) 0 with h | h
  · have : r = ⌊r⌋ := by linarith
    rw [this, ← Int.cast_neg, roundEven_int, roundEven_int]
  · have h0 : 0 < r - ⌊r⌋ := lt_of_le_of_ne (by linarith [Int.floor_le r]) (Ne.symm h)
    have h1 := Int.lt_floor_add_one r
    have hf : ⌊-r⌋ = -⌊r⌋ - 1 := by
      rw [Int.floor_eq_iff]
      push_cast
      constructor <;> linarith
    unfold roundEven
    rw [hf]
    push_cast
    split
    · rename_i a
      rw [if_neg (by linarith), if_pos (by linarith)]
      ring
    · rename_i a
      split
      · rename_i b
        rw [if_pos (by linarith)]
        ring
      · rename_i b
        rw [if_neg (show ¬ r - ⌊r⌋ < 1 / 2 by linarith), if_neg (show ¬ 1 / 2 < r - ⌊r⌋ by linarith)]
        split <;> split <;> omega

namespace FV

theorem ulpExp_neg (q : ℚ) : ulpExp (-q) = ulpExp q := by rw [ulpExp, ulpExp, abs_neg]

theorem near_neg (q : ℚ) : near (-q) = -near q := by
  rw [near, near, ulpExp_neg, neg_div, roundEven_neg]
  push_cast
  ring

theorem near_abs (q : ℚ) : |near q| = near |q| := by
  rcases abs_cases q with ⟨h, h0⟩ | ⟨h, h0⟩
  · rw [h]
    refine abs_of_nonneg ?_
    unfold near
    have : 0 ≤ roundEven (q / (2 : ℚ) ^ ulpExp q) := roundEven_mono_int _ 0 (by push_cast; positivity)
    have h2 : (0 : ℚ) ≤ roundEven (q / (2 : ℚ) ^ ulpExp q) := by exact_mod_cast this
    positivity
  · rw [h, near_neg]
    refine abs_of_nonpos ?_
    unfold near
    have : roundEven (q / (2 : ℚ) ^ ulpExp q) ≤ 0 := roundEven_le_int _ 0 (by
      push_cast
      exact div_nonpos_of_nonpos_of_nonneg h0.le (by positivity))
    have h2 : (roundEven (q / (2 : ℚ) ^ ulpExp q) : ℚ) ≤ 0 := by exact_mod_cast this
    exact mul_nonpos_of_nonpos_of_nonneg h2 (by positivity)

/-- a number that a double can have: a multiple `n` of 2^e with 53 bits for `n` and `e` not below the smallest exponent -/
def IsDouble (q : ℚ) : Prop := ∃ n e : Int, |n| < 2 ^ 53 ∧ -1074 ≤ e ∧ q = n * (2 : ℚ) ^ e

theorem mul_zpow_int {e f : Int} (h : f ≤ e) (n : Int) : ∃ k : Int, (n : ℚ) * (2 : ℚ) ^ e = k * (2 : ℚ) ^ f := by
  refine ⟨n * 2 ^ (e - f).toNat, ?_⟩
  push_cast
  rw [mul_assoc, ← zpow_natCast, ← zpow_add₀ (by norm_num)]
  congr 2
  omega

/-- a double is a multiple of the unit in the last place of every number that is not larger -/
theorem IsDouble.multiple {r q : ℚ} (h : IsDouble r) (h0 : 0 < q) (hq : q ≤ r) : ∃ k : Int, r = k * (2 : ℚ) ^ ulpExp q := by
  obtain ⟨n, e, h1, h2, rfl⟩ := h
  refine mul_zpow_int ?_ n
  refine max_le ?_ h2
  have h3 : (0 : ℚ) < n * (2 : ℚ) ^ e := lt_of_lt_of_le h0 hq
  have hp : (0 : ℚ) < (2 : ℚ) ^ e := by positivity
  have hn : (0 : ℚ) < n := by
    by_contra hc
    exact absurd h3 (not_lt.mpr (mul_nonpos_of_nonpos_of_nonneg (not_lt.mp hc) hp.le))
  have hn' : 0 < n := by exact_mod_cast hn
  rw [abs_of_pos hn'] at h1
  have h4 : (2 : ℚ) ^ (Int.log 2 q) ≤ q := Int.zpow_log_le_self (by norm_num) h0
  have h5 : q < (2 : ℚ) ^ (53 + e) := by
    refine lt_of_le_of_lt hq ?_
    rw [zpow_add₀ (by norm_num)]
    refine mul_lt_mul_of_pos_right ?_ hp
    have : (n : ℚ) < (2 ^ 53 : Int) := by exact_mod_cast h1
    calc (n : ℚ) < _ := this
      _ = _ := by norm_num
  have h6 := (zpow_lt_zpow_iff_right₀ (by norm_num : (1 : ℚ) < 2)).mp (lt_of_le_of_lt h4 h5)
  rw [abs_of_pos h0]
  omega

/-- rounding does not pass a double -/
theorem near_le {r q : ℚ} (h : IsDouble r) (h0 : 0 < q) (hq : q ≤ r) : near q ≤ r := by
  obtain ⟨k, hk⟩ := h.multiple h0 hq
  have hp : (0 : ℚ) < (2 : ℚ) ^ ulpExp q := by positivity
  unfold near
  conv => rhs; rw [hk]
  refine mul_le_mul_of_nonneg_right ?_ hp.le
  have : roundEven (q / (2 : ℚ) ^ ulpExp q) ≤ k := roundEven_le_int _ _ (by
    rw [div_le_iff₀ hp, ← hk]
    exact hq)
  exact_mod_cast this

/-- a double is rounded to itself -/
theorem near_self {r : ℚ} (h : IsDouble r) (h0 : 0 < r) : near r = r := by
  obtain ⟨k, hk⟩ := h.multiple h0 le_rfl
  unfold near
  rw [(div_eq_iff (by positivity)).mpr hk, roundEven_int, ← hk]

/-- rounding does not pass a double from above -/
theorem le_near {r q : ℚ} (h : IsDouble r) (h0 : 0 < r) (hq : r ≤ q) : r ≤ near q := by
  have hq0 : 0 < q := lt_of_lt_of_le h0 hq
  have key : ∀ k : Int, (k : ℚ) * (2 : ℚ) ^ ulpExp q ≤ q → (k : ℚ) * (2 : ℚ) ^ ulpExp q ≤ near q := by
    intro k hk
    have hp : (0 : ℚ) < (2 : ℚ) ^ ulpExp q := by positivity
    unfold near
    refine mul_le_mul_of_nonneg_right ?_ hp.le
    have : k ≤ roundEven (q / (2 : ℚ) ^ ulpExp q) := roundEven_mono_int _ _ (by rw [le_div_iff₀ hp]; exact hk)
    exact_mod_cast this
  obtain ⟨n, e, h1, h2, rfl⟩ := h
  by_cases hc : ulpExp q ≤ e
  · obtain ⟨k, hk⟩ := mul_zpow_int hc n
    rw [hk] at hq ⊢
    exact key k hq
  · have hu : ulpExp q = Int.log 2 q - 52 := by
      unfold ulpExp at hc ⊢
      rw [abs_of_pos hq0] at hc ⊢
      rcases le_total (Int.log 2 q - 52) (-1074) with h3 | h3
      · rw [max_eq_right h3] at hc
        omega
      · rw [max_eq_left h3]
    have h4 : (2 : ℚ) ^ (Int.log 2 q) ≤ q := Int.zpow_log_le_self (by norm_num) hq0
    obtain ⟨k, hk⟩ := mul_zpow_int (show ulpExp q ≤ Int.log 2 q by omega) 1
    rw [Int.cast_one, one_mul] at hk
    refine le_trans ?_ (le_trans (le_of_eq hk) (key k (by rw [← hk]; exact h4)))
    have hn : (n : ℚ) ≤ (2 : ℚ) ^ (53 : Int) := by
      have : n ≤ 2 ^ 53 := le_trans (le_abs_self n) h1.le
      have : (n : ℚ) ≤ ((2 ^ 53 : Int) : ℚ) := by exact_mod_cast this
      refine le_trans this ?_
      norm_num
    calc (n : ℚ) * (2 : ℚ) ^ e ≤ (2 : ℚ) ^ (53 : Int) * (2 : ℚ) ^ e := mul_le_mul_of_nonneg_right hn (by positivity)
      _ = (2 : ℚ) ^ (53 + e) := by rw [← zpow_add₀ (by norm_num)]
      _ ≤ (2 : ℚ) ^ (Int.log 2 q) := zpow_le_zpow_right₀ (by norm_num) (by omega)

theorem near_zero : near 0 = 0 := by
  unfold near
  rw [zero_div]
  have : roundEven 0 = 0 := by exact_mod_cast roundEven_int 0
  rw [this]
  simp

/-- rounding a multiple of the smallest double that is not zero does not give zero -/
theorem near_pos {n : Int} (h : 0 < n) : 0 < near (n * (2 : ℚ) ^ (-1074 : Int)) := by
  have hn : (1 : ℚ) ≤ n := by exact_mod_cast h
  have hq : (0 : ℚ) < n * (2 : ℚ) ^ (-1074 : Int) := by positivity
  unfold near
  refine mul_pos ?_ (by positivity)
  have : (1 : Int) ≤ roundEven (n * (2 : ℚ) ^ (-1074 : Int) / (2 : ℚ) ^ ulpExp (n * (2 : ℚ) ^ (-1074 : Int))) := by
    refine roundEven_mono_int _ _ ?_
    rw [le_div_iff₀ (by positivity)]
    push_cast
    rw [one_mul]
    generalize hqq : (n : ℚ) * (2 : ℚ) ^ (-1074 : Int) = q at hq
    unfold ulpExp
    rcases le_total (Int.log 2 |q| - 52) (-1074) with h1 | h1
    · rw [max_eq_right h1, ← hqq]
      have : (0 : ℚ) < (2 : ℚ) ^ (-1074 : Int) := by positivity
      nlinarith
    · rw [max_eq_left h1, abs_of_pos hq]
      refine le_trans ?_ (Int.zpow_log_le_self (b := 2) (by norm_num) hq)
      exact zpow_le_zpow_right₀ (by norm_num) (by omega)
  have h2 : 0 < roundEven (n * (2 : ℚ) ^ (-1074 : Int) / (2 : ℚ) ^ ulpExp (n * (2 : ℚ) ^ (-1074 : Int))) := by omega
  exact Int.cast_pos.mpr h2

theorem round_neg (q : ℚ) : (round (-q)).abs = (round q).abs := by
  unfold round
  rw [near_neg, abs_neg]
  split
  · rfl
  · show FV.fin _ = FV.fin _
    rw [abs_neg]

theorem sub_comm_abs (a b : FV) : (a.sub b).abs = (b.sub a).abs := by
  cases a with
  | fin p =>
    cases b with
    | fin q =>
      show (round (p + -q)).abs = (round (q + -p)).abs
      rw [show q + -p = -(p + -q) by ring, round_neg]
    | inf n => rfl
    | nan => rfl
  | inf m =>
    cases b with
    | fin q => rfl
    | inf n => cases m <;> cases n <;> rfl
    | nan => rfl
  | nan => cases b <;> rfl

end FV

namespace Dbl

theorem fv_fin {d : Dbl} {q : ℚ} (h : d.fv = .fin q) : q = d.units * (2 : ℚ) ^ (-1074 : Int) := by
  unfold fv at h
  split at h
  · split at h <;> cases h
  · cases h
    rfl

theorem fv_isDouble {d : Dbl} {q : ℚ} (h : d.fv = .fin q) : FV.IsDouble q := by
  have hq := fv_fin h
  have hf : d.frac < 4503599627370496 := Nat.mod_lt _ (by norm_num)
  unfold units at hq
  have key : ∀ a : Int, 0 ≤ a → ∀ n e : Int, (a : ℚ) * (2 : ℚ) ^ (-1074 : Int) = n * (2 : ℚ) ^ e → |n| < 2 ^ 53 → -1074 ≤ e →
      FV.IsDouble (((if d.isNeg then -a else a : Int) : ℚ) * (2 : ℚ) ^ (-1074 : Int)) := by
    intro a _ n e h1 h2 h3
    split
    · refine ⟨-n, e, by rw [abs_neg]; exact h2, h3, ?_⟩
      push_cast
      rw [neg_mul, h1, neg_mul]
    · exact ⟨n, e, h2, h3, h1⟩
  rw [hq]
  dsimp only
  by_cases he : d.expo = 0
  · rw [if_pos he]
    refine key _ (by omega) d.frac (-1074) rfl ?_ le_rfl
    rw [abs_of_nonneg (by omega)]
    norm_num
    omega
  · rw [if_neg he]
    refine key _ (by positivity) (4503599627370496 + d.frac : Nat) (d.expo - 1 - 1074) ?_ ?_ (by omega)
    · push_cast
      rw [show ((d.expo : Int) - 1 - 1074) = ((d.expo - 1 : Nat) : Int) + (-1074) by omega, zpow_add₀ (by norm_num), zpow_natCast]
      ring
    · rw [abs_of_nonneg (by omega)]
      norm_num
      omega

theorem fv_lt {d : Dbl} {q : ℚ} (h : d.fv = .fin q) : q < (2 : ℚ) ^ (1024 : Int) := by
  have hq := fv_fin h
  have hf : d.frac < 4503599627370496 := Nat.mod_lt _ (by norm_num)
  have hx : d.expo < 2047 := by
    have h1 : d.expo < 2048 := Nat.mod_lt _ (by norm_num)
    by_contra hc
    unfold fv at h
    rw [if_pos (by omega)] at h
    split at h <;> cases h
  have hu : d.units < 2 ^ 2098 := by
    unfold units
    have key : (if d.expo = 0 then (d.frac : Int) else (4503599627370496 + d.frac : Nat) * 2 ^ (d.expo - 1)) < 2 ^ 2098 := by
      split
      · calc (d.frac : Int) < 2 ^ 52 := by omega
          _ ≤ 2 ^ 2098 := pow_le_pow_right₀ (by norm_num) (by norm_num)
      · calc ((4503599627370496 + d.frac : Nat) : Int) * 2 ^ (d.expo - 1) < 2 ^ 53 * 2 ^ (d.expo - 1) :=
              mul_lt_mul_of_pos_right (by omega) (by positivity)
          _ = 2 ^ (53 + (d.expo - 1)) := by rw [← pow_add]
          _ ≤ 2 ^ 2098 := pow_le_pow_right₀ (by norm_num) (by omega)
    have nn : (0 : Int) ≤ (if d.expo = 0 then (d.frac : Int) else (4503599627370496 + d.frac : Nat) * 2 ^ (d.expo - 1)) := by
      split
      · omega
      · positivity
    dsimp only
    generalize (if d.expo = 0 then (d.frac : Int) else (4503599627370496 + d.frac : Nat) * 2 ^ (d.expo - 1)) = m at key nn
    have hp : (0 : Int) < 2 ^ 2098 := by positivity
    generalize (2 : Int) ^ 2098 = B at key hp ⊢
    split <;> omega
  rw [hq, show (1024 : Int) = 2098 + (-1074) by norm_num, zpow_add₀ (by norm_num)]
  refine mul_lt_mul_of_pos_right ?_ (by positivity)
  have h2 : (d.units : ℚ) < ((2 ^ 2098 : Int) : ℚ) := Int.cast_lt.mpr hu
  rw [Int.cast_pow] at h2
  exact_mod_cast h2

/-- two doubles with the same finite value have the same bits, except that there are two zeros -/
theorem fv_inj {a b : Dbl} {q : ℚ} (ha : a.fv = .fin q) (hb : b.fv = .fin q) : a = b ∨ q = 0 := by
  by_cases hq : q = 0
  · exact Or.inr hq
  refine Or.inl ?_
  have h1 := fv_fin ha
  have h2 := fv_fin hb
  have hu : a.units = b.units := by
    have : (a.units : ℚ) = b.units := by
      have hp : (2 : ℚ) ^ (-1074 : Int) ≠ 0 := by positivity
      exact mul_right_cancel₀ hp (h1.symm.trans h2)
    exact_mod_cast this
  have hne : a.units ≠ 0 := by
    intro hc
    rw [hc] at h1
    exact hq (by rw [h1]; simp)
  -- absolute value and sign
  let mag : Dbl → Int := fun d => if d.expo = 0 then d.frac else (4503599627370496 + d.frac : Nat) * 2 ^ (d.expo - 1)
  have hmag : ∀ d : Dbl, 0 ≤ mag d := by
    intro d
    show 0 ≤ (if d.expo = 0 then (d.frac : Int) else _)
    split
    · omega
    · positivity
  have hun : ∀ d : Dbl, d.units = if d.isNeg then -mag d else mag d := fun d => rfl
  have hm : mag a = mag b ∧ a.isNeg = b.isNeg := by
    have ea := hun a
    have eb := hun b
    have ma := hmag a
    have mb := hmag b
    rw [ea, eb] at hu
    rw [ea] at hne
    cases hA : a.isNeg <;> cases hB : b.isNeg <;> simp only [hA, hB, if_true, if_false, Bool.false_eq_true] at hu hne ⊢ <;>
      first | (refine ⟨by omega, trivial⟩) | (exfalso; omega)
  obtain ⟨hm, hs⟩ := hm
  have fa : a.frac < 4503599627370496 := Nat.mod_lt _ (by norm_num)
  have fb : b.frac < 4503599627370496 := Nat.mod_lt _ (by norm_num)
  have pw : ∀ (x y : Dbl), x.expo ≠ 0 → y.expo ≠ 0 → x.expo < y.expo → mag x < mag y := by
    intro x y hx hy hl
    have fx : x.frac < 4503599627370496 := Nat.mod_lt _ (by norm_num)
    show (if x.expo = 0 then (x.frac : Int) else _) < (if y.expo = 0 then (y.frac : Int) else _)
    rw [if_neg hx, if_neg hy]
    have h3 : (2 : Int) ^ (y.expo - 1) = 2 ^ (x.expo - 1) * 2 * 2 ^ (y.expo - x.expo - 1) := by
      rw [mul_assoc, ← pow_succ', ← pow_add]
      congr 1
      omega
    have h4 : (1 : Int) ≤ 2 ^ (y.expo - x.expo - 1) := one_le_pow₀ (by norm_num)
    have h5 : (0 : Int) < 2 ^ (x.expo - 1) := by positivity
    have h6 : ((4503599627370496 + x.frac : Nat) : Int) < 9007199254740992 := by omega
    have h7 : (4503599627370496 : Int) ≤ ((4503599627370496 + y.frac : Nat) : Int) := by omega
    rw [h3]
    calc ((4503599627370496 + x.frac : Nat) : Int) * 2 ^ (x.expo - 1) < 9007199254740992 * 2 ^ (x.expo - 1) := mul_lt_mul_of_pos_right h6 h5
      _ = 4503599627370496 * (2 ^ (x.expo - 1) * 2 * 1) := by ring
      _ ≤ ((4503599627370496 + y.frac : Nat) : Int) * (2 ^ (x.expo - 1) * 2 * 2 ^ (y.expo - x.expo - 1)) :=
        mul_le_mul h7 (mul_le_mul_of_nonneg_left h4 (by positivity)) (by positivity) (by positivity)
  have sub : ∀ (x y : Dbl), x.expo = 0 → y.expo ≠ 0 → mag x < mag y := by
    intro x y hx hy
    have fx : x.frac < 4503599627370496 := Nat.mod_lt _ (by norm_num)
    show (if x.expo = 0 then (x.frac : Int) else _) < (if y.expo = 0 then (y.frac : Int) else _)
    rw [if_pos hx, if_neg hy]
    have h4 : (1 : Int) ≤ 2 ^ (y.expo - 1) := one_le_pow₀ (by norm_num)
    nlinarith [show (4503599627370496 : Int) ≤ ((4503599627370496 + y.frac : Nat) : Int) by omega]
  have he : a.expo = b.expo := by
    by_cases ea : a.expo = 0 <;> by_cases eb : b.expo = 0
    · omega
    · have := sub a b ea eb
      omega
    · have := sub b a eb ea
      omega
    · rcases lt_trichotomy a.expo b.expo with h | h | h
      · have := pw a b ea eb h
        omega
      · exact h
      · have := pw b a eb ea h
        omega
  have hf : a.frac = b.frac := by
    have hm : (if a.expo = 0 then (a.frac : Int) else (4503599627370496 + a.frac : Nat) * 2 ^ (a.expo - 1)) =
      (if b.expo = 0 then (b.frac : Int) else (4503599627370496 + b.frac : Nat) * 2 ^ (b.expo - 1)) := hm
    rw [← he] at hm
    split at hm
    · omega
    · have hp : (2 : Int) ^ (a.expo - 1) ≠ 0 := by positivity
      have := mul_right_cancel₀ hp hm
      omega
  have la := a.toNat_lt
  have lb := b.toNat_lt
  have hs' : (9223372036854775808 ≤ a.toNat) ↔ (9223372036854775808 ≤ b.toNat) := by
    have : decide (9223372036854775808 ≤ a.toNat) = decide (9223372036854775808 ≤ b.toNat) := hs
    exact decide_eq_decide.mp this
  unfold expo at he
  unfold frac at hf
  apply UInt64.toNat_inj.mp
  omega

end Dbl
end Gdx
