import Verif.Model.Ieee
import Mathlib.Tactic.Positivity
import Mathlib.Tactic.FieldSimp
import Mathlib.Tactic.Push

namespace Gdx

theorem roundEven_err (r : ℚ) : |(roundEven r : ℚ) - r| ≤ 1 / 2 := by
  have h1 := Int.floor_le r
  have h2 := Int.lt_floor_add_one r
  unfold roundEven
  split
  · rename_i h
    rw [abs_le]; constructor <;> linarith
  · split
    · rename_i h h'
      push_cast
      rw [abs_le]; constructor <;> linarith
    · rename_i h h'
      have : r - ⌊r⌋ = 1 / 2 := le_antisymm (not_lt.mp h') (not_lt.mp h)
      split
      · rw [abs_le]; constructor <;> linarith
      · push_cast
        rw [abs_le]; constructor <;> linarith

theorem binExp_le (q : ℚ) (h : 1 ≤ q) : (2 : ℚ) ^ (binExp q : Int) ≤ q := by
  have h1 : 1 ≤ ⌊q⌋₊ := Nat.le_floor (by simpa using h)
  have h2 := Nat.pow_log_le_self 2 (x := ⌊q⌋₊) (by omega)
  have h3 := Nat.floor_le (a := q) (by linarith)
  rw [zpow_natCast]
  calc (2 : ℚ) ^ binExp q = ((2 ^ binExp q : Nat) : ℚ) := by push_cast; rfl
    _ ≤ (⌊q⌋₊ : ℚ) := by exact_mod_cast h2
    _ ≤ q := h3

theorem lt_binExp (q : ℚ) : q < (2 : ℚ) ^ ((binExp q : Int) + 1) := by
  have h2 := Nat.lt_pow_succ_log_self (b := 2) (by norm_num) ⌊q⌋₊
  have h3 := Nat.lt_floor_add_one q
  have h4 : ((⌊q⌋₊ + 1 : Nat) : ℚ) ≤ ((2 ^ (binExp q + 1) : Nat) : ℚ) := by
    exact_mod_cast h2
  have h5 : ((2 ^ (binExp q + 1) : Nat) : ℚ) = (2 : ℚ) ^ ((binExp q : Int) + 1) := by
    push_cast
    rw [← zpow_natCast]
    push_cast
    rfl
  rw [← h5]
  push_cast at h4 ⊢
  linarith

theorem roundEven_mono_int (r : ℚ) (n : Int) (h : (n : ℚ) ≤ r) : n ≤ roundEven r := by
  have h1 : n ≤ ⌊r⌋ := Int.le_floor.mpr h
  unfold roundEven
  split
  · exact h1
  · split
    · omega
    · split <;> omega

theorem roundEven_le_int (r : ℚ) (n : Int) (h : r ≤ (n : ℚ)) : roundEven r ≤ n := by
  have he := roundEven_err r
  rw [abs_le] at he
  have : (roundEven r : ℚ) < (n : ℚ) + 1 := by linarith
  have : roundEven r < n + 1 := by exact_mod_cast this
  omega

theorem signif_bounds (q : ℚ) (h : 1 ≤ q) :
    4503599627370496 ≤ signif q ∧ signif q ≤ 9007199254740992 := by
  have hp : (0 : ℚ) < (2 : ℚ) ^ ((binExp q : Int) - 52) := by positivity
  have h1 := binExp_le q h
  have h2 := lt_binExp q
  constructor
  · apply roundEven_mono_int
    rw [le_div_iff₀ hp]
    have : (2 : ℚ) ^ (binExp q : Int) = (2 : ℚ) ^ (52 : Int) * (2 : ℚ) ^ ((binExp q : Int) - 52) := by
      rw [← zpow_add₀ (by norm_num)]; congr 1; ring
    rw [this] at h1
    norm_num at h1 ⊢
    linarith
  · apply roundEven_le_int
    rw [div_le_iff₀ hp]
    have : (2 : ℚ) ^ ((binExp q : Int) + 1) = (2 : ℚ) ^ (53 : Int) * (2 : ℚ) ^ ((binExp q : Int) - 52) := by
      rw [← zpow_add₀ (by norm_num)]; congr 1; ring
    rw [this] at h2
    norm_num at h2 ⊢
    linarith

/-- relative error of rounding -/
theorem rne_err (q : ℚ) (h : 1 ≤ q) : |rne q - q| ≤ q / 9007199254740992 := by
  have hp : (0 : ℚ) < (2 : ℚ) ^ ((binExp q : Int) - 52) := by positivity
  have h1 := binExp_le q h
  have e : rne q - q = ((signif q : ℚ) - q / (2 : ℚ) ^ ((binExp q : Int) - 52)) * (2 : ℚ) ^ ((binExp q : Int) - 52) := by
    unfold rne
    field_simp
  rw [e, abs_mul, abs_of_pos hp]
  have h2 := roundEven_err (q / (2 : ℚ) ^ ((binExp q : Int) - 52))
  have h3 : (2 : ℚ) ^ (binExp q : Int) = (2 : ℚ) ^ (52 : Int) * (2 : ℚ) ^ ((binExp q : Int) - 52) := by
    rw [← zpow_add₀ (by norm_num)]; congr 1; ring
  rw [h3] at h1
  norm_num at h1
  have h4 := mul_le_mul_of_nonneg_right h2 hp.le
  unfold signif
  rw [le_div_iff₀ (by norm_num)]
  linarith

/-- decoding the encoded result -/
theorem toRat_toDbl (q : ℚ) (h : 1 ≤ q)
    (hb : (binExp q + 1022) * 4503599627370496 + (signif q).toNat < 9218868437227405312) :
    (toDbl q).toRat = rne q := by
  obtain ⟨h1, h2⟩ := signif_bounds q h
  unfold toDbl
  simp only
  rw [if_pos hb]
  obtain ⟨m, hm⟩ : ∃ m : Nat, signif q = m := ⟨(signif q).toNat, by omega⟩
  rw [hm] at h1 h2 hb
  unfold Dbl.toRat rne
  rw [hm]
  simp only [Int.toNat_natCast] at *
  have hN : (UInt64.ofNat ((binExp q + 1022) * 4503599627370496 + m)).toNat =
      (binExp q + 1022) * 4503599627370496 + m := by
    rw [UInt64.toNat_ofNat']
    omega
  rw [hN]
  by_cases hc : m = 9007199254740992
  · subst hc
    have e1 : ((binExp q + 1022) * 4503599627370496 + 9007199254740992) % 4503599627370496 = 0 := by omega
    have e2 : ((binExp q + 1022) * 4503599627370496 + 9007199254740992) / 4503599627370496 % 2048 = binExp q + 1024 := by
      omega
    rw [e1, e2]
    have e3 : (((binExp q + 1024 : Nat) : Int) - 1075) = ((binExp q : Int) - 52) + 1 := by push_cast; ring
    rw [e3, zpow_add₀ (by norm_num)]
    push_cast
    ring
  · have e1 : ((binExp q + 1022) * 4503599627370496 + m) % 4503599627370496 = m - 4503599627370496 := by omega
    have e2 : ((binExp q + 1022) * 4503599627370496 + m) / 4503599627370496 % 2048 = binExp q + 1023 := by
      omega
    rw [e1, e2]
    have e3 : (((binExp q + 1023 : Nat) : Int) - 1075) = ((binExp q : Int) - 52) := by push_cast; ring
    have e4 : 4503599627370496 + (m - 4503599627370496) = m := by omega
    rw [e3, e4]
    push_cast
    rfl

theorem acr_toRat : Dbl.acr.toRat = 8406091369059075 * (2 : ℚ) ^ (947 : Int) := by
  have e1 : Dbl.acr.toNat = 9110180938284831491 := by decide
  unfold Dbl.toRat
  rw [e1]
  norm_num

end Gdx

namespace Gdx

theorem acr_pos : (0 : ℚ) < Dbl.acr.toRat := by rw [acr_toRat]; positivity

theorem one_le_acr_mul (i : Int) (h : 1 ≤ i) : 1 ≤ Dbl.acr.toRat * i := by
  have hi : (1 : ℚ) ≤ i := by exact_mod_cast h
  have h1 : (1 : ℚ) ≤ Dbl.acr.toRat := by
    rw [acr_toRat]
    have : (1 : ℚ) ≤ (2 : ℚ) ^ (947 : Int) := one_le_zpow₀ (by norm_num) (by norm_num)
    generalize (2 : ℚ) ^ (947 : Int) = y at *
    linarith
  nlinarith

theorem acr_fits (i : Int) (h : 1 ≤ i) (h2 : i ≤ 17976931) :
    (binExp (Dbl.acr.toRat * i) + 1022) * 4503599627370496 + (signif (Dbl.acr.toRat * i)).toNat
      < 9218868437227405312 := by
  have hq := one_le_acr_mul i h
  generalize hqd : Dbl.acr.toRat * i = q at hq
  have hle : q ≤ 9007199254740991 * (2 : ℚ) ^ (971 : Int) := by
    have hi : (i : ℚ) ≤ 17976931 := by exact_mod_cast h2
    have h0 := acr_pos
    have : q ≤ Dbl.acr.toRat * 17976931 := by rw [← hqd]; exact mul_le_mul_of_nonneg_left hi h0.le
    refine this.trans ?_
    rw [acr_toRat]
    have e : (2 : ℚ) ^ (971 : Int) = (2 : ℚ) ^ (947 : Int) * 16777216 := by
      rw [show (971 : Int) = 947 + 24 by norm_num, zpow_add₀ (by norm_num)]; norm_num
    have hp : (0 : ℚ) < (2 : ℚ) ^ (947 : Int) := by positivity
    rw [e]
    clear e hqd this
    generalize (2 : ℚ) ^ (947 : Int) = y at *
    nlinarith
  have hb : binExp q ≤ 1023 := by
    by_contra hc
    have h1 := binExp_le q hq
    have h3 : (2 : ℚ) ^ (1024 : Int) ≤ (2 : ℚ) ^ (binExp q : Int) :=
      zpow_le_zpow_right₀ (by norm_num) (by omega)
    have h4 : 9007199254740991 * (2 : ℚ) ^ (971 : Int) < (2 : ℚ) ^ (1024 : Int) := by
      have e : (2 : ℚ) ^ (1024 : Int) = (2 : ℚ) ^ (971 : Int) * 9007199254740992 := by
        rw [show (1024 : Int) = 971 + 53 by norm_num, zpow_add₀ (by norm_num)]; norm_num
      have hp : (0 : ℚ) < (2 : ℚ) ^ (971 : Int) := by positivity
      rw [e]
      clear e h1 h3 hqd
      generalize (2 : ℚ) ^ (971 : Int) = y at *
      nlinarith
    exact absurd (h3.trans (h1.trans hle)) (not_le.mpr h4)
  obtain ⟨h3, h4⟩ := signif_bounds q hq
  rcases Nat.lt_or_ge (binExp q) 1023 with hc | hc
  · omega
  · have hc : binExp q = 1023 := by omega
    have : signif q ≤ 9007199254740991 := by
      unfold signif
      apply roundEven_le_int
      rw [hc, div_le_iff₀ (by positivity)]
      norm_num at hle ⊢
      exact hle
    omega

/-- the acronym value of an index in range, as a number -/
theorem acrValue_toRat (i : Int) (h : 1 ≤ i) (h2 : i ≤ 17976931) :
    (acrValue i).toRat = rne (Dbl.acr.toRat * i) := by
  unfold acrValue
  rw [if_neg (by omega)]
  exact toRat_toDbl _ (one_le_acr_mul i h) (acr_fits i h h2)

theorem acrValue_bits (i : Int) (h : 1 ≤ i) (h2 : i ≤ 17976931) :
    (acrValue i).toNat = (binExp (Dbl.acr.toRat * i) + 1022) * 4503599627370496 + (signif (Dbl.acr.toRat * i)).toNat := by
  have hf := acr_fits i h h2
  unfold acrValue toDbl
  rw [if_neg (by omega)]
  simp only
  rw [if_pos hf, UInt64.toNat_ofNat']
  omega

theorem geAcr_iff (x : Dbl) : geAcr x = true ↔ 9110180938284831491 ≤ x.toNat ∧ x.toNat ≤ 9218868437227405312 := by
  unfold geAcr
  rw [Bool.and_eq_true, decide_eq_true_iff, decide_eq_true_iff, UInt64.le_iff_toNat_le, UInt64.le_iff_toNat_le]
  rfl

theorem binExp_mono {p q : ℚ} (h : p ≤ q) : binExp p ≤ binExp q :=
  Nat.log_mono_right (Nat.floor_le_floor h)

theorem roundEven_mono {r s : ℚ} (h : r ≤ s) : roundEven r ≤ roundEven s := by
  rcases lt_or_ge ⌊r⌋ ⌊s⌋ with hlt | hge
  · have h1 : roundEven r ≤ ⌊r⌋ + 1 := by
      unfold roundEven
      split
      · omega
      · split
        · omega
        · split <;> omega
    have h2 : ⌊s⌋ ≤ roundEven s := roundEven_mono_int s _ (Int.floor_le s)
    omega
  · have he : ⌊r⌋ = ⌊s⌋ := le_antisymm (Int.floor_le_floor h) hge
    unfold roundEven
    rw [he]
    split
    · split
      · omega
      · split
        · omega
        · split <;> omega
    · rename_i h1
      have h3 : ¬ (s - ⌊s⌋ < 1 / 2) := by intro h4; apply h1; linarith
      rw [if_neg h3]
      split
      · rename_i h5
        rw [if_pos (by linarith)]
      · split
        · split
          · omega
          · omega
        · split <;> omega

theorem bits_mono {p q : ℚ} (hp : 1 ≤ p) (h : p ≤ q) :
    (binExp p + 1022) * 4503599627370496 + (signif p).toNat ≤ (binExp q + 1022) * 4503599627370496 + (signif q).toNat := by
  obtain ⟨a1, a2⟩ := signif_bounds p hp
  obtain ⟨b1, b2⟩ := signif_bounds q (hp.trans h)
  have hm := binExp_mono h
  rcases Nat.lt_or_ge (binExp p) (binExp q) with hc | hc
  · omega
  · have he : binExp p = binExp q := by omega
    have : signif p ≤ signif q := by
      unfold signif
      rw [he]
      apply roundEven_mono
      exact div_le_div_of_nonneg_right h (by positivity)
    omega

theorem rne_mono {p q : ℚ} (hp : 1 ≤ p) (h : p ≤ q) : rne p ≤ rne q := by
  obtain ⟨a1, a2⟩ := signif_bounds p hp
  obtain ⟨b1, b2⟩ := signif_bounds q (hp.trans h)
  have hm := binExp_mono h
  unfold rne
  rcases Nat.lt_or_ge (binExp p) (binExp q) with hc | hc
  · have e1 : (2 : ℚ) ^ ((binExp p : Int) - 52 + 1) ≤ (2 : ℚ) ^ ((binExp q : Int) - 52) :=
      zpow_le_zpow_right₀ (by norm_num) (by omega)
    rw [zpow_add₀ (by norm_num)] at e1
    have hpos : (0 : ℚ) < (2 : ℚ) ^ ((binExp p : Int) - 52) := by positivity
    have hpos2 : (0 : ℚ) < (2 : ℚ) ^ ((binExp q : Int) - 52) := by positivity
    have c1 : (signif p : ℚ) ≤ 9007199254740992 := by exact_mod_cast a2
    have c2 : (4503599627370496 : ℚ) ≤ signif q := by exact_mod_cast b1
    have d1 := mul_le_mul_of_nonneg_right c1 hpos.le
    have d2 := mul_le_mul_of_nonneg_right c2 hpos2.le
    norm_num at e1
    linarith
  · have he : binExp p = binExp q := by omega
    rw [he]
    apply mul_le_mul_of_nonneg_right _ (by positivity)
    have : signif p ≤ signif q := by
      unfold signif
      rw [he]
      apply roundEven_mono
      exact div_le_div_of_nonneg_right h (by positivity)
    exact_mod_cast this

theorem one_le_acr : (1 : ℚ) ≤ Dbl.acr.toRat := by simpa using one_le_acr_mul 1 (le_refl _)

theorem acr_binExp : binExp Dbl.acr.toRat = 999 := by
  have l1 := binExp_le _ one_le_acr
  have l2 := lt_binExp Dbl.acr.toRat
  have e1 : (2 : ℚ) ^ (999 : Int) ≤ Dbl.acr.toRat := by
    rw [acr_toRat, show (999 : Int) = 947 + 52 by norm_num, zpow_add₀ (by norm_num)]
    have hp : (0 : ℚ) < (2 : ℚ) ^ (947 : Int) := by positivity
    clear l1 l2
    generalize (2 : ℚ) ^ (947 : Int) = y at *
    norm_num
    nlinarith
  have e2 : Dbl.acr.toRat < (2 : ℚ) ^ (1000 : Int) := by
    rw [acr_toRat, show (1000 : Int) = 947 + 53 by norm_num, zpow_add₀ (by norm_num)]
    have hp : (0 : ℚ) < (2 : ℚ) ^ (947 : Int) := by positivity
    clear l1 l2 e1
    generalize (2 : ℚ) ^ (947 : Int) = y at *
    norm_num
    nlinarith
  have f1 := (zpow_lt_zpow_iff_right₀ (by norm_num : (1 : ℚ) < 2)).mp (lt_of_le_of_lt e1 l2)
  have f2 := (zpow_lt_zpow_iff_right₀ (by norm_num : (1 : ℚ) < 2)).mp (lt_of_le_of_lt l1 e2)
  omega

theorem acr_signif : signif Dbl.acr.toRat = 8406091369059075 := by
  unfold signif
  rw [acr_binExp, acr_toRat]
  have : 8406091369059075 * (2 : ℚ) ^ (947 : Int) / (2 : ℚ) ^ (((999 : Nat) : Int) - 52) = ((8406091369059075 : Int) : ℚ) := by
    rw [show (((999 : Nat) : Int) - 52) = 947 by norm_num, mul_div_assoc, div_self (by positivity)]
    norm_num
  rw [this]
  unfold roundEven
  rw [Int.floor_intCast]
  simp

theorem acr_exact : rne Dbl.acr.toRat = Dbl.acr.toRat := by
  unfold rne
  rw [acr_signif, acr_binExp]
  conv_rhs => rw [acr_toRat]
  norm_num

theorem acrValue_ge (i : Int) (h : 1 ≤ i) (h2 : i ≤ 17976931) :
    9110180938284831491 ≤ (acrValue i).toNat ∧ (acrValue i).toNat < 9218868437227405312 := by
  rw [acrValue_bits i h h2]
  refine ⟨?_, acr_fits i h h2⟩
  have h1 := bits_mono (p := Dbl.acr.toRat) (q := Dbl.acr.toRat * i) one_le_acr
    (by
      have hi : (1 : ℚ) ≤ i := by exact_mod_cast h
      have := acr_pos
      nlinarith)
  refine le_trans ?_ h1
  rw [acr_binExp, acr_signif]
  decide

/-- rounding error analysis of gdxAcronymIndex(gdxAcronymValue(i)) -/
theorem index_of_value (i : Int) (h : 1 ≤ i) (h2 : i ≤ 17976931) :
    roundPos (rne ((acrValue i).toRat / Dbl.acr.toRat)) = i := by
  rw [acrValue_toRat i h h2]
  have hA := acr_pos
  have hi1 : (1 : ℚ) ≤ i := by exact_mod_cast h
  have hi2 : (i : ℚ) ≤ 17976931 := by exact_mod_cast h2
  have e1 := rne_err _ (one_le_acr_mul i h)
  have m := rne_mono (p := Dbl.acr.toRat) (q := Dbl.acr.toRat * i) one_le_acr (by nlinarith)
  rw [acr_exact] at m
  generalize rne (Dbl.acr.toRat * i) = x at e1 m
  have q0 : |x / Dbl.acr.toRat - i| ≤ i / 9007199254740992 := by
    have : x / Dbl.acr.toRat - i = (x - Dbl.acr.toRat * i) / Dbl.acr.toRat := by field_simp
    rw [this, abs_div, abs_of_pos hA, div_le_iff₀ hA]
    calc _ ≤ _ := e1
      _ = _ := by ring
  have q1 : 1 ≤ x / Dbl.acr.toRat := by
    rw [le_div_iff₀ hA, one_mul]
    exact m
  generalize x / Dbl.acr.toRat = y at q0 q1
  have e2 := rne_err y q1
  generalize rne y = z at e2
  rw [abs_le] at q0 e2
  have hz : 1 ≤ z + 1 / 2 := by linarith
  have e3 := rne_err (z + 1 / 2) hz
  unfold roundPos
  rw [abs_le] at e3
  rw [Int.floor_eq_iff]
  constructor <;> linarith

theorem acr_bits_inf (q : ℚ) (h : Dbl.acr.toRat * 17976932 ≤ q) : toDbl q = Dbl.posInf := by
  have h1 : 1 ≤ Dbl.acr.toRat * 17976932 := by
    have := one_le_acr
    linarith
  have hq := h1.trans h
  unfold toDbl
  simp only
  rw [if_neg]
  have hp : (0 : ℚ) < (2 : ℚ) ^ (947 : Int) := by positivity
  have big : (9007199254740991 + 1 / 2) * (2 : ℚ) ^ (971 : Int) < q := by
    refine lt_of_lt_of_le ?_ h
    rw [acr_toRat, show (971 : Int) = 947 + 24 by norm_num, zpow_add₀ (by norm_num)]
    clear h h1 hq
    generalize (2 : ℚ) ^ (947 : Int) = y at *
    norm_num
    nlinarith
  obtain ⟨s1, s2⟩ := signif_bounds q hq
  have l1 := lt_binExp q
  have hb : 1023 ≤ binExp q := by
    have : (2 : ℚ) ^ (1023 : Int) < (2 : ℚ) ^ ((binExp q : Int) + 1) := by
      refine lt_trans (lt_of_le_of_lt ?_ big) l1
      rw [show (1023 : Int) = 971 + 52 by norm_num, zpow_add₀ (by norm_num)]
      have hp : (0 : ℚ) < (2 : ℚ) ^ (971 : Int) := by positivity
      clear big l1 h h1
      generalize (2 : ℚ) ^ (971 : Int) = y at *
      norm_num
      nlinarith
    have := (zpow_lt_zpow_iff_right₀ (by norm_num : (1 : ℚ) < 2)).mp this
    omega
  rcases Nat.lt_or_ge 1023 (binExp q) with hc | hc
  · omega
  · have hc : binExp q = 1023 := by omega
    have : 9007199254740992 ≤ signif q := by
      have e := roundEven_err (q / (2 : ℚ) ^ ((binExp q : Int) - 52))
      rw [abs_le] at e
      have g : (9007199254740991 + 1 / 2) < q / (2 : ℚ) ^ ((binExp q : Int) - 52) := by
        rw [hc, lt_div_iff₀ (by positivity)]
        exact big
      have g2 : (9007199254740991 : ℚ) < (signif q : ℚ) := by
        unfold signif
        linarith [e.1]
      have : (9007199254740991 : Int) < signif q := by exact_mod_cast g2
      omega
    omega

/-- for non-negative normal doubles the order of the bit patterns is the order of the numbers -/
theorem toRat_lt_of_bits {x y : Dbl} (hx : x.toNat < 9218868437227405312) (hy : y.toNat < 9218868437227405312)
    (h : x.toNat < y.toNat) : x.toRat < y.toRat := by
  unfold Dbl.toRat
  generalize x.toNat = a at *
  generalize y.toNat = b at *
  have e1 : a / 4503599627370496 % 2048 = a / 4503599627370496 := by omega
  have e2 : b / 4503599627370496 % 2048 = b / 4503599627370496 := by omega
  rw [e1, e2]
  rcases Nat.lt_or_ge (a / 4503599627370496) (b / 4503599627370496) with hc | hc
  · have hz : (2 : ℚ) ^ (((a / 4503599627370496 : Nat) : Int) - 1075 + 1) ≤ (2 : ℚ) ^ (((b / 4503599627370496 : Nat) : Int) - 1075) :=
      zpow_le_zpow_right₀ (by norm_num) (by omega)
    rw [zpow_add₀ (by norm_num)] at hz
    have hpa : (0 : ℚ) < (2 : ℚ) ^ (((a / 4503599627370496 : Nat) : Int) - 1075) := by positivity
    have c1 : ((4503599627370496 + a % 4503599627370496 : Nat) : ℚ) < 9007199254740992 := by
      have : 4503599627370496 + a % 4503599627370496 < 9007199254740992 := by omega
      exact_mod_cast this
    have c2 : (4503599627370496 : ℚ) ≤ ((4503599627370496 + b % 4503599627370496 : Nat) : ℚ) := by
      exact_mod_cast Nat.le_add_right _ _
    have hpb : (0 : ℚ) < (2 : ℚ) ^ (((b / 4503599627370496 : Nat) : Int) - 1075) := by positivity
    have d1 := mul_lt_mul_of_pos_right c1 hpa
    have d2 := mul_le_mul_of_nonneg_right c2 hpb.le
    rw [zpow_one] at hz
    generalize (2 : ℚ) ^ (((a / 4503599627370496 : Nat) : Int) - 1075) = u at *
    generalize (2 : ℚ) ^ (((b / 4503599627370496 : Nat) : Int) - 1075) = v at *
    clear hc
    calc _ < _ := d1
      _ = 4503599627370496 * (u * 2) := by ring
      _ ≤ 4503599627370496 * v := by linarith
      _ ≤ _ := d2
  · have he : a / 4503599627370496 = b / 4503599627370496 := by
      have := Nat.div_le_div_right (c := 4503599627370496) h.le
      omega
    rw [he]
    apply mul_lt_mul_of_pos_right _ (by positivity)
    have : 4503599627370496 + a % 4503599627370496 < 4503599627370496 + b % 4503599627370496 := by omega
    exact_mod_cast this

end Gdx
