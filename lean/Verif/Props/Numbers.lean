import Verif.Proofs.DblStr
import Verif.Proofs.Float
import Mathlib.Tactic.NormNum
import Mathlib.Algebra.Order.Floor.Ring

/-!
C66: what gdxdump prints for a number is the number.
-/

namespace Gdx.Props

open Gdx.DblStr

/-- The digits are a decimal number of at most 15 digits that is nearest to `q`: what dtoaLoc( x, 2, 15, … ) is for. -/
structure Nearest15 (d : Digits) (q : ℚ) : Prop where
  ok : d.Ok
  lead : d.dig.head? ≠ some 48
  neg : d.neg = decide (q < 0)
  best : ∀ (n : Nat) (k : Int), n < 10 ^ 15 → abs (d.abs - |q|) ≤ abs (n * (10 : ℚ) ^ k - |q|)

theorem natVal_lt {l : Str} (h : l.all isDig = true) : natVal l < 10 ^ l.length := by
  induction l using List.reverseRecOn with
  | nil => decide
  | append_singleton l c ih =>
    rw [List.all_append, Bool.and_eq_true] at h
    have h1 := ih h.1
    have h2 : isDig c = true := by simpa using h.2
    have h3 := isDig_iff.mp h2
    rw [natVal_append, List.length_append, List.length_singleton, pow_succ]
    have : natVal [c] = c.toNat - 48 := by simp [natVal]
    omega

theorem natVal_ge {c : UInt8} {l : Str} (h : (c :: l).all isDig = true) (hc : c ≠ 48) : 10 ^ l.length ≤ natVal (c :: l) := by
  rw [List.all_cons, Bool.and_eq_true] at h
  have h3 := isDig_iff.mp h.1
  rw [show c :: l = [c] ++ l from rfl, natVal_append]
  have h4 : natVal [c] = c.toNat - 48 := by simp [natVal]
  have h5 : c.toNat ≠ 48 := fun hh => hc (UInt8.toNat_inj.mp hh)
  have : 1 * 10 ^ l.length ≤ natVal [c] * 10 ^ l.length := Nat.mul_le_mul_right _ (by omega)
  omega

/-- between 10^e and 10^(e+1), and a multiple of 10^(e-14) -/
theorem Nearest15.bounds {d : Digits} {q : ℚ} (h : Nearest15 d q) : ∃ N : Nat, 10 ^ 14 ≤ N ∧ N < 10 ^ 15 ∧ d.abs = N * (10 : ℚ) ^ (d.decPos - 15) := by
  obtain ⟨⟨h1, h2, h3, h4, h5⟩, h6, _, _⟩ := h
  refine ⟨natVal d.dig * 10 ^ (15 - d.dig.length), ?_, ?_, ?_⟩
  · cases hd : d.dig with
    | nil => exact absurd hd h1
    | cons c l =>
      rw [hd] at h2 h3 h6
      have := natVal_ge h3 (by simpa using h6)
      rw [List.length_cons] at h2 ⊢
      calc 10 ^ 14 = 10 ^ l.length * 10 ^ (15 - (l.length + 1)) := by rw [← pow_add]; congr 1; omega
        _ ≤ _ := Nat.mul_le_mul_right _ this
  · calc natVal d.dig * 10 ^ (15 - d.dig.length) < 10 ^ d.dig.length * 10 ^ (15 - d.dig.length) := Nat.mul_lt_mul_of_pos_right (natVal_lt h3) (by positivity)
      _ = 10 ^ 15 := by rw [← pow_add]; congr 1; omega
  · unfold Digits.abs
    push_cast
    rw [mul_assoc, ← zpow_natCast, ← zpow_add₀ (by norm_num)]
    congr 2
    omega

theorem ten_pos (k : Int) : (0 : ℚ) < (10 : ℚ) ^ k := by positivity

theorem Nearest15.ge {d : Digits} {q : ℚ} (h : Nearest15 d q) : (10 : ℚ) ^ (d.decPos - 1) ≤ d.abs := by
  obtain ⟨N, h1, h2, h3⟩ := h.bounds
  rw [h3, show d.decPos - 1 = 14 + (d.decPos - 15) by omega, zpow_add₀ (by norm_num)]
  apply mul_le_mul_of_nonneg_right _ (ten_pos _).le
  exact_mod_cast h1

theorem Nearest15.lt {d : Digits} {q : ℚ} (h : Nearest15 d q) : d.abs < (10 : ℚ) ^ d.decPos := by
  obtain ⟨N, h1, h2, h3⟩ := h.bounds
  rw [h3, show d.decPos = 15 + (d.decPos - 15) by omega, zpow_add₀ (by norm_num), show 15 + (d.decPos - 15) - 15 = d.decPos - 15 by omega]
  apply mul_lt_mul_of_pos_right _ (ten_pos _)
  exact_mod_cast h2

/-- at most half a unit of the fifteenth digit away -/
theorem Nearest15.close {d : Digits} {q : ℚ} (h : Nearest15 d q) : abs (d.abs - |q|) ≤ (10 : ℚ) ^ (d.decPos - 15) / 2 := by
  obtain ⟨N, h1, h2, h3⟩ := h.bounds
  by_contra hc
  have hu := ten_pos (d.decPos - 15)
  generalize hue : (10 : ℚ) ^ (d.decPos - 15) = u at *
  rw [not_le, lt_abs] at hc
  rcases hc with hc | hc
  · have := h.best (N - 1) (d.decPos - 15) (by omega)
    rw [hue, Nat.cast_sub (by omega), Nat.cast_one, sub_mul, one_mul, ← h3] at this
    rw [abs_of_pos (show 0 < d.abs - |q| by linarith), le_abs] at this
    rcases this with this | this <;> linarith
  · have key : abs (d.abs - |q|) ≤ abs (d.abs + u - |q|) := by
      by_cases hN : N + 1 < 10 ^ 15
      · have := h.best (N + 1) (d.decPos - 15) hN
        rw [hue, Nat.cast_add, Nat.cast_one, add_mul, one_mul, ← h3] at this
        exact this
      · have := h.best (10 ^ 14) (d.decPos - 15 + 1) (by norm_num)
        rw [zpow_add₀ (by norm_num), hue] at this
        have hNe : N = 10 ^ 15 - 1 := by omega
        have : d.abs + u = ((10 ^ 14 : Nat) : ℚ) * (u * 10 ^ (1 : Int)) := by
          rw [h3, hNe]
          push_cast [Nat.cast_sub]
          norm_num
          ring
        rw [this]
        assumption
    rw [abs_of_neg (show d.abs - |q| < 0 by linarith), le_abs] at key
    rcases key with key | key <;> linarith

theorem fv_normal {v : Dbl} {e f : Nat} (h1 : v.expo = e + 1) (h2 : e + 1 ≠ 2047) (h3 : v.frac = f) (h4 : v.isNeg = false) :
    v.fv = .fin (((4503599627370496 + f : Nat) : ℚ) * (2 : ℚ) ^ ((e : Int) - 1074)) := by
  unfold Dbl.fv
  rw [if_neg (by omega)]
  congr 1
  unfold Dbl.units
  simp only [h4, Bool.false_eq_true, if_false]
  rw [if_neg (by omega), h1, h3, Nat.add_sub_cancel, sub_eq_add_neg, zpow_add₀ (by norm_num), zpow_natCast]
  push_cast
  ring

theorem lowest_fv : ∃ L : ℚ, lowest.fv = .fin L ∧ 1 / 10 ^ 4 ≤ L ∧ L < 1 / 2 :=
  ⟨_, fv_normal (e := 1008) (f := 2875098002113325) (by decide) (by decide) (by decide) (by decide), by norm_num, by norm_num⟩

theorem highest_fv : highest.fv = .fin (10 ^ 15) := by
  rw [fv_normal (e := 1071) (f := 3496400372629504) (by decide) (by decide) (by decide) (by decide)]
  norm_num

theorem plain_iff {v : Dbl} {q : ℚ} (hv : v.fv = .fin q) : ∃ L : ℚ, 1 / 10 ^ 4 ≤ L ∧ L < 1 / 2 ∧ (plain v = true ↔ L ≤ |q| ∧ |q| < 10 ^ 15) := by
  obtain ⟨L, h1, h2, h3⟩ := lowest_fv
  refine ⟨L, h2, h3, ?_⟩
  unfold plain
  rw [h1, highest_fv, hv]
  simp [FV.le, FV.lt, FV.abs]

theorem expo_of_fin {v : Dbl} {q : ℚ} (hv : v.fv = .fin q) : v.expo ≠ 2047 := by
  intro h
  unfold Dbl.fv at hv
  rw [if_pos h] at hv
  split at hv <;> cases hv

theorem exp_lt {a b : Int} (h : (10 : ℚ) ^ a < (10 : ℚ) ^ b) : a < b := (zpow_lt_zpow_iff_right₀ (by norm_num)).mp h

theorem plain_range {d : Digits} {q : ℚ} (hd : Nearest15 d q) (g1 : 1 / 10 ^ 4 ≤ |q|) (g2 : |q| < 10 ^ 15) : -4 ≤ d.decPos - 1 ∧ d.decPos - 1 ≤ 15 := by
  have hge := hd.ge
  have hlt := hd.lt
  have hlo : -4 ≤ d.decPos - 1 := by
    by_contra hc
    have h1 : d.abs < (10 : ℚ) ^ (-4 : Int) := lt_of_lt_of_le hlt ((zpow_le_zpow_iff_right₀ (by norm_num)).mpr (by omega))
    have := hd.best 1 (-4) (by norm_num)
    rw [Nat.cast_one, one_mul] at this
    have e4 : (10 : ℚ) ^ (-4 : Int) = 1 / 10 ^ 4 := by norm_num
    rw [e4] at h1 this
    rw [abs_of_nonpos (show d.abs - |q| ≤ 0 by linarith), abs_of_nonpos (show 1 / 10 ^ 4 - |q| ≤ 0 by linarith)] at this
    linarith
  have hhi : d.decPos - 1 ≤ 15 := by
    by_contra hc
    have h1 : (10 : ℚ) ^ (16 : Int) ≤ d.abs := le_trans ((zpow_le_zpow_iff_right₀ (by norm_num)).mpr (by omega)) hge
    have := hd.best 1 15 (by norm_num)
    rw [Nat.cast_one, one_mul] at this
    have e4 : (10 : ℚ) ^ (15 : Int) = 10 ^ 15 := by norm_num
    have e5 : (10 : ℚ) ^ (16 : Int) = 10 * 10 ^ 15 := by norm_num
    rw [e5] at h1
    rw [e4] at this
    rw [abs_of_nonneg (show 0 ≤ d.abs - |q| by linarith), abs_of_nonneg (show 0 ≤ 10 ^ 15 - |q| by linarith)] at this
    linarith
  exact ⟨hlo, hhi⟩

theorem exp_range {dtoa : Dbl → Digits} {v : Dbl} {q : ℚ} (hv : v.fv = .fin q) (h0 : q ≠ 0) (hd : Nearest15 (dtoa v) q) (hpl : plain v = false) : (dtoa v).decPos ≠ 1 := by
  obtain ⟨L, hL1, hL2, hp⟩ := plain_iff hv
  have hge := hd.ge
  have hlt := hd.lt
  intro hc
  rw [hc] at hge hlt
  simp only [sub_self, zpow_zero, zpow_one] at hge hlt
  have hnp : ¬ (L ≤ |q| ∧ |q| < 10 ^ 15) := fun hh => by rw [hp.mpr hh] at hpl; cases hpl
  by_cases h1 : L ≤ |q|
  · have h2 : 10 ^ 15 ≤ |q| := not_lt.mp fun hh => hnp ⟨h1, hh⟩
    have := hd.best 1 1 (by norm_num)
    rw [Nat.cast_one, one_mul, zpow_one, abs_of_nonpos (show (dtoa v).abs - |q| ≤ 0 by linarith), abs_of_nonpos (show 10 - |q| ≤ 0 by linarith)] at this
    linarith
  · have := hd.best 1 (-1) (by norm_num)
    rw [Nat.cast_one, one_mul, abs_of_nonneg (show 0 ≤ (dtoa v).abs - |q| by linarith), zpow_neg_one, le_abs] at this
    rcases this with this | this <;> linarith

/-- C66, decimal format: the text is a decimal number with at most 15 digits that is nearest to the value. -/
theorem C66_decimal {dtoa : Dbl → Digits} {v : Dbl} {q : ℚ} (hv : v.fv = .fin q) (h0 : q ≠ 0) (hd : Nearest15 (dtoa v) q) :
    ∃ t p, dblToStrSep dtoa v 46 = .ok t ∧ decVal 46 t = some p ∧ p = (dtoa v).value ∧ |p - q| ≤ 5 / 10 ^ 15 * |p| ∧
      ∀ c ∈ t, isDig c = true ∨ c = 46 ∨ c = 45 ∨ c = 69 := by
  have hf := expo_of_fin hv
  have hn : v.fv ≠ .fin 0 := by rw [hv]; intro hh; cases hh; exact h0 rfl
  obtain ⟨L, hL1, hL2, hp⟩ := plain_iff hv
  have hq : 0 < |q| := abs_pos.mpr h0
  have hge := hd.ge
  have hlt := hd.lt
  have hpos : 0 < (dtoa v).abs := lt_of_lt_of_le (ten_pos _) hge
  have hsign : (dtoa v).value - q = if q < 0 then -((dtoa v).abs - |q|) else (dtoa v).abs - |q| := by
    unfold Digits.value
    rw [hd.neg]
    by_cases hc : q < 0
    · rw [if_pos (by simpa using hc), if_pos hc, abs_of_neg hc]; ring
    · rw [if_neg (by simpa using hc), if_neg hc, abs_of_nonneg (not_lt.mp hc)]
  have habs : |(dtoa v).value| = (dtoa v).abs := by
    unfold Digits.value
    split
    · rw [abs_neg, abs_of_pos hpos]
    · exact abs_of_pos hpos
  have hclose : |(dtoa v).value - q| ≤ 5 / 10 ^ 15 * |(dtoa v).value| := by
    have h1 := hd.close
    have h2 : |(dtoa v).value - q| = abs ((dtoa v).abs - |q|) := by
      rw [hsign]
      split
      · exact abs_neg _
      · rfl
    rw [h2, habs]
    refine le_trans h1 ?_
    have : (10 : ℚ) ^ ((dtoa v).decPos - 15) = (10 : ℚ) ^ ((dtoa v).decPos - 1) / 10 ^ 14 := by
      rw [show (dtoa v).decPos - 15 = (dtoa v).decPos - 1 + (-14) by omega, zpow_add₀ (by norm_num)]
      norm_num
      ring
    rw [this]
    linarith
  cases hpl : plain v with
  | true =>
    obtain ⟨g1, g2⟩ := hp.mp hpl
    obtain ⟨hlo, hhi⟩ := plain_range hd (by linarith) g2
    obtain ⟨t, t1, t2, t3⟩ := text_plain (sep := 46) hd.ok hf hn hpl hlo hhi (Or.inl rfl)
    exact ⟨t, _, t1, t2, rfl, hclose, fun c hc => (t3 c hc).imp id (Or.imp id Or.inl)⟩
  | false =>
    obtain ⟨t, t1, t2, t3⟩ := text_exp 46 hd.ok hf hn hpl (exp_range hv h0 hd hpl)
    exact ⟨t, _, t1, t2, rfl, hclose, t3⟩

/-- zero -/
theorem C66_zero {dtoa : Dbl → Digits} {v : Dbl} (sep : UInt8) (hv : v.fv = .fin 0) : dblToStrSep dtoa v sep = .ok [48] ∧ decVal sep [48] = some 0 ∨ sep = 48 := by
  by_cases hs : sep = 48
  · exact Or.inr hs
  · left
    refine ⟨if_pos hv, ?_⟩
    simp [decVal, unsigned, mant, uint, natVal, isDig, Ne.symm hs]

/-- C66: a decimal number with at most 15 digits survives: the text of a double within the rounding error of it is this number. -/
theorem C66_fifteen {dtoa : Dbl → Digits} {v : Dbl} {q : ℚ} (hv : v.fv = .fin q) (hd : Nearest15 (dtoa v) q) {n : Nat} {k : Int} {neg : Bool} (hn : 0 < n) (hn2 : n < 10 ^ 15)
    (hx : |q - (if neg then -1 else 1) * (n * (10 : ℚ) ^ k)| ≤ 1 / 2 ^ 53 * (n * (10 : ℚ) ^ k)) :
    ∃ t, dblToStrSep dtoa v 46 = .ok t ∧ decVal 46 t = some ((if neg then -1 else 1) * (n * (10 : ℚ) ^ k)) := by
  have hX : 0 < (n : ℚ) * (10 : ℚ) ^ k := mul_pos (by exact_mod_cast hn) (ten_pos k)
  have hbest := hd.best n k hn2
  obtain ⟨N, h1, h2, h3⟩ := hd.bounds
  have hval : (dtoa v).value = (if q < 0 then -1 else 1) * (dtoa v).abs := by
    unfold Digits.value
    rw [hd.neg]
    by_cases hc : q < 0 <;> simp [hc]
  have hsg : q ≠ 0 ∧ (q < 0 ↔ neg = true) ∧ |(|q| - (n : ℚ) * (10 : ℚ) ^ k)| ≤ 1 / 2 ^ 53 * (n * (10 : ℚ) ^ k) := by
    generalize (n : ℚ) * (10 : ℚ) ^ k = X at *
    rw [abs_le] at hx
    cases neg with
    | true =>
      simp only [if_true] at hx
      have hq : q < 0 := by linarith [hx.1, hx.2]
      refine ⟨hq.ne, by simp [hq], ?_⟩
      rw [abs_of_neg hq, abs_le]
      constructor <;> linarith [hx.1, hx.2]
    | false =>
      simp only [Bool.false_eq_true, if_false, one_mul] at hx
      have hq : 0 < q := by linarith [hx.1, hx.2]
      refine ⟨hq.ne', by simp [hq.le], ?_⟩
      rw [abs_of_pos hq, abs_le]
      exact hx
  obtain ⟨g1, g2, g3⟩ := hsg
  have key : (dtoa v).abs = n * (10 : ℚ) ^ k := by
    by_contra hne
    -- both are multiples of a power of ten
    have hdist : ∃ w : ℚ, 0 < w ∧ w ≤ |(dtoa v).abs - n * (10 : ℚ) ^ k| ∧ ((dtoa v).abs < 10 ^ 15 * w ∨ n * (10 : ℚ) ^ k < 10 ^ 15 * w) := by
      have hint : ∀ {a b : Int} {m l : Nat}, a ≤ b → (m : ℚ) * 10 ^ a ≠ l * (10 : ℚ) ^ b → (10 : ℚ) ^ a ≤ |(m : ℚ) * 10 ^ a - l * (10 : ℚ) ^ b| := by
        intro a b m l hab hml
        obtain ⟨j, hj⟩ : ∃ j : Nat, b = a + j := ⟨(b - a).toNat, by omega⟩
        have e1 : (m : ℚ) * 10 ^ a - l * (10 : ℚ) ^ b = ((m : Int) - (l * 10 ^ j : Int) : Int) * (10 : ℚ) ^ a := by
          rw [hj, zpow_add₀ (by norm_num), zpow_natCast]
          push_cast
          ring
        rw [e1, abs_mul, abs_of_pos (ten_pos a)]
        have hz : ((m : Int) - (l * 10 ^ j : Int)) ≠ 0 := by
          intro hz
          rw [hz] at e1
          simp only [Int.cast_zero, zero_mul] at e1
          exact hml (sub_eq_zero.mp e1)
        have : (1 : ℚ) ≤ |(((m : Int) - (l * 10 ^ j : Int) : Int) : ℚ)| := by exact_mod_cast Int.one_le_abs hz
        nlinarith [ten_pos a]
      rw [h3] at hne ⊢
      by_cases hab : (dtoa v).decPos - 15 ≤ k
      · refine ⟨_, ten_pos ((dtoa v).decPos - 15), hint hab hne, Or.inl ?_⟩
        apply mul_lt_mul_of_pos_right _ (ten_pos _)
        exact_mod_cast h2
      · refine ⟨_, ten_pos k, ?_, Or.inr ?_⟩
        · rw [abs_sub_comm]
          exact hint (by omega) (Ne.symm hne)
        · apply mul_lt_mul_of_pos_right _ (ten_pos _)
          exact_mod_cast hn2
    obtain ⟨w, w1, w2, w3⟩ := hdist
    generalize (n : ℚ) * (10 : ℚ) ^ k = X at *
    rw [abs_sub_comm X] at hbest
    have tri : |(dtoa v).abs - X| ≤ 2 / 2 ^ 53 * X := by
      have : |(dtoa v).abs - X| ≤ abs ((dtoa v).abs - |q|) + |(|q| - X)| := abs_sub_le _ _ _
      linarith
    have hD := (abs_le.mp tri).1
    have hww : w ≤ 2 / 2 ^ 53 * X := le_trans w2 tri
    rcases w3 with w3 | w3
    · norm_num at hD hww w3
      linarith
    · norm_num at hww w3
      linarith
  obtain ⟨t, p, t1, t2, t3, _, _⟩ := C66_decimal hv g1 hd
  refine ⟨t, t1, ?_⟩
  rw [t2, t3, hval, key]
  congr 2
  cases neg with
  | true => rw [if_pos (g2.mpr rfl), if_pos rfl]
  | false => rw [if_neg (fun hh => by cases g2.mp hh), if_neg (by simp)]

/-- the rounding error of the nearest double, above the subnormal numbers -/
theorem near_close {x : ℚ} (h0 : x ≠ 0) (h : -1022 ≤ Int.log 2 |x|) : |FV.near x - x| ≤ 1 / 2 ^ 53 * |x| := by
  unfold FV.near
  have hu : FV.ulpExp x = Int.log 2 |x| - 52 := by unfold FV.ulpExp; omega
  rw [hu]
  have hp : (0 : ℚ) < (2 : ℚ) ^ (Int.log 2 |x| - 52) := by positivity
  have hl : (2 : ℚ) ^ Int.log 2 |x| ≤ |x| := Int.zpow_log_le_self (by norm_num) (abs_pos.mpr h0)
  have he : (2 : ℚ) ^ (Int.log 2 |x| - 52) = (2 : ℚ) ^ Int.log 2 |x| / 2 ^ 52 := by
    rw [zpow_sub₀ (by norm_num)]
    norm_num
  generalize hg : (2 : ℚ) ^ (Int.log 2 |x| - 52) = u at *
  have hr := roundEven_err (x / u)
  have : (roundEven (x / u) : ℚ) * u - x = ((roundEven (x / u) : ℚ) - x / u) * u := by field_simp
  rw [this, abs_mul, abs_of_pos hp]
  calc |(roundEven (x / u) : ℚ) - x / u| * u ≤ 1 / 2 * u := mul_le_mul_of_nonneg_right hr hp.le
    _ ≤ 1 / 2 ^ 53 * |x| := by rw [he]; linarith

/-! ## the hexadecimal formats -/

/-- the value of a hexadecimal digit -/
def hexDig (c : UInt8) : Option Nat :=
  if 48 ≤ c.toNat ∧ c.toNat ≤ 57 then some (c.toNat - 48) else if 97 ≤ c.toNat ∧ c.toNat ≤ 102 then some (c.toNat - 87) else none

/-- the value of hexadecimal digits -/
def hexNat (s : Str) : Option Nat := if s = [] then none else s.foldlM (fun a c => (hexDig c).map fun d => 16 * a + d) 0

/-- `0x` and hexadecimal digits -/
def hexBits (s : Str) : Option Nat := match s with
  | 48 :: 120 :: t => hexNat t
  | _ => none

/-- `0x`, a digit, a point, digits, `p`, a decimal exponent of two -/
def hexpAbs (s : Str) : Option ℚ := match s with
  | 48 :: 120 :: i :: 46 :: r => match r.dropWhile (· ≠ 112) with
    | [] => none
    | _ :: x => do
      let a ← hexDig i
      let f ← hexNat (r.takeWhile (· ≠ 112))
      let e ← sint x
      pure ((a + f / 16 ^ (r.takeWhile (· ≠ 112)).length) * (2 : ℚ) ^ e)
  | _ => none

/-- perhaps with a minus sign -/
def hexpVal (s : Str) : Option ℚ := match s with
  | 45 :: t => (hexpAbs t).map fun q => -q
  | t => hexpAbs t

theorem hexDig_hexDigit : ∀ d < 16, hexDig (hexDigit d) = some d := by decide

theorem hexDigit_ne : ∀ d < 16, hexDigit d ≠ 112 := by decide

theorem hexNat_map {ds : List Nat} (h : ∀ d ∈ ds, d < 16) (h0 : ds ≠ []) : hexNat (ds.map hexDigit) = some (ds.foldl (fun a d => 16 * a + d) 0) := by
  unfold hexNat
  rw [if_neg (by simpa using h0)]
  generalize 0 = a
  clear h0
  induction ds generalizing a with
  | nil => rfl
  | cons d l ih =>
    rw [List.map_cons, List.foldlM_cons, hexDig_hexDigit d (h d (by simp)), List.foldl_cons]
    exact ih (fun x hx => h x (by simp [hx])) _

/-- the digits of `n` from the highest one down -/
def hexList (n : Nat) : Nat → List Nat
  | 0 => []
  | k + 1 => hexList (n / 16) k ++ [n % 16]

theorem hexList_ok (k : Nat) : ∀ n : Nat, (∀ d ∈ hexList n k, d < 16) ∧ (hexList n k).length = k ∧ (n < 16 ^ k → (hexList n k).foldl (fun a d => 16 * a + d) 0 = n) := by
  induction k with
  | zero => intro n; exact ⟨by simp [hexList], rfl, fun h => by simp at h; simp [hexList, h]⟩
  | succ k ih =>
    intro n
    obtain ⟨h1, h2, h3⟩ := ih (n / 16)
    refine ⟨?_, by rw [hexList, List.length_append, h2]; rfl, fun h => ?_⟩
    · intro d hd
      rcases List.mem_append.mp hd with hd | hd
      · exact h1 d hd
      · rw [List.mem_singleton.mp hd]; exact Nat.mod_lt _ (by norm_num)
    · rw [hexList, List.foldl_append, h3 (by rw [pow_succ] at h; omega)]
      simp only [List.foldl_cons, List.foldl_nil]
      omega

theorem hexBytes_eq (v : Dbl) : hexBytes v = 48 :: 120 :: (hexList v.toNat 16).map hexDigit := by
  unfold hexBytes
  simp only [List.range, List.range.loop, List.map_cons, List.map_nil, List.flatMap_cons, List.flatMap_nil, List.cons_append, List.nil_append, hexList]
  generalize v.toNat = n
  have hb : ∀ (n p : Nat), n / p % 256 / 16 = n / (p * 16) % 16 ∧ n / p % 256 % 16 = n / p % 16 := by
    intro n p
    rw [← Nat.div_div_eq_div_mul]
    generalize n / p = m
    omega
  simp only [(hb _ _).1, (hb _ _).2, Nat.div_div_eq_div_mul]
  norm_num

/-- C66, DFormat=hexBytes: the text is the bits of the double. -/
theorem C66_hexBytes (v : Dbl) : hexBits (hexBytes v) = some v.toNat ∧ (hexBytes v).length = 18 := by
  have hv : v.toNat < 16 ^ 16 := lt_of_lt_of_eq v.toNat_lt (by norm_num)
  obtain ⟨h1, h2, h3⟩ := hexList_ok 16 v.toNat
  rw [hexBytes_eq]
  refine ⟨?_, by simp [h2]⟩
  simp only [hexBits]
  rw [hexNat_map h1 (by intro h; rw [h] at h2; cases h2), h3 hv]

theorem mDigits_ok (j : Nat) : ∀ f m : Nat, j < f → m < 2 ^ (4 * j + 4) → ∃ ds : List Nat, (∀ d ∈ ds, d < 16) ∧ (ds = [] → m = 0) ∧ ds.length ≤ j + 1 ∧
    mDigits f m (4 * j) = ds.map hexDigit ∧ ∀ a : Nat, ds.foldl (fun a d => 16 * a + d) a * 2 ^ (4 * (j + 1 - ds.length)) = a * 2 ^ (4 * j + 4) + m := by
  induction j with
  | zero =>
    intro f m hf hm
    obtain ⟨f, rfl⟩ : ∃ n, f = n + 1 := ⟨f - 1, by omega⟩
    by_cases h0 : m = 0
    · exact ⟨[], by simp, by simp [h0], by simp, by simp [mDigits, h0], by simp [h0]⟩
    · refine ⟨[m], by simpa using hm, by simp, by simp, ?_, by intro a; simp; omega⟩
      have hm2 : m % 16 = m := Nat.mod_eq_of_lt (by simpa using hm)
      cases f <;> simp [mDigits, h0, hm2]
  | succ j ih =>
    intro f m hf hm
    obtain ⟨f, rfl⟩ : ∃ n, f = n + 1 := ⟨f - 1, by omega⟩
    by_cases h0 : m = 0
    · exact ⟨[], by simp, by simp [h0], by simp, by simp [mDigits, h0], by intro a; simp [h0, Nat.mul_add]⟩
    · have hq : m / 2 ^ (4 * (j + 1)) < 16 := by
        rw [Nat.div_lt_iff_lt_mul (by positivity)]
        calc m < _ := hm
          _ = _ := by rw [show (16 : Nat) = 2 ^ 4 from rfl, ← pow_add, Nat.add_comm]
      have hdm := Nat.div_add_mod m (2 ^ (4 * (j + 1)))
      have hrem : m - m / 2 ^ (4 * (j + 1)) % 16 * 2 ^ (4 * (j + 1)) = m % 2 ^ (4 * (j + 1)) := by
        rw [Nat.mod_eq_of_lt hq]
        rw [Nat.mul_comm] at hdm
        omega
      obtain ⟨ds, g1, g2, g3, g4, g5⟩ := ih f (m % 2 ^ (4 * (j + 1))) (by omega) (Nat.mod_lt _ (by positivity))
      refine ⟨m / 2 ^ (4 * (j + 1)) :: ds, ?_, by simp, by simp; omega, ?_, ?_⟩
      · intro d hd
        rcases List.mem_cons.mp hd with rfl | hd
        · exact hq
        · exact g1 d hd
      · rw [mDigits, if_neg h0, hrem, Nat.mod_eq_of_lt hq, show 4 * (j + 1) - 4 = 4 * j by omega, g4, List.map_cons]
      · intro a
        rw [List.foldl_cons, List.length_cons, show j + 1 + 1 - (ds.length + 1) = j + 1 - ds.length by omega, g5, show 4 * j + 4 = 4 * (j + 1) by ring, pow_add]
        nlinarith

theorem mFormat_ok {m : Nat} (hm : m < 2 ^ 52) : ∃ n : Nat, hexNat (mFormat m) = some n ∧ (n : ℚ) / 16 ^ (mFormat m).length = m / 2 ^ 52 ∧ ∀ c ∈ mFormat m, c ≠ 112 := by
  unfold mFormat
  by_cases h0 : m = 0
  · rw [if_pos h0]
    exact ⟨0, by decide, by simp [h0], by decide⟩
  · rw [if_neg h0]
    obtain ⟨ds, g1, g2, g3, g4, g5⟩ := mDigits_ok 12 14 m (by norm_num) hm
    rw [show (48 : Nat) = 4 * 12 from rfl, g4]
    refine ⟨_, hexNat_map g1 (fun h => h0 (g2 h)), ?_, ?_⟩
    · have := g5 0
      rw [List.length_map, div_eq_div_iff (by positivity) (by positivity)]
      have e : (2 : ℚ) ^ 52 = 2 ^ (4 * (12 + 1 - ds.length)) * 16 ^ ds.length := by
        rw [show (16 : ℚ) = 2 ^ 4 by norm_num, ← pow_mul, ← pow_add]
        congr 1
        omega
      rw [e, ← mul_assoc]
      congr 1
      rw [zero_mul, zero_add] at this
      exact_mod_cast this
    · intro c hc
      obtain ⟨d, hd, rfl⟩ := List.mem_map.mp hc
      exact hexDigit_ne d (g1 d hd)

theorem decDigits_ok (f n : Nat) (h : n < 10 ^ f) (hf : 0 < f) : uint (decDigits f n) = some n ∧ ∀ c ∈ decDigits f n, isDig c = true := by
  have key : ∀ f n : Nat, n < 10 ^ f → 0 < f → decDigits f n ≠ [] ∧ natVal (decDigits f n) = n ∧ ∀ c ∈ decDigits f n, isDig c = true := by
    intro f
    induction f with
    | zero => intro n _ h; omega
    | succ f ih =>
      intro n h _
      have hdg : ∀ d < 10, isDig (48 + UInt8.ofNat d) = true ∧ natVal [48 + UInt8.ofNat d] = d := by decide
      rw [decDigits]
      by_cases h1 : n < 10
      · rw [if_pos h1]
        exact ⟨by simp, (hdg n h1).2, by simpa using (hdg n h1).1⟩
      · rw [if_neg h1]
        have hf : 0 < f := by
          rcases Nat.eq_zero_or_pos f with rfl | hp
          · simp at h; omega
          · exact hp
        obtain ⟨g1, g2, g3⟩ := ih (n / 10) (by rw [pow_succ] at h; omega) hf
        obtain ⟨k1, k2⟩ := hdg (n % 10) (Nat.mod_lt _ (by norm_num))
        refine ⟨by simp, ?_, ?_⟩
        · rw [natVal_append, g2, k2, List.length_singleton]
          omega
        · intro c hc
          rcases List.mem_append.mp hc with hc | hc
          · exact g3 c hc
          · rw [List.mem_singleton.mp hc]; exact k1
  obtain ⟨h1, h2, h3⟩ := key f n h hf
  refine ⟨?_, h3⟩
  unfold uint
  rw [if_pos ⟨h1, List.all_eq_true.mpr h3⟩, h2]

theorem intToStr_ok {n : Int} (h : n.natAbs < 10 ^ 19) : sint (intToStr n) = some n := by
  obtain ⟨h1, h2⟩ := decDigits_ok 19 n.natAbs h (by norm_num)
  unfold intToStr
  by_cases hn : n < 0
  · rw [if_pos hn]
    show Option.map _ (uint _) = _
    rw [h1, Option.map_some]
    congr 1
    omega
  · rw [if_neg hn]
    unfold sint
    split
    · rename_i t heq
      have := h2 45 (by rw [heq]; simp)
      exact absurd this (by decide)
    · rw [h1, Option.map_some]
      congr 1
      omega

theorem takeWhile_stop {p : UInt8 → Bool} {a : Str} {c : UInt8} {b : Str} (h : ∀ x ∈ a, p x = true) (hc : p c = false) :
    (a ++ c :: b).takeWhile p = a ∧ (a ++ c :: b).dropWhile p = c :: b := by
  induction a with
  | nil => simp [hc]
  | cons x l ih =>
    have := ih (fun y hy => h y (by simp [hy]))
    simp [h x (by simp), this]

theorem hexpAbs_eq {i : UInt8} {a m : Nat} {x : Str} {e : Int} (hi : hexDig i = some a) (hm : m < 2 ^ 52) (hx : sint x = some e) :
    hexpAbs ([48, 120, i, 46] ++ mFormat m ++ [112] ++ x) = some ((a + m / 2 ^ 52) * (2 : ℚ) ^ e) := by
  obtain ⟨n, g1, g2, g3⟩ := mFormat_ok hm
  have ht := takeWhile_stop (p := (· ≠ 112)) (a := mFormat m) (c := 112) (b := x) (fun y hy => by simpa using g3 y hy) (by simp)
  simp only [List.cons_append, List.nil_append, List.append_assoc, hexpAbs, ht.1, ht.2, hi, g1, hx]
  simp only [Option.pure_def, Option.bind_some, g2, bind]

theorem frac_lt (v : Dbl) : v.frac < 2 ^ 52 := Nat.mod_lt _ (by norm_num)

/-- C66, DFormat=hexponential: the text is exactly the number. -/
theorem C66_hexponential {v : Dbl} {q : ℚ} (hv : v.fv = .fin q) : hexpVal (hexponential v) = some q ∧ ((hexponential v).head? = some 45 ↔ v.isNeg = true) := by
  have hf := expo_of_fin hv
  have hq := Dbl.fv_fin hv
  have hx : v.expo < 2047 := by
    have : v.expo < 2048 := Nat.mod_lt _ (by norm_num)
    omega
  have hunits : ∃ (body : Str) (y : ℚ), hexponential v = (if v.isNeg then [45] else []) ++ 48 :: 120 :: body ∧ hexpAbs (48 :: 120 :: body) = some y ∧ q = if v.isNeg then -y else y := by
    have e52 : (2 : ℚ) ^ (-1074 : Int) = 1 / 2 ^ 52 * (2 : ℚ) ^ (-1022 : Int) := by
      rw [show (-1074 : Int) = -52 + -1022 by norm_num, zpow_add₀ (by norm_num)]
      norm_num
    unfold hexponential
    by_cases h0 : v.expo = 0
    · by_cases h1 : v.frac = 0
      · refine ⟨[48, 46, 48, 112, 48], 0, by simp [h0, h1], ?_, ?_⟩
        · have := hexpAbs_eq (i := 48) (a := 0) (m := 0) (x := [48]) (e := 0) (by decide) (by norm_num) (by decide)
          simpa [mFormat] using this
        · rw [hq]
          unfold Dbl.units
          simp [h0, h1]
      · refine ⟨[48, 46] ++ mFormat v.frac ++ [112, 45, 49, 48, 50, 50], v.frac / 2 ^ 52 * (2 : ℚ) ^ (-1022 : Int), by simp [h0, h1], ?_, ?_⟩
        · have := hexpAbs_eq (i := 48) (a := 0) (m := v.frac) (x := [45, 49, 48, 50, 50]) (e := -1022) (by decide) (frac_lt v) (by decide)
          simpa using this
        · rw [hq, e52]
          unfold Dbl.units
          simp only [h0, if_true]
          generalize (2 : ℚ) ^ (-1022 : Int) = u
          cases v.isNeg <;> simp <;> ring
    · refine ⟨[49, 46] ++ mFormat v.frac ++ [112] ++ intToStr ((v.expo : Int) - 1023), (1 + v.frac / 2 ^ 52) * (2 : ℚ) ^ ((v.expo : Int) - 1023), ?_, ?_, ?_⟩
      · rw [if_neg h0, if_pos hx]
        simp
      · have := hexpAbs_eq (i := 49) (a := 1) (m := v.frac) (x := intToStr ((v.expo : Int) - 1023)) (e := (v.expo : Int) - 1023) (by decide) (frac_lt v)
          (intToStr_ok (by omega))
        simpa using this
      · rw [hq, e52]
        unfold Dbl.units
        simp only [if_neg h0]
        obtain ⟨k, hk⟩ : ∃ k : Nat, v.expo = k + 1 := ⟨v.expo - 1, by omega⟩
        rw [hk, show (((k + 1 : Nat) : Int) - 1023) = k + -1022 by push_cast; ring, zpow_add₀ (by norm_num), zpow_natCast, Nat.add_sub_cancel]
        generalize (2 : ℚ) ^ (-1022 : Int) = u
        cases v.isNeg <;> simp <;> ring
  obtain ⟨body, y, h1, h2, h3⟩ := hunits
  rw [h1, h3]
  cases v.isNeg with
  | true => exact ⟨by simp [hexpVal, h2], by simp⟩
  | false => exact ⟨by simp [hexpVal, h2], by simp⟩

theorem bits_eq {a b : Dbl} (h1 : a.isNeg = b.isNeg) (h2 : a.expo = b.expo) (h3 : a.frac = b.frac) : a = b := by
  have ha : a.toNat < 2 ^ 64 := a.toNat_lt
  have hb : b.toNat < 2 ^ 64 := b.toNat_lt
  unfold Dbl.isNeg at h1
  unfold Dbl.expo at h2
  unfold Dbl.frac at h3
  have h4 := decide_eq_decide.mp h1
  apply UInt64.toNat_inj.mp
  omega

/-- C66: different finite doubles have different texts in the format hexponential. -/
theorem C66_hexponential_inj {a b : Dbl} (ha : a.expo ≠ 2047) (hb : b.expo ≠ 2047) (h : hexponential a = hexponential b) : a = b := by
  have fa : a.fv = .fin (a.units * (2 : ℚ) ^ (-1074 : Int)) := if_neg ha
  have fb : b.fv = .fin (b.units * (2 : ℚ) ^ (-1074 : Int)) := if_neg hb
  obtain ⟨h1, h2⟩ := C66_hexponential fa
  obtain ⟨k1, k2⟩ := C66_hexponential fb
  rw [h, k1] at h1
  have hq := Option.some.inj h1
  have hs : a.isNeg = b.isNeg := by
    rw [h] at h2
    exact Bool.eq_iff_iff.mpr (h2.symm.trans k2)
  rw [hq] at fb
  rcases Dbl.fv_inj fa fb with h0 | h0
  · exact h0
  · have hz : ∀ d : Dbl, (d.units : ℚ) * (2 : ℚ) ^ (-1074 : Int) = 0 → d.expo = 0 ∧ d.frac = 0 := by
      intro d hd
      have hu : d.units = 0 := by
        rcases mul_eq_zero.mp hd with hd | hd
        · exact_mod_cast hd
        · exact absurd hd (by positivity)
      unfold Dbl.units at hu
      by_cases he : d.expo = 0
      · simp only [if_pos he] at hu
        split at hu <;> omega
      · simp only [if_neg he] at hu
        have : (0 : Int) < ((4503599627370496 + d.frac : Nat) : Int) * 2 ^ (d.expo - 1) := by positivity
        split at hu <;> omega
    obtain ⟨a1, a2⟩ := hz a h0
    obtain ⟨b1, b2⟩ := hz b (hq.trans h0)
    exact bits_eq hs (a1.trans b1.symm) (a2.trans b2.symm)

/-! ## the decimal comma -/

/-- C66, DecimalSep=comma: right for a number written without exponent. -/
theorem C66_comma_plain {dtoa : Dbl → Digits} {v : Dbl} {q : ℚ} (hv : v.fv = .fin q) (hd : Nearest15 (dtoa v) q) (hp : plain v = true) :
    ∃ t, dblToStrSep dtoa v 44 = .ok t ∧ decVal 44 t = some (dtoa v).value ∧ 46 ∉ t := by
  obtain ⟨L, hL1, hL2, hpl⟩ := plain_iff hv
  obtain ⟨g1, g2⟩ := hpl.mp hp
  have h0 : q ≠ 0 := by
    rintro rfl
    rw [abs_zero] at g1
    norm_num at hL1
    linarith
  obtain ⟨hlo, hhi⟩ := plain_range hd (by linarith) g2
  obtain ⟨t, t1, t2, t3⟩ := text_plain (sep := 44) hd.ok (expo_of_fin hv) (by rw [hv]; intro hh; cases hh; exact h0 rfl) hp hlo hhi (Or.inr rfl)
  refine ⟨t, t1, t2, fun hc => ?_⟩
  rcases t3 46 hc with h | h | h <;> exact absurd h (by decide)

/-- What the code does instead: a number written with an exponent has a decimal point, whatever the separator is. -/
theorem C66_comma_ignored {dtoa : Dbl → Digits} {v : Dbl} {q : ℚ} (sep : UInt8) (hv : v.fv = .fin q) (h0 : q ≠ 0) (hd : Nearest15 (dtoa v) q) (hp : plain v = false) :
    ∃ t, dblToStrSep dtoa v sep = .ok t ∧ decVal 46 t = some (dtoa v).value ∧ ∀ c ∈ t, isDig c = true ∨ c = 46 ∨ c = 45 ∨ c = 69 :=
  text_exp sep hd.ok (expo_of_fin hv) (by rw [hv]; intro hh; cases hh; exact h0 rfl) hp (exp_range hv h0 hd hp)

/-- An infinite value or NaN is undefined behaviour: the digits are copied into a buffer that gets no terminating zero. -/
theorem C66_undefined {dtoa : Dbl → Digits} {v : Dbl} (sep : UInt8) (hv : v.expo = 2047) : dblToStrSep dtoa v sep = .ub := by
  unfold dblToStrSep core
  rw [if_neg, if_pos hv]
  · rfl
  · intro hc
    exact expo_of_fin hc hv

/-! ## examples -/

/-- a conversion that knows four numbers: 1.5, 0.1, -1.5e20, 2e-7 -/
def sampleDtoa (v : Dbl) : Digits :=
  if v = 0x3ff8000000000000 then ⟨[49, 53], 1, false⟩
  else if v = 0x3fb999999999999a then ⟨[49], 0, false⟩
  else if v = 0xc42043561a882930 then ⟨[49, 53], 21, true⟩
  else ⟨[50], -6, false⟩

/-- the contract can be met: 1.5 -/
example : Nearest15 (sampleDtoa 0x3ff8000000000000) (3 / 2) where
  ok := ⟨by decide, by decide, by decide, by decide, by decide⟩
  lead := by decide
  neg := by
    rw [show (sampleDtoa 0x3ff8000000000000).neg = false by decide]
    norm_num
  best := by
    intro n k _
    have : (sampleDtoa 0x3ff8000000000000).abs = 3 / 2 := by
      unfold Digits.abs
      rw [show natVal (sampleDtoa 0x3ff8000000000000).dig = 15 by decide, show (sampleDtoa 0x3ff8000000000000).decPos = 1 by decide,
        show (sampleDtoa 0x3ff8000000000000).dig.length = 2 by decide]
      norm_num
    rw [this]
    norm_num

/-- "0.1", "-1.5E20", "2E-7"; with comma "0,1", but "-1.5E20", which is no number with a decimal comma -/
example : dblToStrSep sampleDtoa 0x3fb999999999999a 46 = .ok [48, 46, 49] ∧ dblToStrSep sampleDtoa 0xc42043561a882930 46 = .ok [45, 49, 46, 53, 69, 50, 48] ∧
    dblToStrSep sampleDtoa 0x3e8ad7f29abcaf48 46 = .ok [50, 69, 45, 55] ∧ dblToStrSep sampleDtoa 0x3fb999999999999a 44 = .ok [48, 44, 49] ∧
    dblToStrSep sampleDtoa 0xc42043561a882930 44 = .ok [45, 49, 46, 53, 69, 50, 48] := by decide +kernel

theorem C66_comma_counterexample : decVal 44 [45, 49, 46, 53, 69, 50, 48] = none ∧ decVal 46 [45, 49, 46, 53, 69, 50, 48] = some (-150000000000000000000) := by
  constructor
  · decide +kernel
  · decide +kernel

/-- 1 is "0x3ff0000000000000" and "0x1.0p0"; the smallest subnormal number "0x0.0000000000001p-1022"; minus zero "-0x0.0p0" -/
example : hexBytes 0x3ff0000000000000 = [48, 120, 51, 102, 102] ++ List.replicate 1 48 ++ List.replicate 12 48 ∧
    hexponential 0x3ff0000000000000 = [48, 120, 49, 46, 48, 112, 48] ∧
    hexponential 1 = [48, 120, 48, 46] ++ List.replicate 12 48 ++ [49, 112, 45, 49, 48, 50, 50] ∧
    hexponential 0x8000000000000000 = [45, 48, 120, 48, 46, 48, 112, 48] := by decide +kernel

#print axioms C66_decimal
#print axioms C66_fifteen
#print axioms near_close
#print axioms C66_hexBytes
#print axioms C66_hexponential
#print axioms C66_hexponential_inj
#print axioms C66_comma_plain
#print axioms C66_comma_ignored
#print axioms C66_comma_counterexample
#print axioms C66_undefined

end Gdx.Props
