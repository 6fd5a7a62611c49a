import Verif.Model.Dates
import Verif.Spec.Dates
import Verif.Proofs.Float
import Mathlib.Tactic.IntervalCases

/-! Arithmetic of dates, for C77. -/


namespace Gdx.Dates
open Gdx Spec

theorem isLeap_iff (y : Nat) : isLeap y = true ↔ LeapYear y := by
  simp only [isLeap, LeapYear, Bool.or_eq_true, Bool.and_eq_true, beq_iff_eq, bne_iff_ne]
  omega

theorem monthTable_get (y k : Nat) (h : k < 12) : (monthTable (isLeap y))[k]? = some (monthDays y (k + 1)) := by
  have e := isLeap_iff y
  by_cases hl : LeapYear y
  · rw [e.mpr hl]
    interval_cases k <;> simp [monthTable, monthDays, hl]
  · rw [Bool.eq_false_iff.mpr (fun h => hl (e.mp h))]
    interval_cases k <;> simp [monthTable, monthDays, hl]

/-- the days of the first `n` years -/
theorem years_sum (n : Nat) : ((List.range n).map fun k => yearDays (k + 1)).sum + n / 100 = n * 365 + n / 4 + n / 400 := by
  induction n with
  | zero => rfl
  | succ n ih =>
    rw [List.range_succ, List.map_append, List.sum_append, List.map_singleton, List.sum_singleton]
    have : yearDays (n + 1) = if (4 ∣ n + 1 ∧ (100 ∣ n + 1 → 400 ∣ n + 1)) then 366 else 365 := by
      unfold yearDays LeapYear
      congr
    rw [this]
    split <;> omega

/-- the days of the months before month `m` -/
def before (leap : Bool) (m : Nat) : Nat := ((monthTable leap).take (m - 1)).sum

theorem months_sum (y m : Nat) (hm : m ≤ 12) : ((List.range (m - 1)).map fun k => monthDays y (k + 1)).sum = before (isLeap y) m := by
  have e := isLeap_iff y
  unfold before
  by_cases hl : LeapYear y
  · rw [e.mpr hl]
    interval_cases m <;> simp [monthTable, monthDays, hl, List.range_succ]
  · rw [Bool.eq_false_iff.mpr (fun h => hl (e.mp h))]
    interval_cases m <;> simp [monthTable, monthDays, hl, List.range_succ]

/-- the number of a day, in closed form -/
theorem dayNumber_eq (y m d : Nat) (hm : m ≤ 12) :
    dayNumber y m d + (y - 1) / 100 = (y - 1) * 365 + (y - 1) / 4 + (y - 1) / 400 + before (isLeap y) m + d := by
  have := years_sum (y - 1)
  rw [dayNumber, months_sum y m hm]
  omega

theorem monthDays_eq (y m : Nat) (h1 : 1 ≤ m) (hm : m ≤ 12) : ((monthTable (isLeap y))[m - 1]?).getD 0 = monthDays y m := by
  rw [monthTable_get y (m - 1) (by omega), Option.getD_some]
  congr 1
  omega

theorem foldl_u16 (l : List Nat) (d : Nat) (h : d + l.sum < 65536) : l.foldl (fun d k : Nat => u16 ((d + k : Nat) : Int)) d = d + l.sum := by
  induction l generalizing d with
  | nil => rfl
  | cons a l ih =>
    rw [List.sum_cons] at h ⊢
    rw [List.foldl_cons, show u16 ((d + a : Nat) : Int) = d + a by unfold u16; omega, ih _ (by omega)]
    omega

theorem before_le (l : Bool) (m : Nat) : before l m ≤ 366 := by
  unfold before
  have : ((monthTable l).take (m - 1)).sum ≤ (monthTable l).sum := by
    conv => rhs; rw [← List.take_append_drop (m - 1) (monthTable l), List.sum_append]
    omega
  refine le_trans this ?_
  cases l <;> decide

/-- the days before month `m` ≥ 3 as EncodeDate counts them -/
theorem before_march (l : Bool) (m : Nat) (h1 : 3 ≤ m) (h2 : m ≤ 12) :
    (before l m : Int) = (153 * ((m - 3 : Nat) : Int) + 2) / 5 + 59 + if l then 1 else 0 := by
  interval_cases m <;> cases l <;> decide

/-- the number of leap years -/
theorem leaps (y : Nat) (h : 1600 ≤ y) : (((y : Int) - 1600) / 4 - ((y : Int) - 1600) / 100 + ((y : Int) - 1600) / 400 + 388 : Int) =
    ((y - 1) / 4 : Nat) - ((y - 1) / 100 : Nat) + ((y - 1) / 400 : Nat) + if isLeap y then 1 else 0 := by
  have hl := isLeap_iff y
  unfold LeapYear at hl
  cases hb : isLeap y with
  | true =>
    have hb' := hl.mp hb
    simp only [if_true]
    omega
  | false =>
    have hb' : ¬ (4 ∣ y ∧ (100 ∣ y → 400 ∣ y)) := fun h => by rw [hl.mpr h] at hb; cases hb
    simp only [Bool.false_eq_true, if_false]
    omega

/-- EncodeDate's count of the days of `n` years that begin with March 1600 -/
theorem march (n : Int) (h : 0 ≤ n) : n / 100 * 146097 / 4 + n % 100 * 1461 / 4 = 365 * n + n / 4 - n / 100 + n / 400 := by
  obtain ⟨a, b, c, e, rfl, h1, h2, h3, h4⟩ : ∃ a b c e : Int, n = 400 * a + 100 * b + 4 * c + e ∧ (0 ≤ b ∧ b ≤ 3) ∧ (0 ≤ c ∧ c ≤ 24) ∧ (0 ≤ e ∧ e ≤ 3) ∧ 0 ≤ a :=
    ⟨n / 400, n % 400 / 100, n % 100 / 4, n % 4, by omega, by omega, by omega, by omega, by omega⟩
  have e1 : (400 * a + 100 * b + 4 * c + e) / 100 = 4 * a + b := by omega
  have e2 : (400 * a + 100 * b + 4 * c + e) % 100 = 4 * c + e := by omega
  have e3 : (400 * a + 100 * b + 4 * c + e) / 4 = 100 * a + 25 * b + c := by omega
  have e4 : (400 * a + 100 * b + 4 * c + e) / 400 = a := by omega
  rw [e1, e2, e3, e4]
  have h5 : (4 * a + b) * 146097 / 4 = 146097 * a + 36524 * b := by omega
  have h6 : (4 * c + e) * 1461 / 4 = 1461 * c + 365 * e := by omega
  rw [h5, h6]
  omega

theorem u16_id {n : Int} (h0 : 0 ≤ n) (h : n < 65536) : u16 n = n.toNat := by
  unfold u16
  rw [Int.emod_eq_of_lt h0 h]

theorem findMonth_take (t : List Nat) (j k d : Nat) (h : d < (t[j]?).getD 0) : findMonth t k ((t.take j).sum + d) = .ok (k + j, d) := by
  induction t generalizing j k with
  | nil => simp at h
  | cons x t ih =>
    cases j with
    | zero =>
      simp only [List.getElem?_cons_zero, Option.getD_some] at h
      simp [findMonth, h]
    | succ j =>
      rw [List.getElem?_cons_succ] at h
      rw [List.take_succ_cons, List.sum_cons, findMonth, if_neg (by omega), show x + (t.take j).sum + d - x = (t.take j).sum + d by omega, ih j _ h]
      congr 2
      omega

theorem findMonth_eq (l : Bool) (m d : Nat) (h1 : 1 ≤ m) (h : d < ((monthTable l)[m - 1]?).getD 0) :
    findMonth (monthTable l) 1 (before l m + d) = .ok (m, d) := by
  rw [before, findMonth_take _ _ _ _ h]
  congr 2
  omega

theorem divMod_nat (n k : Nat) (h0 : 0 < k) (h1 : n / k < 65536) (h2 : k ≤ 65536) : divMod (n : Int) k = (n / k, n % k) := by
  have h3 : n % k < k := Nat.mod_lt _ h0
  unfold divMod
  rw [Int.tdiv_eq_ediv_of_nonneg (by omega), Int.tmod_eq_emod_of_nonneg (by omega), ← Int.natCast_ediv, ← Int.natCast_emod]
  refine Prod.ext ?_ ?_ <;> dsimp only <;> rw [u16_id (Int.natCast_nonneg _) (by norm_cast <;> omega), Int.toNat_natCast]

theorem divMod_add (q r k : Nat) (h1 : q < 65536) (h2 : k ≤ 65536) (h : r < k) : divMod ((k * q + r : Nat) : Int) k = (q, r) := by
  have h0 : 0 < k := by omega
  have e1 : (k * q + r) / k = q := by rw [Nat.mul_add_div h0, Nat.div_eq_of_lt h, Nat.add_zero]
  rw [divMod_nat _ _ h0 (by rw [e1]; exact h1) h2, e1, Nat.mul_add_mod, Nat.mod_eq_of_lt h]

/-- DivMod by the length of a period of which four make a longer one, with one more day at the end -/
theorem divMod_four (q r k : Nat) (hq : q ≤ 3) (hk : 0 < k) (h2 : k ≤ 65535) (h : r ≤ k) (hr : r = k → q = 3) :
    (let p := divMod ((k * q + r : Nat) : Int) k
      if p.1 = 4 then (p.1 - 1, u16 (p.2 + k)) else p) = (q, r) := by
  rcases Nat.lt_or_ge r k with hlt | hge
  · dsimp only
    rw [divMod_add q r k (by omega) (by omega) hlt]
    dsimp only
    rw [if_neg (by omega)]
  · have hrk : r = k := by omega
    have hq3 := hr hrk
    subst hrk hq3
    dsimp only
    rw [show r * 3 + r = r * 4 + 0 by ring, divMod_add 4 0 r (by omega) (by omega) hk]
    dsimp only
    rw [if_pos rfl, u16_id (by omega) (by omega)]
    refine Prod.ext rfl ?_
    dsimp only
    omega

/-- the year and the day of the year -/
theorem decode_year (a b c e w : Nat) (hb : b ≤ 3) (hc : c ≤ 24) (he : e ≤ 3) (hw : w ≤ 365) (hl : w = 365 → e = 3 ∧ (c = 24 → b = 3))
    (hy : 400 * a + 100 * b + 4 * c + e + 1 ≤ 65535) :
    decodeDays ((146097 * a + 36524 * b + 1461 * c + 365 * e + w + 1 : Nat) : Int) = (do
      let (m, d) ← findMonth (monthTable (isLeap (400 * a + 100 * b + 4 * c + e + 1))) 1 w
      pure (400 * a + 100 * b + 4 * c + e + 1, m, u16 (d + 1), (146097 * a + 36524 * b + 1461 * c + 365 * e + w + 1) % 7 + 1)) := by
  unfold decodeDays
  rw [if_neg (by omega)]
  have e1 : u16 (((146097 * a + 36524 * b + 1461 * c + 365 * e + w + 1 : Nat) : Int) % 7 + 1) =
      (146097 * a + 36524 * b + 1461 * c + 365 * e + w + 1) % 7 + 1 := by
    unfold u16
    omega
  have e2 : ((146097 * a + 36524 * b + 1461 * c + 365 * e + w + 1 : Nat) : Int) - 1 =
      146097 * a + (36524 * b + (1461 * c + (365 * e + w)) : Nat) := by
    push_cast
    ring
  have e3 : ((146097 : Int) * a + (36524 * b + (1461 * c + (365 * e + w)) : Nat)) / 146097 = a := by omega
  have e4 : ((146097 : Int) * a + (36524 * b + (1461 * c + (365 * e + w)) : Nat)) % 146097 = (36524 * b + (1461 * c + (365 * e + w)) : Nat) := by omega
  have e5 : u16 (1 + 400 * (a : Int)) = 1 + 400 * a := by rw [u16_id] <;> omega
  dsimp only
  rw [e1, e2, e3, e4, e5]
  have f1 := divMod_four b (1461 * c + (365 * e + w)) 36524 hb (by norm_num) (by norm_num) (by omega) (by omega)
  have f2 := divMod_add c (365 * e + w) 1461 (by omega) (by norm_num) (by omega)
  have f3 := divMod_four e w 365 he (by norm_num) (by norm_num) (by omega) (by omega)
  simp only [Nat.cast_ofNat] at f1 f3
  rw [f1]
  dsimp only
  rw [f2]
  dsimp only
  rw [f3]
  dsimp only
  have e6 : u16 (((u16 (((u16 ((1 + 400 * a : Nat) + (b : Int) * 100) : Nat) : Int) + (c : Int) * 4) : Nat) : Int) + (e : Int)) =
      400 * a + 100 * b + 4 * c + e + 1 := by
    unfold u16
    omega
  rw [e6]

/-- DecodeDateFully gives the day back -/
theorem decodeDays_eq {y m d : Nat} (h : IsDate y m d) (hy : y ≤ 65535) :
    decodeDays (dayNumber y m d : Int) = .ok (y, m, d, dayNumber y m d % 7 + 1) := by
  obtain ⟨h1, h2, h3, h4, h5⟩ := h
  have he := dayNumber_eq y m d h3
  obtain ⟨a, b, c, e, hn, hb, hc, hd⟩ : ∃ a b c e : Nat, y - 1 = 400 * a + 100 * b + 4 * c + e ∧ b ≤ 3 ∧ c ≤ 24 ∧ e ≤ 3 :=
    ⟨(y - 1) / 400, (y - 1) % 400 / 100, (y - 1) % 100 / 4, (y - 1) % 4, by omega, by omega, by omega, by omega⟩
  have hyv : y = 400 * a + 100 * b + 4 * c + e + 1 := by omega
  have hdm := h5
  rw [← monthDays_eq y m h2 h3] at hdm
  have hw : before (isLeap y) m + (d - 1) ≤ 364 + if isLeap y then 1 else 0 := by
    revert hdm
    cases isLeap y <;> interval_cases m <;> simp [before, monthTable] <;> omega
  have hl : isLeap y = true → e = 3 ∧ (c = 24 → b = 3) := by
    intro h
    have := (isLeap_iff y).mp h
    unfold LeapYear at this
    omega
  have hD : dayNumber y m d = 146097 * a + 36524 * b + 1461 * c + 365 * e + (before (isLeap y) m + (d - 1)) + 1 := by
    have g1 : (y - 1) / 100 = 4 * a + b := by omega
    have g2 : (y - 1) / 4 = 100 * a + 25 * b + c := by omega
    have g3 : (y - 1) / 400 = a := by omega
    omega
  rw [hD, decode_year a b c e _ hb hc hd (by split at hw <;> omega) (by
    intro hx
    refine hl ?_
    by_contra hc
    rw [if_neg hc] at hw
    omega) (by omega), ← hyv, findMonth_eq _ m (d - 1) h2 (by omega), Res.bind_ok]
  have : u16 (((d - 1 : Nat) : Int) + 1) = d := by
    have : d ≤ 31 := by
      refine le_trans h5 ?_
      unfold monthDays
      split <;> [split; split] <;> omega
    rw [u16_id] <;> omega
  dsimp only
  rw [this]
  rfl

/-- rounding changes a number below 2^k by at most 2^(k-54) -/
theorem round_err {q : ℚ} {k : Int} (h0 : 0 ≤ q) (h : q < (2 : ℚ) ^ k) (h1 : -1000 ≤ k) (h2 : k ≤ 1000) :
    ∃ r, FV.round q = .fin r ∧ 0 ≤ r ∧ |r - q| ≤ (2 : ℚ) ^ (k - 54) := by
  have hk : (0 : ℚ) < (2 : ℚ) ^ (k - 54) := by positivity
  have he : |FV.near q - q| ≤ (2 : ℚ) ^ (k - 54) := by
    rcases eq_or_lt_of_le h0 with rfl | hq
    · rw [FV.near_zero, sub_zero, abs_zero]
      exact hk.le
    · have hp : (0 : ℚ) < (2 : ℚ) ^ FV.ulpExp q := by positivity
      have e1 : FV.near q - q = ((roundEven (q / (2 : ℚ) ^ FV.ulpExp q) : ℚ) - q / (2 : ℚ) ^ FV.ulpExp q) * (2 : ℚ) ^ FV.ulpExp q := by
        rw [sub_mul, div_mul_cancel₀ _ hp.ne']
        rfl
      have hu : FV.ulpExp q ≤ k - 53 := by
        unfold FV.ulpExp
        refine max_le ?_ (by omega)
        rw [abs_of_pos hq]
        have : Int.log 2 q < k := by
          rw [← Int.lt_zpow_iff_log_lt (by norm_num) hq]
          exact_mod_cast h
        omega
      rw [e1, abs_mul, abs_of_pos hp]
      calc _ ≤ 1 / 2 * (2 : ℚ) ^ (k - 53) :=
            mul_le_mul (roundEven_err _) (zpow_le_zpow_right₀ (by norm_num) hu) hp.le (by norm_num)
        _ = (2 : ℚ) ^ (k - 54) := by
            rw [show k - 53 = (k - 54) + 1 by ring, zpow_add₀ (by norm_num)]
            ring
  have h3 : 0 ≤ FV.near q := by
    unfold FV.near
    refine mul_nonneg ?_ (by positivity)
    have : 0 ≤ roundEven (q / (2 : ℚ) ^ FV.ulpExp q) := roundEven_mono_int _ 0 (by
      push_cast
      exact div_nonneg h0 (by positivity))
    exact_mod_cast this
  refine ⟨FV.near q, ?_, h3, he⟩
  unfold FV.round
  rw [if_neg]
  rw [abs_of_nonneg h3, not_le]
  have h4 : (2 : ℚ) ^ k ≤ (2 : ℚ) ^ (1000 : Int) := zpow_le_zpow_right₀ (by norm_num) h2
  have h5 : (2 : ℚ) ^ (k - 54) ≤ (2 : ℚ) ^ (1000 : Int) := zpow_le_zpow_right₀ (by norm_num) (by omega)
  have h6 : (2 : ℚ) ^ (1024 : Int) = (2 : ℚ) ^ (1000 : Int) * 16777216 := by
    rw [show (1024 : Int) = 1000 + 24 by norm_num, zpow_add₀ (by norm_num)]
    norm_num
  have h7 : (0 : ℚ) < (2 : ℚ) ^ (1000 : Int) := by positivity
  rw [h6]
  have h8 := (abs_le.mp he).2
  generalize (2 : ℚ) ^ (1000 : Int) = X at h4 h5 h7 ⊢
  linarith

theorem isDouble_int (n : Nat) (h : n < 2 ^ 53) : FV.IsDouble n := ⟨n, 0, by rw [abs_of_nonneg (by omega)]; exact_mod_cast h, by norm_num, by simp⟩

/-- a day and `n` milliseconds: rounding does not matter -/
theorem timeStamp_eq (D n : Nat) (hD : D < 33554431) (hn : n < 86400000) :
    timeStamp (FV.add (.fin D) (FV.divPos (.fin n) (.fin 86400000))) = .ok ((n : Int), (D : Int) + 693594) := by
  have hn' : (n : ℚ) + 1 ≤ 86400000 := by exact_mod_cast hn
  have hn0 : (0 : ℚ) ≤ n := by positivity
  have hD0 : (0 : ℚ) ≤ D := by positivity
  have hD' : (D : ℚ) + 2 ≤ 33554432 := by exact_mod_cast (by omega : D + 2 ≤ 33554432)
  have t1 : (n : ℚ) / 86400000 ≤ 1 - 1 / 86400000 := by linarith
  obtain ⟨x, e1, x0, hx⟩ := round_err (q := (n : ℚ) / 86400000) (k := 0) (by positivity) (by rw [zpow_zero]; linarith) (by norm_num) (by norm_num)
  have z1 : (2 : ℚ) ^ ((0 : Int) - 54) ≤ 1 / 10000000000000000 := by norm_num
  obtain ⟨hxl, hxu⟩ := abs_le.mp (hx.trans z1)
  have hx1 : x ≤ 1 := by linarith
  obtain ⟨v, e2, v0, hv⟩ := round_err (q := (D : ℚ) + x) (k := 25) (by positivity) (by norm_num; linarith) (by norm_num) (by norm_num)
  have z2 : (2 : ℚ) ^ ((25 : Int) - 54) ≤ 1 / 536870912 := by norm_num
  obtain ⟨hvl, hvu⟩ := abs_le.mp (hv.trans z2)
  have hvD : (D : ℚ) ≤ v := by
    rcases Nat.eq_zero_or_pos D with rfl | hpos
    · simpa using v0
    · have : v = FV.near ((D : ℚ) + x) := by
        unfold FV.round at e2
        split at e2
        · cases e2
        · injection e2 with e2
          exact e2.symm
      rw [this]
      exact FV.le_near (isDouble_int D (by omega)) (by exact_mod_cast hpos) (by linarith)
  have hv1 : v < D + 1 := by linarith
  have hfl : trunc v = D := by
    unfold trunc
    rw [if_pos v0, Int.floor_eq_iff]
    exact ⟨by exact_mod_cast hvD, by exact_mod_cast hv1⟩
  have hf0 : 0 ≤ v - ((D : Int) : ℚ) := by push_cast; linarith
  have hf : |v - ((D : Int) : ℚ)| * 86400000 = (v - D) * 86400000 := by
    rw [abs_of_nonneg hf0]
    push_cast
    ring
  obtain ⟨p, e3, p0, hp⟩ := round_err (q := (v - D) * 86400000) (k := 27) (by push_cast at hf0; positivity) (by norm_num; linarith) (by norm_num) (by norm_num)
  have z3 : (2 : ℚ) ^ ((27 : Int) - 54) ≤ 1 / 100000000 := by norm_num
  obtain ⟨hpl, hpu⟩ := abs_le.mp (hp.trans z3)
  obtain ⟨r, e4, r0, hr⟩ := round_err (q := p + 1 / 2) (k := 27) (by positivity) (by norm_num; linarith) (by norm_num) (by norm_num)
  obtain ⟨hrl, hru⟩ := abs_le.mp (hr.trans z3)
  have hrn : trunc r = n := by
    unfold trunc
    rw [if_pos r0, Int.floor_eq_iff]
    constructor
    · push_cast
      linarith
    · push_cast
      linarith
  have hround : roundInt (.fin p) = .ok (n : Int) := by
    unfold roundInt
    dsimp only
    rw [if_pos p0, e4]
    dsimp only
    rw [hrn, if_pos (by unfold I64; omega)]
    have : Int.bmod (n : Int) 4294967296 = n := by
      rw [Int.bmod_def]
      split <;> omega
    rw [this]
  have hdiv : FV.divPos (.fin n) (.fin 86400000) = .fin x := e1
  rw [hdiv]
  have hadd : FV.add (.fin D) (.fin x) = .fin v := e2
  rw [hadd]
  unfold timeStamp
  dsimp only
  rw [hfl, hf, e3, hround, Res.bind_ok, if_pos (by unfold I64; omega)]
  have : Int.bmod ((D : Int) + 693594) 4294967296 = (D : Int) + 693594 := by
    rw [Int.bmod_def]
    split <;> omega
  rw [this]
  rfl

end Gdx.Dates
