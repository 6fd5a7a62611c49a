import Verif.Model.IntText
import Verif.Model.Acro
import Verif.Spec.IntText
import Verif.Props.Dates
import Verif.Proofs.Evo
import Verif.Props.ValInt

/-!
C78: integers become texts and texts become integers.
-/

namespace Gdx.IntText
open Gdx Gdx.ValInt

theorem negDigit_eq (m : Nat) : negDigit (-(m : Int)) = UInt8.ofNat (48 + m % 10) := by
  unfold negDigit
  congr 1
  rw [Int.neg_tmod, Int.tmod_eq_emod_of_nonneg (by omega)]
  omega

theorem neg_tdiv (m : Nat) : (-(m : Int)).tdiv 10 = -((m / 10 : Nat) : Int) := by
  rw [Int.neg_tdiv, Int.tdiv_eq_ediv_of_nonneg (by omega)]
  omega

theorem digits_step (f n : Nat) : digits (f + 1) n = (if n / 10 = 0 then [] else digits f (n / 10)) ++ [UInt8.ofNat (48 + n % 10)] := by
  rw [digits]
  by_cases h : n < 10
  · rw [if_pos h, if_pos (by omega), Nat.mod_eq_of_lt h]
    rfl
  · rw [if_neg h, if_neg (by omega)]

theorem pushDigits_eq : ∀ (f m : Nat) (acc : Str), m < 10 ^ (f + 1) → pushDigits (f + 1) (-(m : Int)) acc = .ok (digits (f + 1) m ++ acc) := by
  intro f
  induction f with
  | zero =>
    intro m acc h
    rw [pushDigits, neg_tdiv, negDigit_eq, if_pos (by omega), digits_step, if_pos (by omega)]
    rfl
  | succ f ih =>
    intro m acc h
    rw [pushDigits, neg_tdiv, negDigit_eq, digits_step]
    by_cases hm : m / 10 = 0
    · rw [if_pos (by omega), if_pos hm]
      rfl
    · rw [if_neg (by omega), if_neg hm, ih _ _ (by rw [pow_succ] at h; omega)]
      simp

theorem digits_fuel : ∀ (f g n : Nat), n < 10 ^ (f + 1) → n < 10 ^ (g + 1) → digits (f + 1) n = digits (g + 1) n := by
  intro f
  induction f with
  | zero =>
    intro g n h _
    rw [digits_step 0, digits_step g, if_pos (by omega), if_pos (by omega)]
  | succ f ih =>
    intro g n h h2
    rw [digits_step (f + 1), digits_step g]
    split
    · rfl
    · cases g with
      | zero => omega
      | succ g => rw [ih g (n / 10) (by rw [pow_succ] at h; omega) (by rw [pow_succ] at h2; omega)]

theorem i64_bounds {n : Int} (h : I64 n) : n.natAbs < 10 ^ 20 := by
  unfold I64 at h
  have : (10 : Nat) ^ 20 = 100000000000000000000 := by norm_num
  omega

/-- The function gives the digits that the rest of the model uses for numbers. -/
theorem intToStr_eq {n : Int} (h : I64 n) : intToStr n = .ok (Gdx.intToStr n) := by
  have hb := i64_bounds h
  have hb' : n.natAbs < 10 ^ (254 + 1) := lt_of_lt_of_le hb (Nat.pow_le_pow_right (by norm_num) (by norm_num))
  have e : (if n < 0 then n else -n) = -(n.natAbs : Int) := by split <;> omega
  unfold intToStr Gdx.intToStr
  rw [e, pushDigits_eq 254 n.natAbs [] hb', Res.bind_ok, List.append_nil, digits_fuel 254 19 _ hb' hb]
  rfl

theorem digits_ne (f n : Nat) : digits (f + 1) n ≠ [] := by
  rw [digits_step]
  simp

theorem digits_head : ∀ (f n : Nat), n < 10 ^ (f + 1) → n ≠ 0 → ∃ d, 0 < d ∧ d < 10 ∧ (digits (f + 1) n).head? = some (UInt8.ofNat (48 + d)) := by
  intro f
  induction f with
  | zero =>
    intro n h h0
    rw [digits_step, if_pos (by omega)]
    exact ⟨n % 10, by omega, by omega, rfl⟩
  | succ f ih =>
    intro n h h0
    rw [digits_step]
    split
    · exact ⟨n % 10, by omega, by omega, rfl⟩
    · rename_i hn
      obtain ⟨d, h1, h2, h3⟩ := ih (n / 10) (by rw [pow_succ] at h; omega) hn
      refine ⟨d, h1, h2, ?_⟩
      rw [List.head?_append, h3]
      rfl

theorem digits_decimal {n : Nat} (h : n < 10 ^ 20) : Decimal (digits 20 n) n := by
  refine ⟨Props.digits_numeral 19 n h, ?_⟩
  intro hh
  by_cases h0 : n = 0
  · subst h0
    decide
  · obtain ⟨d, h1, h2, h3⟩ := digits_head 19 n h h0
    rw [h3] at hh
    have := congrArg UInt8.toNat (Option.some.inj hh)
    rw [UInt8.toNat_ofNat_of_lt' (by show _ < 256; omega)] at this
    have e : (48 : UInt8).toNat = 48 := rfl
    omega

/-- IntToStr gives the decimal number of every int64, the smallest one included. -/
theorem C78_str {n : Int} (h : I64 n) : ∃ s, intToStr n = .ok s ∧ IsIntStr s n := by
  refine ⟨_, intToStr_eq h, ?_⟩
  have hb := i64_bounds h
  unfold Gdx.intToStr
  by_cases hn : n < 0
  · rw [if_pos hn]
    refine .inr ⟨hn, _, rfl, ?_⟩
    rw [show (-n).toNat = n.natAbs by omega]
    exact digits_decimal hb
  · rw [if_neg hn]
    refine .inl ⟨by omega, ?_⟩
    rw [show n.toNat = n.natAbs by omega]
    exact digits_decimal hb

example : intToStr (-9223372036854775808) = .ok (DiffOpts.str "-9223372036854775808") := by decide +kernel

/-! ### back -/

theorem foldl_ofDigits (b : Nat) : ∀ (ds : List Nat) (r : Nat), ds.foldl (fun v d : Nat => v * b + d) r = r * b ^ ds.length + Nat.ofDigits b ds.reverse := by
  intro ds
  induction ds with
  | nil => intro r; simp
  | cons d ds ih =>
    intro r
    rw [List.foldl_cons, ih, List.reverse_cons, Nat.ofDigits_append, List.length_cons, List.length_reverse, Nat.ofDigits_singleton]
    ring

theorem foldl_ge (b : Nat) (hb : 0 < b) : ∀ (ds : List Nat) (r : Nat), r ≤ ds.foldl (fun v d : Nat => v * b + d) r := by
  intro ds
  induction ds with
  | nil => intro r; simp
  | cons d ds ih =>
    intro r
    rw [List.foldl_cons]
    have := ih (r * b + d)
    have h2 : r ≤ r * b := Nat.le_mul_of_pos_right r hb
    omega

theorem digit_dec {c : UInt8} {d : Nat} (h : Digit c d) (hd : d < 10) : isDec c = true ∧ c.toNat = 48 + d := by
  cases h with
  | dec n hn =>
    have e : (UInt8.ofNat (48 + d)).toNat = 48 + d := UInt8.toNat_ofNat_of_lt' (by show _ < 256; omega)
    refine ⟨?_, e⟩
    simp only [isDec, Bool.and_eq_true, decide_eq_true_eq, UInt8.le_iff_toNat_le, e]
    exact ⟨by show 48 ≤ _; omega, by show _ ≤ 57; omega⟩
  | upper n hn => omega
  | lower n hn => omega

theorem more_ok {b r : Nat} {c : UInt8} {d base : Nat} (hc : c.toNat = base + d) (h : r * b + d + base ≤ 9223372036854775807) :
    more b r c base = .ok ((r * b + d : Nat) : Int) := by
  unfold more
  rw [hc]
  have hr : ((r : Int) * (b : Int)) = ((r * b : Nat) : Int) := by push_cast; ring
  rw [hr]
  generalize r * b = q at *
  rw [if_pos]
  · congr 1
    push_cast
    omega
  · unfold I64
    push_cast
    omega

theorem decLoop_eq : ∀ (s : Str) (ds : List Nat) (r : Nat), List.Forall₂ Digit s ds → (∀ d ∈ ds, d < 10) →
    ds.foldl (fun v d : Nat => v * 10 + d) r + 48 ≤ 9223372036854775807 →
    decLoop r s = .ok (some ((ds.foldl (fun v d : Nat => v * 10 + d) r : Nat) : Int)) := by
  intro s ds r h
  induction h generalizing r with
  | nil => intro _ _; rfl
  | @cons c d s ds hc hs ih =>
    intro hd hm
    obtain ⟨h1, h2⟩ := digit_dec hc (hd d (by simp))
    rw [List.foldl_cons] at hm
    have hge := foldl_ge 10 (by norm_num) ds (r * 10 + d)
    rw [decLoop, if_pos h1]
    have := more_ok (b := 10) (r := r) (base := 48) h2 (by omega)
    rw [show ((10 : Nat) : Int) = 10 from rfl, show ((48 : Nat) : Int) = 48 from rfl] at this
    rw [this, Res.bind_ok, ih _ (fun d hd' => hd d (List.mem_cons_of_mem _ hd')) hm]
    rfl

theorem digit_hex {c : UInt8} {d : Nat} (h : Digit c d) : (isDec c = true ∧ c.toNat = 48 + d) ∨
    (isDec c = false ∧ (65 ≤ c && c ≤ 70) = true ∧ c.toNat = 55 + d) ∨
    (isDec c = false ∧ (65 ≤ c && c ≤ 70) = false ∧ (97 ≤ c && c ≤ 102) = true ∧ c.toNat = 87 + d) := by
  cases h with
  | dec n hn => exact .inl (digit_dec (.dec d hn) hn)
  | upper n hn =>
    refine .inr (.inl ?_)
    interval_cases n <;> exact ⟨rfl, rfl, rfl⟩
  | lower n hn =>
    refine .inr (.inr ?_)
    interval_cases n <;> exact ⟨rfl, rfl, rfl, rfl⟩

theorem hexLoop_eq : ∀ (s : Str) (ds : List Nat) (r : Nat), List.Forall₂ Digit s ds →
    ds.foldl (fun v d : Nat => v * 16 + d) r + 87 ≤ 9223372036854775807 →
    hexLoop r s = .ok (some ((ds.foldl (fun v d : Nat => v * 16 + d) r : Nat) : Int)) := by
  intro s ds r h
  induction h generalizing r with
  | nil => intro _; rfl
  | @cons c d s ds hc hs ih =>
    intro hm
    rw [List.foldl_cons] at hm
    have hge := foldl_ge 16 (by norm_num) ds (r * 16 + d)
    have key : ∀ base : Nat, base ≤ 87 → c.toNat = base + d → more 16 r c base = .ok ((r * 16 + d : Nat) : Int) := by
      intro base hb hc
      exact more_ok (b := 16) hc (by omega)
    rw [hexLoop]
    rcases digit_hex hc with ⟨h1, h2⟩ | ⟨h1, h2, h3⟩ | ⟨h1, h2, h3, h4⟩
    · rw [if_pos h1, show (48 : Int) = ((48 : Nat) : Int) from rfl, key 48 (by norm_num) h2, Res.bind_ok, ih _ hm]
      rfl
    · rw [if_neg (by rw [h1]; simp), if_pos h2, show (55 : Int) = ((55 : Nat) : Int) from rfl, key 55 (by norm_num) h3, Res.bind_ok, ih _ hm]
      rfl
    · rw [if_neg (by rw [h1]; simp), if_neg (by rw [h2]; simp), if_pos h3, show (87 : Int) = ((87 : Nat) : Int) from rfl, key 87 (by norm_num) h4,
        Res.bind_ok, ih _ hm]
      rfl

theorem dropBlanks (k : Nat) (t : Str) (h : t.head? ≠ some 32) : (List.replicate k 32 ++ t).dropWhile (· == 32) = t := by
  induction k with
  | zero =>
    cases t with
    | nil => rfl
    | cons c t =>
      have : c ≠ 32 := fun hc => h (by rw [hc]; rfl)
      simp [this]
  | succ k ih => simpa [List.replicate_succ, List.dropWhile] using ih

theorem numeral_head {b : Nat} {s : Str} {n : Nat} (h : Numeral b s n) : s.head? ≠ some 32 ∧ s.head? ≠ some 45 ∧ s.head? ≠ some 36 := by
  obtain ⟨h1, ds, h2, _, _⟩ := h
  cases h2 with
  | nil => exact absurd rfl h1
  | @cons c d s ds hc _ =>
    have : c.toNat = 48 + d ∧ isDec c = true ∨ 65 ≤ c.toNat := by
      rcases digit_hex hc with ⟨h1, h2⟩ | ⟨h1, h2, h3⟩ | ⟨h1, h2, h3, h4⟩
      · exact .inl ⟨h2, h1⟩
      · right
        simp only [Bool.and_eq_true, decide_eq_true_eq, UInt8.le_iff_toNat_le] at h2
        exact h2.1
      · right
        simp only [Bool.and_eq_true, decide_eq_true_eq, UInt8.le_iff_toNat_le] at h3
        have : (97 : UInt8).toNat = 97 := rfl
        omega
    have hge : 48 ≤ c.toNat := by omega
    refine ⟨?_, ?_, ?_⟩ <;> (intro hc; rw [List.head?_cons, Option.some.injEq] at hc; rw [hc] at hge; revert hge; decide)

/-- The text of a decimal number with blanks and a minus sign gives its value, up to 48 less than the largest int64. -/
theorem C78_value_partial {s : Str} {n : Nat} (k : Nat) (h : Numeral 10 s n) (hn : n ≤ 9223372036854775759) :
    strToInt64 (List.replicate k 32 ++ s) = .ok n ∧ strToInt64 (List.replicate k 32 ++ 45 :: s) = .ok (-n) := by
  obtain ⟨h32, h45, h36⟩ := numeral_head h
  obtain ⟨_, ds, h2, h3, h4⟩ := h
  have hv : ds.foldl (fun v d : Nat => v * 10 + d) 0 = n := by rw [foldl_ofDigits, h4]; simp
  have hl := decLoop_eq s ds 0 h2 h3 (by rw [hv]; omega)
  rw [hv] at hl
  constructor
  · unfold strToInt64
    dsimp only
    rw [dropBlanks _ _ h32, beq_false_of_ne h45, beq_false_of_ne h36]
    simp only [Bool.or_false, Bool.false_eq_true, if_false]
    rw [show (0 : Int) = ((0 : Nat) : Int) from rfl, hl]
    rfl
  · unfold strToInt64
    dsimp only
    rw [dropBlanks _ _ (by simp)]
    have e1 : ((45 :: s).head? == some 45) = true := rfl
    have e2 : ((45 :: s).head? == some 36) = false := rfl
    rw [e1, e2]
    simp only [Bool.or_false, Bool.false_eq_true, if_false, if_true, List.tail_cons]
    rw [show (0 : Int) = ((0 : Nat) : Int) from rfl, hl]
    rfl

/-- A number with a dollar sign is hexadecimal. -/
theorem C78_dollar_partial {s : Str} {n : Nat} (k : Nat) (h : Numeral 16 s n) (hn : n ≤ 9223372036854775720) :
    strToInt64 (List.replicate k 32 ++ 36 :: s) = .ok n := by
  obtain ⟨_, ds, h2, h3, h4⟩ := h
  have hv : ds.foldl (fun v d : Nat => v * 16 + d) 0 = n := by rw [foldl_ofDigits, h4]; simp
  have hl := hexLoop_eq s ds 0 h2 (by rw [hv]; omega)
  rw [hv] at hl
  unfold strToInt64
  dsimp only
  rw [dropBlanks _ _ (by simp)]
  have e1 : ((36 :: s).head? == some 45) = false := rfl
  have e2 : ((36 :: s).head? == some 36) = true := rfl
  rw [e1, e2]
  simp only [Bool.false_or, Bool.false_eq_true, if_false, if_true, List.tail_cons]
  rw [show (0 : Int) = ((0 : Nat) : Int) from rfl, hl]
  rfl

example : strToInt64 (DiffOpts.str "  -42") = .ok (-42) ∧ strToInt64 (DiffOpts.str " $fF") = .ok 255 ∧
    strToInt64 (DiffOpts.str "4x") = .ok i64Min := by decide +kernel

/-- IntToStr followed by StrToInt64 gives the number again. -/
theorem C78_back_partial {n : Int} (h : -9223372036854775759 ≤ n ∧ n ≤ 9223372036854775759) :
    ∃ s, intToStr n = .ok s ∧ strToInt64 s = .ok n := by
  obtain ⟨s, h1, h2⟩ := C78_str (n := n) (by unfold I64; omega)
  refine ⟨s, h1, ?_⟩
  rcases h2 with ⟨h3, h4⟩ | ⟨h3, t, rfl, h4⟩
  · have := (C78_value_partial 0 h4.1 (by omega)).1
    rw [List.replicate_zero, List.nil_append] at this
    rw [this]
    congr 1
    omega
  · have := (C78_value_partial 0 h4.1 (by omega)).2
    rw [List.replicate_zero, List.nil_append] at this
    rw [this]
    congr 1
    omega

/-- The 48 largest numbers and the 49 smallest ones are not read: 10 * result + s[i] - '0' overflows, because '0' is subtracted last. -/
theorem C78_max : ∃ s, intToStr 9223372036854775807 = .ok s ∧ strToInt64 s = .ub := ⟨_, rfl, by decide +kernel⟩

theorem C78_limit : (∃ s, intToStr 9223372036854775759 = .ok s ∧ strToInt64 s = .ok 9223372036854775759) ∧
    ∃ s, intToStr 9223372036854775760 = .ok s ∧ strToInt64 s = .ub := ⟨⟨_, rfl, by decide +kernel⟩, ⟨_, rfl, by decide +kernel⟩⟩

theorem C78_min : ∃ s, intToStr (-9223372036854775808) = .ok s ∧ strToInt64 s = .ub := ⟨_, rfl, by decide +kernel⟩

/-- For an int StrToInt gives the number again. -/
theorem C78_int {n : Int} (h : ValInt.InInt n) : ∃ s, intToStr n = .ok s ∧ strToInt s = .ok n := by
  unfold ValInt.InInt at h
  obtain ⟨s, h1, h2⟩ := C78_back_partial (n := n) (by omega)
  refine ⟨s, h1, ?_⟩
  unfold strToInt
  rw [h2, Res.bind_ok, if_neg (by omega)]
  rfl

theorem intStr_text {s : Str} {n : Int} (h : IsIntStr s n) : ValInt.IntText s n ∧ (36 : UInt8) ∉ s := by
  have no36 : ∀ {t : Str} {m : Nat}, Numeral 10 t m → (36 : UInt8) ∉ t := by
    rintro t m ⟨h1, ds, h2, h3, h4⟩ hm
    clear h1 h4
    induction h2 with
    | nil => cases hm
    | @cons c d t ds hc _ ih =>
      rcases List.mem_cons.mp hm with rfl | hm
      · have := (digit_dec hc (h3 d (by simp))).1
        revert this
        decide
      · exact ih (fun d hd => h3 d (List.mem_cons_of_mem _ hd)) hm
  rcases h with ⟨h0, h1⟩ | ⟨h0, t, rfl, h1⟩
  · refine ⟨⟨0, s, rfl, ?_⟩, no36 h1.1⟩
    have := Signed.none (Body.dec h1.1)
    rwa [Int.toNat_of_nonneg h0] at this
  · refine ⟨⟨0, _, rfl, ?_⟩, ?_⟩
    · have := Signed.minus (Body.dec h1.1)
      rwa [Int.toNat_of_nonneg (by omega), neg_neg] at this
    · intro hm
      rcases List.mem_cons.mp hm with hm | hm
      · revert hm
        decide
      · exact no36 h1.1 hm

theorem digits_length : ∀ (f n : Nat), (digits f n).length ≤ f := by
  intro f
  induction f with
  | zero => intro n; rfl
  | succ f ih =>
    intro n
    rw [digits_step, List.length_append, List.length_singleton]
    split
    · simp
    · have := ih (n / 10)
      omega

/-- The conversion of C76 gives the number again, too. -/
theorem C78_val {n : Int} (h : ValInt.InInt n) : ∃ s, intToStr n = .ok s ∧ valI s = .ok (n, 0) := by
  have hI : I64 n := by unfold ValInt.InInt at h; unfold I64; omega
  obtain ⟨s, h1, h2⟩ := C78_str hI
  refine ⟨s, h1, ?_⟩
  obtain ⟨h3, h4⟩ := intStr_text h2
  refine ValInt.C76_number_partial h3 h ?_ ?_
  · rw [intToStr_eq hI] at h1
    rw [← Res.ok.inj h1]
    unfold Gdx.intToStr
    have := digits_length 20 n.natAbs
    split
    · rw [List.length_cons]
      omega
    · omega
  · rintro ⟨u, c, t, rfl, _⟩
    exact h4 (by simp)

/-! ### nothing else is read as a number -/

theorem dec_digit {c : UInt8} (h : isDec c = true) : Digit c (c.toNat - 48) ∧ c.toNat - 48 < 10 ∧ 48 ≤ c.toNat := by
  simp only [isDec, Bool.and_eq_true, decide_eq_true_eq, UInt8.le_iff_toNat_le] at h
  have e1 : (48 : UInt8).toNat = 48 := rfl
  have e2 : (57 : UInt8).toNat = 57 := rfl
  refine ⟨?_, by omega, by omega⟩
  have := Digit.dec (c.toNat - 48) (by omega)
  rwa [show 48 + (c.toNat - 48) = c.toNat by omega, UInt8.ofNat_toNat] at this

theorem more_val {b r : Int} {c : UInt8} {base v : Int} (h : more b r c base = .ok v) : v = r * b + c.toNat - base := by
  unfold more at h
  split at h
  · exact (Res.ok.inj h).symm
  · cases h

theorem decLoop_inv : ∀ (s : Str) (r : Nat) (v : Int), decLoop r s = .ok (some v) →
    ∃ ds, List.Forall₂ Digit s ds ∧ (∀ d ∈ ds, d < 10) ∧ v = ((ds.foldl (fun v d : Nat => v * 10 + d) r : Nat) : Int) := by
  intro s
  induction s with
  | nil =>
    intro r v h
    rw [decLoop] at h
    exact ⟨[], .nil, by simp, (Option.some.inj (Res.ok.inj h)).symm⟩
  | cons c s ih =>
    intro r v h
    rw [decLoop] at h
    split at h
    · rename_i hc
      obtain ⟨r', h1, h2⟩ := Res.bind_eq_ok.mp h
      have e := more_val h1
      obtain ⟨g1, g2, g3⟩ := dec_digit hc
      have e' : r' = ((r * 10 + (c.toNat - 48) : Nat) : Int) := by rw [e]; push_cast [g3]; ring
      rw [e'] at h2
      obtain ⟨ds, i1, i2, i3⟩ := ih _ _ h2
      refine ⟨(c.toNat - 48) :: ds, .cons g1 i1, ?_, i3⟩
      intro d hd
      rcases List.mem_cons.mp hd with rfl | hd
      · exact g2
      · exact i2 d hd
    · cases h

theorem hex_digit {c : UInt8} {base : Nat} (h : (base = 55 ∧ (65 ≤ c && c ≤ 70) = true) ∨ (base = 87 ∧ (97 ≤ c && c ≤ 102) = true)) :
    Digit c (c.toNat - base) ∧ c.toNat - base < 16 ∧ base ≤ c.toNat := by
  simp only [Bool.and_eq_true, decide_eq_true_eq, UInt8.le_iff_toNat_le] at h
  have e1 : (65 : UInt8).toNat = 65 := rfl
  have e2 : (70 : UInt8).toNat = 70 := rfl
  have e3 : (97 : UInt8).toNat = 97 := rfl
  have e4 : (102 : UInt8).toNat = 102 := rfl
  rcases h with ⟨rfl, h⟩ | ⟨rfl, h⟩
  · refine ⟨?_, by omega, by omega⟩
    have := Digit.upper (c.toNat - 65) (by omega)
    rwa [show 65 + (c.toNat - 65) = c.toNat by omega, UInt8.ofNat_toNat, show 10 + (c.toNat - 65) = c.toNat - 55 by omega] at this
  · refine ⟨?_, by omega, by omega⟩
    have := Digit.lower (c.toNat - 97) (by omega)
    rwa [show 97 + (c.toNat - 97) = c.toNat by omega, UInt8.ofNat_toNat, show 10 + (c.toNat - 97) = c.toNat - 87 by omega] at this

theorem hexLoop_inv : ∀ (s : Str) (r : Nat) (v : Int), hexLoop r s = .ok (some v) →
    ∃ ds, List.Forall₂ Digit s ds ∧ (∀ d ∈ ds, d < 16) ∧ v = ((ds.foldl (fun v d : Nat => v * 16 + d) r : Nat) : Int) := by
  intro s
  induction s with
  | nil =>
    intro r v h
    rw [hexLoop] at h
    exact ⟨[], .nil, by simp, (Option.some.inj (Res.ok.inj h)).symm⟩
  | cons c s ih =>
    intro r v h
    have key : ∀ base : Nat, Digit c (c.toNat - base) → c.toNat - base < 16 → base ≤ c.toNat →
        (more 16 r c base).bind (fun r => hexLoop r s) = .ok (some v) →
        ∃ ds, List.Forall₂ Digit (c :: s) ds ∧ (∀ d ∈ ds, d < 16) ∧ v = ((ds.foldl (fun v d : Nat => v * 16 + d) r : Nat) : Int) := by
      intro base g1 g2 g3 h
      obtain ⟨r', h1, h2⟩ := Res.bind_eq_ok.mp h
      have e := more_val h1
      have e' : r' = ((r * 16 + (c.toNat - base) : Nat) : Int) := by rw [e]; push_cast [g3]; ring
      rw [e'] at h2
      obtain ⟨ds, i1, i2, i3⟩ := ih _ _ h2
      refine ⟨(c.toNat - base) :: ds, .cons g1 i1, ?_, i3⟩
      intro d hd
      rcases List.mem_cons.mp hd with rfl | hd
      · exact g2
      · exact i2 d hd
    rw [hexLoop] at h
    split at h
    · rename_i hc
      obtain ⟨g1, g2, g3⟩ := dec_digit hc
      exact key 48 g1 (by omega) g3 h
    · split at h
      · rename_i hc
        obtain ⟨g1, g2, g3⟩ := hex_digit (base := 55) (.inl ⟨rfl, hc⟩)
        exact key 55 g1 g2 g3 h
      · split at h
        · rename_i hc
          obtain ⟨g1, g2, g3⟩ := hex_digit (base := 87) (.inr ⟨rfl, hc⟩)
          exact key 87 g1 g2 g3 h
        · cases h

/-- what StrToInt64 takes for a number: digits may be missing -/
inductive Read : Str → Int → Prop
  | empty : Read [] 0
  | minus : Read [45] 0
  | dollar : Read [36] 0
  | dec {s n} : Numeral 10 s n → Read s n
  | neg {s n} : Numeral 10 s n → Read (45 :: s) (-n)
  | hex {s n} : Numeral 16 s n → Read (36 :: s) n

/-- A result other than the smallest int64 comes from the text of that number. -/
theorem C78_sound {s : Str} {v : Int} (h : strToInt64 s = .ok v) (hv : v ≠ i64Min) : ∃ k t, s = List.replicate k 32 ++ t ∧ Read t v := by
  obtain ⟨k, t, rfl, ht⟩ := ValInt.blanks s
  refine ⟨k, t, rfl, ?_⟩
  unfold strToInt64 at h
  dsimp only at h
  rw [dropBlanks _ _ ht] at h
  have dec : ∀ (u : Str) (w : Int), decLoop 0 u = .ok (some w) → (u = [] ∧ w = 0) ∨ ∃ n : Nat, w = n ∧ Numeral 10 u n := by
    intro u w hu
    obtain ⟨ds, i1, i2, i3⟩ := decLoop_inv u 0 w hu
    cases i1 with
    | nil => exact .inl ⟨rfl, by simpa using i3⟩
    | cons hc hs => exact .inr ⟨_, i3, by simp, _, .cons hc hs, i2, by rw [foldl_ofDigits]; simp⟩
  by_cases h36 : t.head? = some 36
  · obtain ⟨u, rfl⟩ : ∃ u, t = 36 :: u := by
      cases t with
      | nil => cases h36
      | cons c u => exact ⟨u, by rw [List.head?_cons, Option.some.injEq] at h36; rw [h36]⟩
    have e1 : ((36 :: u).head? == some 45) = false := rfl
    have e2 : ((36 :: u).head? == some 36) = true := rfl
    rw [e1, e2] at h
    simp only [Bool.false_or, Bool.false_eq_true, if_false, if_true, List.tail_cons] at h
    obtain ⟨o, h1, h2⟩ := Res.bind_eq_ok.mp h
    cases o with
    | none => exact absurd (Res.ok.inj h2).symm hv
    | some w =>
      have e : w = v := Res.ok.inj h2
      subst e
      obtain ⟨ds, i1, i2, i3⟩ := hexLoop_inv u 0 w h1
      cases i1 with
      | nil =>
        rw [i3]
        exact .dollar
      | cons hc hs =>
        rw [i3]
        exact .hex ⟨by simp, _, .cons hc hs, i2, by rw [foldl_ofDigits]; simp⟩
  · by_cases h45 : t.head? = some 45
    · obtain ⟨u, rfl⟩ : ∃ u, t = 45 :: u := by
        cases t with
        | nil => cases h45
        | cons c u => exact ⟨u, by rw [List.head?_cons, Option.some.injEq] at h45; rw [h45]⟩
      have e1 : ((45 :: u).head? == some 45) = true := rfl
      have e2 : ((45 :: u).head? == some 36) = false := rfl
      rw [e1, e2] at h
      simp only [Bool.true_or, Bool.false_eq_true, if_false, if_true, List.tail_cons] at h
      obtain ⟨o, h1, h2⟩ := Res.bind_eq_ok.mp h
      cases o with
      | none => exact absurd (Res.ok.inj h2).symm hv
      | some w =>
        have e : -w = v := Res.ok.inj h2
        subst e
        rcases dec u w h1 with ⟨rfl, rfl⟩ | ⟨n, rfl, hn⟩
        · exact .minus
        · exact .neg hn
    · rw [beq_false_of_ne h45, beq_false_of_ne h36] at h
      simp only [Bool.false_or, Bool.false_eq_true, if_false] at h
      obtain ⟨o, h1, h2⟩ := Res.bind_eq_ok.mp h
      cases o with
      | none => exact absurd (Res.ok.inj h2).symm hv
      | some w =>
        have e : w = v := Res.ok.inj h2
        subst e
        rcases dec t w h1 with ⟨rfl, rfl⟩ | ⟨n, rfl, hn⟩
        · exact .empty
        · exact .dec hn

/-- The same for StrToInt: the result is an int; it is the smallest int or comes from the text of that number. -/
theorem C78_int_sound {s : Str} {v : Int} (h : strToInt s = .ok v) : ValInt.InInt v ∧ (v ≠ -2147483648 → ∃ k t, s = List.replicate k 32 ++ t ∧ Read t v) := by
  unfold strToInt at h
  obtain ⟨r, h1, h2⟩ := Res.bind_eq_ok.mp h
  rw [Res.pure_eq] at h2
  injection h2 with h2
  unfold ValInt.InInt
  split at h2
  · subst h2
    exact ⟨by omega, fun hc => absurd rfl hc⟩
  · subst h2
    exact ⟨by omega, fun _ => C78_sound h1 (by unfold i64Min; omega)⟩

/-! ### hexadecimal numbers -/

/-- a hexadecimal digit without small letters -/
def Big (c : UInt8) : Prop := (48 ≤ c.toNat ∧ c.toNat ≤ 57) ∨ (65 ≤ c.toNat ∧ c.toNat ≤ 70)

theorem hexDigit_ok {d : Nat} (h : d < 16) : Digit (hexDigit d) d ∧ Big (hexDigit d) := by
  unfold hexDigit
  by_cases h1 : d < 10
  · rw [if_pos (by omega), Int.toNat_natCast]
    refine ⟨.dec d h1, .inl ?_⟩
    rw [UInt8.toNat_ofNat_of_lt' (by show _ < 256; omega)]
    omega
  · rw [if_neg (by omega), Int.toNat_natCast]
    have e : 55 + d = 65 + (d - 10) := by omega
    constructor
    · have := Digit.upper (d - 10) (by omega)
      rwa [← e, show 10 + (d - 10) = d by omega] at this
    · right
      rw [UInt8.toNat_ofNat_of_lt' (by show _ < 256; omega)]
      omega

theorem hexPush_eq (w : Int) (hw : w ≤ 32) : ∀ (i v : Nat) (acc : Str), v < 16 ^ (i + 1) → ∃ s, hexPush w (i + 2) i v acc = .ok (s ++ acc) ∧
    Numeral 16 s v ∧ (∀ c ∈ s, Big c) ∧ (s.length : Int) = max (max 1 (w + i - 32)) ((Nat.digits 16 v).length : Int) := by
  intro i
  induction i with
  | zero =>
    intro v acc h
    rw [hexPush, if_neg (by omega)]
    dsimp only
    rw [if_neg (by omega)]
    have e : ((v : Int) % 16) = ((v : Nat) : Int) := by omega
    rw [e]
    obtain ⟨h1, h2⟩ := hexDigit_ok (d := v) (by omega)
    refine ⟨[hexDigit v], rfl, ⟨by simp, [v], .cons h1 .nil, by simp; omega, by simp⟩, by simpa using h2, ?_⟩
    have : (Nat.digits 16 v).length ≤ 1 := by
      by_cases h0 : v = 0
      · subst h0; simp
      · rw [Nat.digits_of_lt 16 v h0 (by omega)]; simp
    simp only [List.length_singleton]
    omega
  | succ i ih =>
    intro v acc h
    have e : ((v : Int) % 16) = ((v % 16 : Nat) : Int) := by omega
    have e2 : ((v : Int) / 16) = ((v / 16 : Nat) : Int) := by omega
    have e3 : (((i + 1 : Nat) : Int) - 1) = (i : Int) := by omega
    obtain ⟨h1, h2⟩ := hexDigit_ok (d := v % 16) (by omega)
    rw [show i + 1 + 2 = (i + 2) + 1 by omega, hexPush, if_neg (by omega)]
    dsimp only
    rw [e, e2, e3]
    split
    · rename_i hc
      obtain ⟨s, i1, ⟨_, ds, i2, i3, i4⟩, i5, i6⟩ := ih (v / 16) (hexDigit (v % 16 : Nat) :: acc) (by rw [pow_succ] at h; omega)
      refine ⟨s ++ [hexDigit (v % 16 : Nat)], by rw [i1]; simp, ⟨by simp, ds ++ [v % 16], List.rel_append i2 (.cons h1 .nil), ?_, ?_⟩, ?_, ?_⟩
      · intro d hd
        rcases List.mem_append.mp hd with hd | hd
        · exact i3 d hd
        · rw [List.mem_singleton.mp hd]
          omega
      · rw [List.reverse_append, List.reverse_singleton, List.singleton_append, Nat.ofDigits_cons, ← i4]
        omega
      · intro c hd
        rcases List.mem_append.mp hd with hd | hd
        · exact i5 c hd
        · rw [List.mem_singleton.mp hd]
          exact h2
      · rw [List.length_append, List.length_singleton, Nat.cast_add, i6]
        have hd : (Nat.digits 16 v).length = if v = 0 then 0 else (Nat.digits 16 (v / 16)).length + 1 := by
          split
          · rename_i h0; rw [h0]; rfl
          · rename_i h0
            rw [Nat.digits_def' (by norm_num) (by omega)]
            rfl
        have hd0 : v / 16 = 0 → (Nat.digits 16 (v / 16)).length = 0 := by intro h0; rw [h0]; rfl
        have hd1 : v / 16 ≠ 0 → 1 ≤ (Nat.digits 16 (v / 16)).length := by
          intro h0
          have := Nat.digits_ne_nil_iff_ne_zero (b := 16) |>.mpr h0
          exact List.length_pos_of_ne_nil this
        generalize (Nat.digits 16 (v / 16)).length = L at *
        generalize (Nat.digits 16 v).length = M at *
        split at hd <;> push_cast <;> by_cases hz : v / 16 = 0
        · have := hd0 hz; omega
        · omega
        · have := hd0 hz; omega
        · have := hd1 hz; omega
    · rename_i hc
      refine ⟨[hexDigit (v % 16 : Nat)], rfl, ⟨by simp, [v % 16], .cons h1 .nil, by simp; omega, by simp; omega⟩, by simpa using h2, ?_⟩
      have : (Nat.digits 16 v).length ≤ 1 := by
        by_cases h0 : v = 0
        · subst h0; simp
        · rw [Nat.digits_of_lt 16 v h0 (by omega)]; simp
      simp only [List.length_singleton]
      omega

/-- IntToHex of a number that is not negative: its hexadecimal digits, with capital letters. There are zeros in front of it up to one place
    less than the width. -/
theorem C78_hex_partial {v w : Int} (h0 : 0 ≤ v) (hv : I64 v) : ∃ s, intToHex v w = .ok s ∧ Numeral 16 s v.toNat ∧ (∀ c ∈ s, Big c) ∧
    (s.length : Int) = max (max 1 ((if 32 < w then 0 else w) - 1)) ((Nat.digits 16 v.toNat).length : Int) := by
  unfold I64 at hv
  obtain ⟨n, rfl⟩ := Int.eq_ofNat_of_zero_le h0
  obtain ⟨s, h1, h2, h3, h4⟩ := hexPush_eq (if 32 < w then 0 else w) (by split <;> omega) 31 n [] (by norm_num; omega)
  rw [List.append_nil] at h1
  refine ⟨s, h1, by rwa [Int.toNat_natCast], h3, ?_⟩
  rw [Int.toNat_natCast, h4]
  congr 2
  push_cast
  ring

/-- A field of four places has three. -/
theorem C78_hex_width : intToHex 1 4 = .ok (DiffOpts.str "001") := by decide +kernel

theorem hexPush_neg (w : Int) : ∀ (f : Nat) (i v : Int) (acc : Str), v < 0 → i < f → hexPush w f i v acc = .ub := by
  intro f
  induction f with
  | zero => intro i v acc _ _; rfl
  | succ f ih =>
    intro i v acc hv hi
    rw [hexPush]
    split
    · rfl
    · dsimp only
      rw [if_pos (.inl (by omega))]
      exact ih _ _ _ (by omega) (by omega)

/-- With a negative number the loop does not end before it writes outside of the array. -/
theorem C78_hex_negative {v w : Int} (h : v < 0) : intToHex v w = .ub := hexPush_neg _ _ _ _ _ h (by norm_num)

/-! ### groups of three digits -/

/-- commas when `k` digits have been written since the last one -/
def grp : Nat → Str → Str
  | _, [] => []
  | _, [c] => [c]
  | k, c :: d :: r => if k = 2 then c :: 44 :: grp 0 (d :: r) else c :: grp (k + 1) (d :: r)

theorem grp_group3 : ∀ (s : Str), grp 0 s = group3 s
  | [] => rfl
  | [_] => rfl
  | [_, _] => rfl
  | [_, _, _] => rfl
  | a :: b :: c :: d :: r => by
    rw [group3, ← grp_group3 (d :: r)]
    rfl

theorem niceLoop_eq : ∀ (f m k : Nat) (acc : Str), m < 10 ^ (f + 1) → k ≤ 2 →
    niceLoop (f + 1) (-(m : Int)) k acc = .ok ((grp k (digits (f + 1) m).reverse).reverse ++ acc) := by
  intro f
  induction f with
  | zero =>
    intro m k acc h hk
    rw [niceLoop, neg_tdiv, negDigit_eq, digits_step, if_pos (show m / 10 = 0 by omega)]
    have e : ((m / 10 : Nat) : Int) = 0 := by omega
    rw [e]
    by_cases hk2 : k + 1 = 3
    · simp [hk2, grp]
    · simp [hk2, grp]
  | succ f ih =>
    intro m k acc h hk
    rw [niceLoop, neg_tdiv, negDigit_eq, digits_step]
    by_cases hm : m / 10 = 0
    · rw [if_pos hm]
      have e : ((m / 10 : Nat) : Int) = 0 := by omega
      rw [e]
      by_cases hk2 : k + 1 = 3
      · simp [hk2, grp]
      · simp [hk2, grp]
    · rw [if_neg hm]
      have hne : -((m / 10 : Nat) : Int) ≠ 0 := by omega
      have hlt : m / 10 < 10 ^ (f + 1) := by rw [pow_succ] at h; omega
      rw [List.reverse_append, List.reverse_singleton, List.singleton_append]
      obtain ⟨d, r, hd⟩ : ∃ d r, (digits (f + 1) (m / 10)).reverse = d :: r := List.exists_cons_of_ne_nil (by simpa using digits_ne f (m / 10))
      by_cases hk2 : k + 1 = 3
      · have e2 : k = 2 := by omega
        subst e2
        simp only [if_true, if_pos hne]
        rw [ih _ _ _ hlt (by omega), hd, grp, if_pos rfl]
        simp
      · simp only [if_neg hk2, if_pos hne]
        rw [ih _ _ _ hlt (by omega), hd, grp, if_neg (by omega)]
        simp

/-- IntToNiceStrW: the digits in groups of three behind the sign, blanks in front of it up to the width. -/
theorem C78_nice {n : Int} (w : Int) (h : I64 n) : ∃ t s, IsIntStr t n ∧ niceStr n w = .ok s ∧
    ∃ k : Nat, s = List.replicate k 32 ++ (if n < 0 then 45 :: thousands t.tail else thousands t) ∧
      (k : Int) = max 0 (min w 255 - (if n < 0 then 45 :: thousands t.tail else thousands t).length) := by
  have hb := i64_bounds h
  have hb' : n.natAbs < 10 ^ (254 + 1) := lt_of_lt_of_le hb (Nat.pow_le_pow_right (by norm_num) (by norm_num))
  have e : (if 0 < n then -n else n) = -(n.natAbs : Int) := by split <;> omega
  obtain ⟨t, h1, h2⟩ := C78_str h
  rw [intToStr_eq h] at h1
  have ht := (Res.ok.inj h1).symm
  have key : (if n < 0 then 45 :: thousands t.tail else thousands t) =
      (if n < 0 then 45 :: (grp 0 (digits 255 n.natAbs).reverse).reverse else (grp 0 (digits 255 n.natAbs).reverse).reverse) := by
    rw [ht]
    unfold Gdx.intToStr thousands
    rw [digits_fuel 254 19 _ hb' hb]
    split <;> simp only [List.tail_cons, grp_group3]
  refine ⟨t, ?_⟩
  unfold niceStr
  rw [e, niceLoop_eq 254 _ 0 [] hb' (by omega), Res.bind_ok, List.append_nil]
  dsimp only
  rw [← key]
  generalize (if n < 0 then 45 :: thousands t.tail else thousands t) = u
  split
  · exact ⟨u, h2, rfl, 0, rfl, by omega⟩
  · exact ⟨_, h2, rfl, _, rfl, by omega⟩

example : niceStr (-1234567) 12 = .ok (DiffOpts.str "  -1,234,567") := by decide +kernel

/-! ### IntegerWidth -/

theorem widthLoop_eq : ∀ (f n r : Nat), n < 10 ^ (f + 1) → widthLoop (f + 1) n r = .ok (r + (digits (f + 1) n).length) := by
  intro f
  induction f with
  | zero =>
    intro n r h
    rw [widthLoop, Int.tdiv_eq_ediv_of_nonneg (by omega), if_pos (by omega), digits_step, if_pos (by omega)]
    rfl
  | succ f ih =>
    intro n r h
    rw [widthLoop, Int.tdiv_eq_ediv_of_nonneg (by omega), digits_step]
    by_cases hn : n / 10 = 0
    · rw [if_pos (by omega), if_pos hn]
      rfl
    · rw [if_neg (by omega), if_neg hn, show (n : Int) / 10 = ((n / 10 : Nat) : Int) by omega, ih _ _ (by rw [pow_succ] at h; omega)]
      rw [List.length_append, List.length_singleton]
      congr 1
      omega

/-- IntegerWidth is the length of the text of the number, except for the smallest int. -/
theorem C78_width_partial {n : Int} (h : ValInt.InInt n) (hn : n ≠ -2147483648) : ∃ s, intToStr n = .ok s ∧ intWidth n = .ok s.length := by
  unfold ValInt.InInt at h
  refine ⟨_, intToStr_eq (by unfold I64; omega), ?_⟩
  have hf : digits 20 n.natAbs = digits 11 n.natAbs := digits_fuel 19 10 _ (by norm_num; omega) (by norm_num; omega)
  unfold intWidth Gdx.intToStr
  by_cases h0 : 0 ≤ n
  · rw [if_pos h0, if_neg (by omega), show n = ((n.natAbs : Nat) : Int) by omega, widthLoop_eq 10 _ _ (by norm_num; omega), Int.natAbs_natCast, hf, Nat.zero_add]
  · rw [if_neg h0, if_neg hn, if_pos (by omega), show -n = ((n.natAbs : Nat) : Int) by omega, widthLoop_eq 10 _ _ (by norm_num; omega), hf,
      List.length_cons, Nat.add_comm]

theorem C78_width_min : intWidth (-2147483648) = .ub := by decide +kernel

/-! ### columns of a spreadsheet -/

theorem letter_up {c : UInt8} {l : Nat} (h : Letter c l) : (upChar c).toNat = 65 + l := by
  obtain ⟨h1, rfl | rfl⟩ := h <;> interval_cases l <;> rfl

theorem col_ge : ∀ (ls : List Nat) (r : Nat), r ≤ ls.foldl (fun v l : Nat => 26 * v + (l + 1)) r := by
  intro ls
  induction ls with
  | nil => intro r; simp
  | cons l ls ih =>
    intro r
    rw [List.foldl_cons]
    have := ih (26 * r + (l + 1))
    omega

theorem excelCol_eq : ∀ (s : Str) (ls : List Nat) (r : Nat), List.Forall₂ Letter s ls → ls.foldl (fun v l : Nat => 26 * v + (l + 1)) r ≤ 2147483647 →
    excelCol r s = .ok ((ls.foldl (fun v l : Nat => 26 * v + (l + 1)) r : Nat) : Int) := by
  intro s ls r h
  induction h generalizing r with
  | nil => intro _; rfl
  | @cons c l s ls hc hs ih =>
    intro hm
    have hu := letter_up hc
    have hl := hc.1
    rw [List.foldl_cons] at hm
    have hge := col_ge ls (26 * r + (l + 1))
    rw [excelCol]
    have e1 : (65 : UInt8).toNat = 65 := rfl
    have e2 : (90 : UInt8).toNat = 90 := rfl
    rw [if_neg (by simp only [UInt8.lt_iff_toNat_lt]; omega)]
    dsimp only
    rw [if_neg (by omega), hu, show ((r : Int) * 26 + (((65 + l : Nat) : Int) - 65) + 1) = ((26 * r + (l + 1) : Nat) : Int) by push_cast; ring, ih _ hm]
    rfl

/-- StrExcelCol: the letters of a column give its number, if that is an int. -/
theorem C78_col {s : Str} {ls : List Nat} (h : List.Forall₂ Letter s ls) (hn : colNumber ls ≤ 2147483647) : strExcelCol s = .ok (colNumber ls) :=
  excelCol_eq s ls 0 h hn

/-- Another character than a letter: 0. -/
theorem C78_col_none {s t : Str} {c : UInt8} {ls : List Nat} (h : List.Forall₂ Letter s ls) (hn : colNumber ls ≤ 2147483647) (hc : ∀ l, ¬Letter c l) :
    strExcelCol (s ++ c :: t) = .ok 0 := by
  have up : upChar c < 65 ∨ 90 < upChar c := by
    by_contra hh
    rw [not_or, UInt8.lt_iff_toNat_lt, UInt8.lt_iff_toNat_lt] at hh
    have e1 : (65 : UInt8).toNat = 65 := rfl
    have e2 : (90 : UInt8).toNat = 90 := rfl
    unfold upChar at hh
    split at hh
    · rename_i hl
      simp only [Bool.and_eq_true, decide_eq_true_eq, UInt8.le_iff_toNat_le] at hl
      have e3 : (97 : UInt8).toNat = 97 := rfl
      have e4 : (122 : UInt8).toNat = 122 := rfl
      refine hc (c.toNat - 97) ⟨by omega, .inr ?_⟩
      rw [show 97 + (c.toNat - 97) = c.toNat by omega, UInt8.ofNat_toNat]
    · refine hc (c.toNat - 65) ⟨by omega, .inl ?_⟩
      rw [show 65 + (c.toNat - 65) = c.toNat by omega, UInt8.ofNat_toNat]
  have gen : ∀ (s : Str) (ls : List Nat) (r : Nat), List.Forall₂ Letter s ls → ls.foldl (fun v l : Nat => 26 * v + (l + 1)) r ≤ 2147483647 →
      excelCol r (s ++ c :: t) = .ok 0 := by
    intro s ls r h
    induction h generalizing r with
    | nil =>
      intro _
      rw [List.nil_append, excelCol, if_pos (by tauto)]
    | @cons c' l s ls hc' hs ih =>
      intro hm
      have hu := letter_up hc'
      have hl := hc'.1
      rw [List.foldl_cons] at hm
      have hge := col_ge ls (26 * r + (l + 1))
      rw [List.cons_append, excelCol]
      have e1 : (65 : UInt8).toNat = 65 := rfl
      have e2 : (90 : UInt8).toNat = 90 := rfl
      rw [if_neg (by simp only [UInt8.lt_iff_toNat_lt]; omega)]
      dsimp only
      rw [if_neg (by omega), hu, show ((r : Int) * 26 + (((65 + l : Nat) : Int) - 65) + 1) = ((26 * r + (l + 1) : Nat) : Int) by push_cast; ring, ih _ hm]
  exact gen s ls 0 h hn

/-- The test for numbers that are too large comes too late: the column after 2147483647 is undefined behavior. -/
theorem C78_col_overflow : strExcelCol (DiffOpts.str "FXSHRXW") = .ok 2147483647 ∧ strExcelCol (DiffOpts.str "FXSHRXX") = .ub := by decide +kernel

theorem colLoop_eq : ∀ (f c : Nat), c < 26 ^ f → ∃ s ls, colLoop (f + 1) c = .ok s ∧ List.Forall₂ Letter s ls ∧
    colNumber ls.reverse = c := by
  intro f
  induction f with
  | zero =>
    intro c h
    have : c = 0 := by simpa using h
    subst this
    exact ⟨[], [], rfl, .nil, rfl⟩
  | succ f ih =>
    intro c h
    by_cases h0 : c = 0
    · subst h0
      exact ⟨[], [], rfl, .nil, rfl⟩
    · have e1 : ((c : Int) - 1).tdiv 26 = (((c - 1) / 26 : Nat) : Int) := by rw [Int.tdiv_eq_ediv_of_nonneg (by omega)]; omega
      have e2 : (((c : Int) - 1).tmod 26).toNat = (c - 1) % 26 := by rw [Int.tmod_eq_emod_of_nonneg (by omega)]; omega
      obtain ⟨s, ls, h1, h2, h3⟩ := ih ((c - 1) / 26) (by rw [pow_succ] at h; omega)
      refine ⟨UInt8.ofNat (65 + (c - 1) % 26) :: s, (c - 1) % 26 :: ls, ?_, .cons ⟨Nat.mod_lt _ (by norm_num), .inl rfl⟩ h2, ?_⟩
      · rw [colLoop, if_neg (by omega), e1, e2, h1]
        rfl
      · unfold colNumber at *
        rw [List.reverse_cons, List.foldl_append, h3]
        simp only [List.foldl_cons, List.foldl_nil]
        omega

/-- ExcelColStr: the letters of the column in reverse order. -/
theorem C78_excel_partial {c : Int} (h0 : 0 < c) (h : c ≤ 2147483647) : ∃ s ls, excelColStr c = .ok s ∧ List.Forall₂ Letter s ls ∧
    (colNumber ls.reverse : Int) = c ∧ strExcelCol s.reverse = .ok c := by
  obtain ⟨n, rfl⟩ := Int.eq_ofNat_of_zero_le h0.le
  obtain ⟨s, ls, h1, h2, h3⟩ := colLoop_eq 7 n (by norm_num; omega)
  refine ⟨s, ls, ?_, h2, by rw [h3], ?_⟩
  · unfold excelColStr
    rw [if_neg (by omega)]
    exact h1
  · rw [C78_col (List.forall₂_reverse_iff.mpr h2) (by rw [h3]; omega), h3]

/-- So the text of column 28 is the one of column 53: "BA". -/
theorem C78_excel : excelColStr 28 = .ok (DiffOpts.str "BA") ∧ strExcelCol (DiffOpts.str "BA") = .ok 53 := by decide +kernel

#print axioms C78_str
#print axioms C78_value_partial
#print axioms C78_dollar_partial
#print axioms C78_back_partial
#print axioms C78_max
#print axioms C78_limit
#print axioms C78_min
#print axioms C78_int
#print axioms C78_val
#print axioms C78_sound
#print axioms C78_int_sound
#print axioms C78_hex_partial
#print axioms C78_hex_width
#print axioms C78_hex_negative
#print axioms C78_nice
#print axioms C78_width_partial
#print axioms C78_width_min
#print axioms C78_col
#print axioms C78_col_none
#print axioms C78_col_overflow
#print axioms C78_excel_partial
#print axioms C78_excel

end Gdx.IntText
