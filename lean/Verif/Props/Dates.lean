import Verif.Proofs.Dates
import Verif.Spec.ValInt
import Verif.Model.DiffOpts

/-!
**C77** Dates are converted without loss: the number of a day is that of the calendar, decoding a number gives the day it was made
from, and the time that gdxmerge writes beside the name of an input file is the time of the file.
-/

namespace Gdx.Props
open Gdx Spec Dates

/-- the number DateDelta of the code -/
theorem C77_zero : dayZero = 693594 := by
  have := dayNumber_eq 1899 12 30 (by decide)
  have e : before (isLeap 1899) 12 = 334 := by decide
  rw [dayZero]
  omega

/-- tryEncodeDate: the number of the day, for exactly the days of the years 1 to 9999 -/
theorem C77_try (y m d : Nat) : tryEncodeDate y m d = if IsDate y m d ∧ y ≤ 9999 then some ((dayNumber y m d : Int) - dayZero) else none := by
  rw [C77_zero]
  by_cases h : IsDate y m d ∧ y ≤ 9999
  · rw [if_pos h]
    obtain ⟨⟨h1, h2, h3, h4, h5⟩, h6⟩ := h
    unfold tryEncodeDate
    dsimp only
    rw [if_pos ⟨h1, h6, h2, h3, h4, by rw [monthDays_eq y m h2 h3]; exact h5⟩]
    have hd : d ≤ 31 := by
      refine le_trans h5 ?_
      unfold monthDays
      split <;> [split; split] <;> omega
    have hb := before_le (isLeap y) m
    have he := dayNumber_eq y m d h3
    rw [foldl_u16 _ _ (by unfold before at hb; omega)]
    unfold before at he
    congr 1
    have e1 : ((y : Int) - 1) = ((y - 1 : Nat) : Int) := by omega
    rw [e1, Int.tdiv_eq_ediv_of_nonneg (by omega), Int.tdiv_eq_ediv_of_nonneg (by omega), Int.tdiv_eq_ediv_of_nonneg (by omega)]
    push_cast
    omega
  · rw [if_neg h]
    unfold tryEncodeDate
    dsimp only
    rw [if_neg]
    rintro ⟨h1, h6, h2, h3, h4, h5⟩
    rw [monthDays_eq y m h2 h3] at h5
    exact h ⟨⟨h1, h2, h3, h4, h5⟩, h6⟩

/-- EncodeDate gives the number of the day from March 1600 on -/
theorem C77_encode {y m d : Nat} (h : IsDate y m d) (hy : y ≤ 65535) (h0 : 1600 < y ∨ y = 1600 ∧ 3 ≤ m) :
    encodeDate y m d = (dayNumber y m d : Int) - dayZero := by
  rw [C77_zero]
  obtain ⟨h1, h2, h3, h4, h5⟩ := h
  have he := dayNumber_eq y m d h3
  unfold encodeDate
  rw [if_neg (by omega)]
  by_cases hm : 2 < m
  · rw [if_pos hm]
    dsimp only
    rw [Int.tdiv_eq_ediv_of_nonneg (a := (y : Int) - 1600) (by omega), Int.tmod_eq_emod_of_nonneg (by omega),
      Int.tdiv_eq_ediv_of_nonneg (by omega), Int.tdiv_eq_ediv_of_nonneg (by omega), Int.tdiv_eq_ediv_of_nonneg (by omega), march _ (by omega)]
    have e1 := before_march (isLeap y) m (by omega) h3
    have e2 := leaps y (by omega)
    generalize hc : (if isLeap y = true then 1 else 0 : Int) = c at e1 e2
    generalize (153 * ((m - 3 : Nat) : Int) + 2) / 5 = q at e1 ⊢
    omega
  · rw [if_neg hm]
    dsimp only
    have e1 : u16 ((y : Int) - 1) = y - 1 := by unfold u16; omega
    have e2 : u16 ((m : Int) + 9) = m + 9 := by unfold u16; omega
    rw [e1, e2]
    have e3 : ((y - 1 : Nat) : Int) - 1600 = (y : Int) - 1601 := by omega
    rw [e3, Int.tdiv_eq_ediv_of_nonneg (a := (y : Int) - 1601) (by omega), Int.tmod_eq_emod_of_nonneg (by omega),
      Int.tdiv_eq_ediv_of_nonneg (by omega), Int.tdiv_eq_ediv_of_nonneg (by omega), Int.tdiv_eq_ediv_of_nonneg (by omega), march _ (by omega)]
    have hb : before (isLeap y) m = if m = 2 then 31 else 0 := by
      rcases (by omega : m = 1 ∨ m = 2) with rfl | rfl <;> cases isLeap y <;> rfl
    rw [hb] at he
    rcases (by omega : m = 1 ∨ m = 2) with rfl | rfl <;> norm_num at he ⊢ <;> omega

/-- decoding gives the day back, for every day of the years 1 to 65535, and the day of the week (1 is Sunday) -/
theorem C77_decode {y m d : Nat} (h : IsDate y m d) (hy : y ≤ 65535) :
    decodeDays ((dayNumber y m d : Int) - dayZero + 693594) = .ok (y, m, d, dayNumber y m d % 7 + 1) := by
  rw [C77_zero, show (dayNumber y m d : Int) - (693594 : Nat) + 693594 = dayNumber y m d by omega]
  exact decodeDays_eq h hy

theorem dayNumber_pos {y m d : Nat} (h : IsDate y m d) (h0 : 1900 ≤ y) (hy : y ≤ 65535) :
    ∃ D : Nat, (dayNumber y m d : Int) - dayZero = D ∧ D < 33554431 := by
  obtain ⟨h1, h2, h3, h4, h5⟩ := h
  have he := dayNumber_eq y m d h3
  have hb := before_le (isLeap y) m
  have hd : d ≤ 31 := by
    refine le_trans h5 ?_
    unfold monthDays
    split <;> [split; split] <;> omega
  rw [C77_zero]
  exact ⟨dayNumber y m d - 693594, by omega, by omega⟩

theorem encodeTime_eq {h mi s ms : Nat} (hh : h < 24) (hm : mi < 60) (hs : s ≤ 60) (hms : ms < 1000) :
    encodeTime h mi s ms = .ok (FV.divPos (.fin ((h * 3600000 + mi * 60000 + s * 1000 + ms : Nat) : ℚ)) (.fin 86400000)) := by
  unfold encodeTime
  rw [if_neg (by omega)]

/-- A date from 1900 on with a time: EncodeDate + EncodeTime is decoded to the same date and the same time, to the millisecond, although
    the sum is rounded. -/
theorem C77_time {y m d h mi s ms : Nat} (hd : IsDate y m d) (h0 : 1900 ≤ y) (hy : y ≤ 65535) (hh : h < 24) (hm : mi < 60) (hs : s < 60)
    (hms : ms < 1000) : ∃ x, encodeTime h mi s ms = .ok x ∧
      decodeDate (FV.add (.fin (encodeDate y m d)) x) = .ok (y, m, d) ∧
      decodeTime (FV.add (.fin (encodeDate y m d)) x) = .ok (h, mi, s, ms) := by
  obtain ⟨D, hD, hD1⟩ := dayNumber_pos hd h0 hy
  refine ⟨_, encodeTime_eq hh hm (by omega) hms, ?_⟩
  have ht := timeStamp_eq D (h * 3600000 + mi * 60000 + s * 1000 + ms) hD1 (by omega)
  have e1 : encodeDate y m d = D := by rw [C77_encode hd hy (by omega), hD]
  have e2 := C77_decode hd hy
  rw [hD] at e2
  rw [e1, Int.cast_natCast]
  constructor
  · unfold decodeDate
    rw [ht, Res.bind_ok]
    dsimp only
    rw [e2]
    rfl
  · unfold decodeTime
    rw [ht, Res.bind_ok]
    dsimp only
    have f1 := divMod_add (h * 60 + mi) (s * 1000 + ms) 60000 (by omega) (by norm_num) (by omega)
    have f2 := divMod_add h mi 60 (by omega) (by norm_num) hm
    have f3 := divMod_add s ms 1000 (by omega) (by norm_num) hms
    rw [show 60000 * (h * 60 + mi) + (s * 1000 + ms) = h * 3600000 + mi * 60000 + s * 1000 + ms by ring] at f1
    rw [show 60 * h + mi = h * 60 + mi by ring] at f2
    rw [show 1000 * s + ms = s * 1000 + ms by ring] at f3
    rw [f1]
    dsimp only
    rw [f2, f3]
    rfl

/-- a time of a file that the calendar has -/
def GoodTm (t : Tm) : Prop := IsDate t.year t.month t.day ∧ 1900 ≤ t.year ∧ t.year ≤ 65535 ∧ t.hour < 24 ∧ t.min < 60 ∧ t.sec < 60

/-- a decimal number with two digits at least -/
def TwoDigits (s : Str) (n : Nat) : Prop := 2 ≤ s.length ∧ ValInt.Numeral 10 s n

theorem digits_numeral : ∀ (f n : Nat), n < 10 ^ (f + 1) → ValInt.Numeral 10 (digits (f + 1) n) n := by
  intro f
  induction f with
  | zero =>
    intro n h
    rw [digits, if_pos (by omega)]
    exact ⟨by simp, [n], .cons (.dec n (by omega)) .nil, by simpa using h, by simp⟩
  | succ f ih =>
    intro n h
    rw [digits]
    split
    · rename_i hn
      exact ⟨by simp, [n], .cons (.dec n hn) .nil, by simpa using hn, by simp⟩
    · rename_i hn
      obtain ⟨h1, ds, h2, h3, h4⟩ := ih (n / 10) (by rw [pow_succ] at h; omega)
      refine ⟨by simp, ds ++ [n % 10], List.rel_append h2 (.cons (.dec _ (Nat.mod_lt _ (by norm_num))) .nil), ?_, ?_⟩
      · intro d hd
        rw [List.mem_append, List.mem_singleton] at hd
        rcases hd with hd | rfl
        · exact h3 d hd
        · exact Nat.mod_lt _ (by norm_num)
      · rw [List.reverse_append, List.reverse_singleton, List.singleton_append, Nat.ofDigits_cons, ← h4]
        omega

theorem int2_digits {n : Nat} (h : n < 65536) : TwoDigits (int2 n) n := by
  have hd : intToStr (n : Int) = digits 20 n := by
    unfold intToStr
    rw [if_neg (by omega), Int.natAbs_natCast]
  have hn := digits_numeral 19 n (lt_of_lt_of_le h (by norm_num))
  unfold int2
  rw [hd]
  split
  · rename_i h10
    obtain ⟨h1, ds, h2, h3, h4⟩ := hn
    refine ⟨?_, by simp, 0 :: ds, .cons (.dec 0 (by norm_num)) h2, ?_, ?_⟩
    · rw [List.length_cons]
      have : 0 < (digits 20 n).length := List.length_pos_of_ne_nil h1
      omega
    · intro d hd
      rw [List.mem_cons] at hd
      rcases hd with rfl | hd
      · norm_num
      · exact h3 d hd
    · rw [List.reverse_cons, Nat.ofDigits_append, ← h4]
      simp
  · rename_i h10
    refine ⟨?_, hn⟩
    rw [digits, if_neg h10, List.length_append, digits]
    split <;> simp

/-- gdxmerge: the text has the numbers of the local time of the file, if the seconds since 1970 fit in 32 bits -/
theorem C77_text_partial (localtime : Int → Tm) {t : Int} (ht : -2147483648 ≤ t ∧ t ≤ 2147483647) (h : GoodTm (localtime t)) :
    ∃ y m d h mi s : Str, dateText localtime t = .ok (y ++ [47] ++ m ++ [47] ++ d ++ [32] ++ h ++ [58] ++ mi ++ [58] ++ s) ∧
      TwoDigits y (localtime t).year ∧ TwoDigits m (localtime t).month ∧ TwoDigits d (localtime t).day ∧
      TwoDigits h (localtime t).hour ∧ TwoDigits mi (localtime t).min ∧ TwoDigits s (localtime t).sec := by
  obtain ⟨h1, h2, h3, h4, h5, h6⟩ := h
  have e : Int.bmod t 4294967296 = t := by
    rw [Int.bmod_def]
    split <;> omega
  obtain ⟨x, e1, e2, e3⟩ := C77_time (ms := 0) h1 h2 h3 h4 h5 h6 (by norm_num)
  have h31 : (localtime t).day ≤ 31 := by
    refine le_trans h1.2.2.2.2 ?_
    unfold monthDays
    split <;> [split; split] <;> omega
  have h12 := h1.2.2.1
  refine ⟨_, _, _, _, _, _, ?_, int2_digits (by omega), int2_digits (by omega), int2_digits (by omega), int2_digits (by omega),
    int2_digits (by omega), int2_digits (by omega)⟩
  unfold dateText fileDate
  rw [e, e1, Res.bind_ok]
  show (do let (y, m, d) ← decodeDate _; let (h, mi, s, _) ← decodeTime _; pure (formatDate y m d h mi s) : Res Str) = _
  rw [e2, Res.bind_ok]
  dsimp only
  rw [e3, Res.bind_ok]
  rfl

/-! ### where the code is wrong -/

/-- Before March 1600 EncodeDate does not give the number of the day: 1 January 1600 becomes 2 (1 January 1900), and 29 February 1504 (a
    leap year) gets the number of 1 March. tryEncodeDate is right for both. -/
theorem C77_1600 : encodeDate 1600 1 1 = 2 ∧ tryEncodeDate 1600 1 1 = some (-109571) ∧
    encodeDate 1504 2 29 = encodeDate 1504 3 1 ∧ tryEncodeDate 1504 2 29 = some (-144576) ∧ tryEncodeDate 1504 3 1 = some (-144575) :=
  ⟨by decide, by decide, by decide, by decide, by decide⟩

/-- Before 1900 the sum of EncodeDate and EncodeTime is another day and another time: 1 January 1800, 6:00, becomes 2 January, 18:00. -/
theorem C77_1800 : fileDate ⟨1800, 1, 1, 6, 0, 0⟩ >>= decodeDate = .ok (1800, 1, 2) ∧
    fileDate ⟨1800, 1, 1, 6, 0, 0⟩ >>= decodeTime = .ok (18, 0, 0, 0) := ⟨by decide +kernel, by decide +kernel⟩

/-- The seconds are cut to 32 bits: a file of 19 January 2038, 3:14:08 UTC, gets the date of 13 December 1901. -/
theorem C77_2038 (localtime : Int → Tm) : dateText localtime 2147483648 = dateText localtime (-2147483648) := rfl

/-- An hour can be 24: less than half a millisecond before midnight the milliseconds are rounded up, the day is not. -/
theorem C77_midnight : decodeTime (.fin (1 - (2 : ℚ) ^ (-40 : Int))) = .ok (24, 0, 0, 0) ∧
    decodeDate (.fin (1 - (2 : ℚ) ^ (-40 : Int))) = .ok (1899, 12, 30) := ⟨by decide +kernel, by decide +kernel⟩

/-- the text of the date, for a leap day -/
example : dateText (fun _ => ⟨2024, 2, 29, 23, 5, 59⟩) 1709247959 = .ok (DiffOpts.str "2024/02/29 23:05:59") := by decide +kernel

example : IsDate 2000 2 29 ∧ ¬ IsDate 1900 2 29 ∧ IsDate 65535 12 31 ∧ GoodTm ⟨2024, 2, 29, 23, 5, 59⟩ :=
  ⟨by decide, by decide, by decide, by decide, by decide, by decide, by decide, by decide, by decide⟩

example : tryEncodeDate 2024 2 29 = some 45351 ∧ encodeDate 2024 2 29 = 45351 ∧ decodeDays (45351 + 693594) = .ok (2024, 2, 29, 5) ∧
    tryEncodeDate 2023 2 29 = none := ⟨by decide, by decide, by decide, by decide⟩

#print axioms C77_zero
#print axioms C77_try
#print axioms C77_encode
#print axioms C77_decode
#print axioms C77_time
#print axioms C77_text_partial
#print axioms C77_1600
#print axioms C77_1800
#print axioms C77_2038
#print axioms C77_midnight

end Gdx.Props
