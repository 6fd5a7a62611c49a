import Verif.Model.Float
import Verif.Model.Prim
import Verif.Model.Acro

/-!
Dates: `/repo/src/rtl/sysutils_p3.cpp`, and the text of the date of a file in `gdxmerge` (tools/gdxmerge/gdxmerge.cpp:389-396, 571-582).
A TDateTime is a double: days since 30 December 1899, the time is the fraction. Unsigned 16 bit numbers are `Nat` below 65536.
localtime_r is a parameter: the function from seconds to the numbers of a date and a time.
-/

namespace Gdx.Dates
open Gdx

/-- unsigned 16 bits -/
def u16 (n : Int) : Nat := (n % 65536).toNat

/-- sysutils_p3.cpp:473-476 isLeapYear (the years are not negative) -/
def isLeap (y : Nat) : Bool := (y % 4 == 0 && y % 4000 != 0 && y % 100 != 0) || y % 400 == 0

/-- sysutils_p3.cpp:469-471 and sysutils_p3.hpp:178-182 MonthDays -/
def monthTable (leap : Bool) : List Nat := [31, if leap then 29 else 28, 31, 30, 31, 30, 31, 31, 30, 31, 30, 31]

/-- sysutils_p3.cpp:671-690 tryEncodeDate: an integer, or `none` for the result false. The sum `day` has 16 bits and does not exceed 366. -/
def tryEncodeDate (year month day : Nat) : Option Int :=
  let t := monthTable (isLeap year)
  if 1 ≤ year ∧ year ≤ 9999 ∧ 1 ≤ month ∧ month ≤ 12 ∧ 1 ≤ day ∧ day ≤ (t[month - 1]?).getD 0 then
    let day := (t.take (month - 1)).foldl (fun d k : Nat => u16 ((d + k : Nat) : Int)) day
    let i : Int := year - 1
    some (i * 365 + i.tdiv 4 - i.tdiv 100 + i.tdiv 400 + day - 693594)
  else none

/-- sysutils_p3.cpp:285-297 EncodeDate; int arithmetic, the result is converted to double -/
def encodeDate (year month day : Nat) : Int :=
  if year = 1600 ∧ month < 3 then day + (if month = 1 then 1 else 30) else
  let (month, year) : Nat × Nat := if month > 2 then (month - 3, year) else (u16 (month + 9), u16 ((year : Int) - 1))
  let yr : Int := year - 1600
  (yr.tdiv 100 * 146097).tdiv 4 + (yr.tmod 100 * 1461).tdiv 4 + (153 * (month : Int) + 2).tdiv 5 + day + 59 - 109572 + 1

/-- sysutils_p3.cpp:1013-1016 EncodeTime. `hour * 3600000.0` and the sums are exact; `min * 60000` and `sec * 1000` are int. -/
def encodeTime (hour min sec msec : Nat) : Res FV :=
  if 2147483647 < min * 60000 ∨ 2147483647 < sec * 1000 then .ub
  else .ok (FV.divPos (.fin ((hour * 3600000 + min * 60000 + sec * 1000 + msec : Nat) : ℚ)) (.fin 86400000))

/-- truncation -/
def trunc (q : ℚ) : Int := if 0 ≤ q then ⌊q⌋ else ⌈q⌉

/-- gdlib/utils.hpp:510-514 round<int> of a number -/
def roundInt (v : FV) : Res Int :=
  match v with
  | .fin q =>
    match (if 0 ≤ q then FV.round (q + 1 / 2) else FV.round (q - 1 / 2)) with
    | .fin r => if I64 (trunc r) then .ok (Int.bmod (trunc r) 4294967296) else .ub
    | _ => .ub
  | _ => .ub

/-- sysutils_p3.cpp:254-259 DateTimeToTimeStamp: milliseconds and days. The difference of a number and its integer part is exact. -/
def timeStamp (v : FV) : Res (Int × Int) :=
  match v with
  | .fin q => do
    let t ← roundInt (FV.round (|q - trunc q| * 86400000))
    if I64 (trunc q) ∧ I64 (trunc q + 693594) then pure (t, Int.bmod (trunc q + 693594) 4294967296) else .ub
  | _ => .ub

/-- sysutils_p3.cpp:269-274 DivMod -/
def divMod (a : Int) (b : Nat) : Nat × Nat := (u16 (a.tdiv b), u16 (a.tmod b))

/-- sysutils_p3.cpp:276-283 DecodeTime: hours, minutes, seconds, milliseconds -/
def decodeTime (v : FV) : Res (Nat × Nat × Nat × Nat) := do
  let (t, _) ← timeStamp v
  let (mins, ms) := divMod t 60000
  let (h, m) := divMod mins 60
  let (s, k) := divMod ms 1000
  pure (h, m, s, k)

/-- sysutils_p3.cpp:771-776: the loop over the months from `m` on; running off the table is undefined -/
def findMonth : List Nat → Nat → Nat → Res (Nat × Nat)
  | [], _, _ => .ub
  | i :: is, m, d => if d < i then .ok (m, d) else findMonth is (m + 1) (d - i)

/-- sysutils_p3.cpp:731-781 DecodeDateFully from the number of days: year, month, day, day of the week. The loop 748-752 subtracts 146097
    as often as possible. -/
def decodeDays (t : Int) : Res (Nat × Nat × Nat × Nat) :=
  if t ≤ 0 then .ok (0, 0, 0, 0) else do
  let dow := u16 (t % 7 + 1)
  let t := t - 1
  let y := u16 (1 + 400 * (t / 146097))
  let (i, d) := divMod (t % 146097) 36524
  let (i, d) := if i = 4 then (i - 1, u16 (d + 36524)) else (i, d)
  let y := u16 (y + i * 100)
  let (i, d) := divMod d 1461
  let y := u16 (y + i * 4)
  let (i, d) := divMod d 365
  let (i, d) := if i = 4 then (i - 1, u16 (d + 365)) else (i, d)
  let y := u16 (y + i)
  let (m, d) ← findMonth (monthTable (isLeap y)) 1 d
  pure (y, m, u16 (d + 1), dow)

/-- sysutils_p3.cpp:783-787 DecodeDate -/
def decodeDate (v : FV) : Res (Nat × Nat × Nat) := do
  let (_, t) ← timeStamp v
  let (y, m, d, _) ← decodeDays t
  pure (y, m, d)

/-- the members of `tm` that are read (in their usual numbering: tm_year + 1900, tm_mon + 1) -/
structure Tm where
  year : Nat
  month : Nat
  day : Nat
  hour : Nat
  min : Nat
  sec : Nat
  deriving DecidableEq, Repr

/-- sysutils_p3.cpp:1018-1034 FileDateToDateTime (not Windows) after localtime_r -/
def fileDate (t : Tm) : Res FV := do
  let x ← encodeTime t.hour t.min t.sec 0
  pure (FV.add (.fin (encodeDate t.year t.month t.day)) x)

/-- gdxmerge.cpp:573-578 Int2: two digits at least -/
def int2 (n : Nat) : Str := if n < 10 then 48 :: intToStr n else intToStr n

/-- gdxmerge.cpp:571-582 FormatDateTime -/
def formatDate (year month day hour min sec : Nat) : Str :=
  int2 year ++ [47] ++ int2 month ++ [47] ++ int2 day ++ [32] ++ int2 hour ++ [58] ++ int2 min ++ [58] ++ int2 sec

/-- gdxmerge.cpp:389-395: the text of the date of a file. sysutils_p3.cpp:595: the time in seconds is cut to 32 bits. -/
def dateText (localtime : Int → Tm) (mtime : Int) : Res Str := do
  let v ← fileDate (localtime (Int.bmod mtime 4294967296))
  let (y, m, d) ← decodeDate v
  let (h, mi, s, _) ← decodeTime v
  pure (formatDate y m d h mi s)

end Gdx.Dates
