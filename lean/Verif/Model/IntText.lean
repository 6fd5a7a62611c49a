import Verif.Model.Prim
import Verif.Model.ValInt

/-!
Integers and texts: `/repo/src/rtl/sysutils_p3.cpp` IntToStr, StrToInt64, StrToInt, IntToHex, and `/repo/src/gdlib/strutilx.cpp`
IntToNiceStrW, IntegerWidth, StrExcelCol, ExcelColStr. An int64 is an `Int`; arithmetic that leaves its type is undefined.
-/

namespace Gdx.IntText
open Gdx

/-- the digit of a remainder of a number that is not positive: '0' - n % 10 -/
def negDigit (n : Int) : UInt8 := UInt8.ofNat (48 - n.tmod 10).toNat

/-- sysutils_p3.cpp:849-852: digits from the right into the array; `n` is not positive. The array has 255 bytes for at most 19 digits. -/
def pushDigits : Nat → Int → Str → Res Str
  | 0, _, _ => .ub
  | f + 1, n, acc => if n.tdiv 10 = 0 then .ok (negDigit n :: acc) else pushDigits f (n.tdiv 10) (negDigit n :: acc)

/-- sysutils_p3.cpp:832-856 IntToStr (and 859-883) -/
def intToStr (n : Int) : Res Str := do
  let s ← pushDigits 255 (if n < 0 then n else -n) []
  pure (if n < 0 then 45 :: s else s)

/-- one digit more; the type is int64. `result * b + s[i] - '0'` is computed from the left: the sum before the subtraction must fit, too. -/
def more (b result : Int) (c : UInt8) (base : Int) : Res Int :=
  if I64 (result * b) ∧ I64 (result * b + c.toNat) ∧ I64 (result * b + c.toNat - base) then .ok (result * b + c.toNat - base) else .ub

/-- isdigit -/
def isDec (c : UInt8) : Bool := 48 ≤ c && c ≤ 57

/-- sysutils_p3.cpp:201-209; `none` for an error -/
def decLoop : Int → Str → Res (Option Int)
  | r, [] => .ok (some r)
  | r, c :: s => if isDec c then do
      let r ← more 10 r c 48
      decLoop r s
    else .ok none

/-- sysutils_p3.cpp:184-197: for the letters 10 is added at the end -/
def hexLoop : Int → Str → Res (Option Int)
  | r, [] => .ok (some r)
  | r, c :: s =>
    if isDec c then do
      let r ← more 16 r c 48
      hexLoop r s
    else if 65 ≤ c && c ≤ 70 then do
      let r ← more 16 r c 55
      hexLoop r s
    else if 97 ≤ c && c ≤ 102 then do
      let r ← more 16 r c 87
      hexLoop r s
    else .ok none

def i64Min : Int := -9223372036854775808

/-- sysutils_p3.cpp:169-215 StrToInt64 -/
def strToInt64 (s : Str) : Res Int := do
  let s := s.dropWhile (· == 32)
  let neg := s.head? == some 45
  let hex := s.head? == some 36
  let s := if neg || hex then s.tail else s
  let r ← (if hex then hexLoop 0 s else decLoop 0 s)
  match r with
  | none => pure i64Min
  | some v => pure (if neg then -v else v)

/-- sysutils_p3.cpp:905-911 StrToInt -/
def strToInt (s : Str) : Res Int := do
  let r ← strToInt64 s
  pure (if r < -2147483648 ∨ 2147483647 < r then -2147483648 else r)

/-- the sixteen digits -/
def hexDigit (n : Int) : UInt8 := if n < 10 then UInt8.ofNat (48 + n.toNat) else UInt8.ofNat (55 + n.toNat)

/-- sysutils_p3.cpp:897-901: `i` is the place for the next digit; the array has 32 bytes. `v >>= 4` rounds down. -/
def hexPush (w : Int) : Nat → Int → Int → Str → Res Str
  | 0, _, _, _ => .ub
  | f + 1, i, v, acc =>
    if i < 0 then .ub
    else
      let acc := hexDigit (v % 16) :: acc
      if v / 16 ≠ 0 ∨ 32 < w + (i - 1) then hexPush w f (i - 1) (v / 16) acc else .ok acc

/-- sysutils_p3.cpp:889-903 IntToHex -/
def intToHex (v w : Int) : Res Str := hexPush (if 32 < w then 0 else w) 33 31 v []

/-- strutilx.cpp:97-107: digits and commas from the right; `k2` digits since the last comma -/
def niceLoop : Nat → Int → Nat → Str → Res Str
  | 0, _, _, _ => .ub
  | f + 1, n, k2, acc =>
    let acc := negDigit n :: acc
    let n := n.tdiv 10
    let (k2, acc) := if k2 + 1 = 3 then (0, if n ≠ 0 then 44 :: acc else acc) else (k2 + 1, acc)
    if n ≠ 0 then niceLoop f n k2 acc else .ok acc

/-- strutilx.cpp:86-121 IntToNiceStrW -/
def niceStr (n width : Int) : Res Str := do
  let s ← niceLoop 255 (if 0 < n then -n else n) 0 []
  let s := if n < 0 then 45 :: s else s
  let width := min width 255
  pure (if width ≤ (s.length : Int) then s else List.replicate (width - s.length).toNat 32 ++ s)

/-- strutilx.cpp:158-162: how many digits -/
def widthLoop : Nat → Int → Nat → Res Nat
  | 0, _, _ => .ub
  | f + 1, n, r => if n.tdiv 10 = 0 then .ok (r + 1) else widthLoop f (n.tdiv 10) (r + 1)

/-- strutilx.cpp:154-164 IntegerWidth: -n is an int -/
def intWidth (n : Int) : Res Nat :=
  if 0 ≤ n then widthLoop 11 n 0 else if n = -2147483648 then .ub else widthLoop 11 (-n) 1

/-- ASCII upper case -/
def upChar (c : UInt8) : UInt8 := if 97 ≤ c && c ≤ 122 then c - 32 else c

/-- strutilx.cpp:132-141 StrExcelCol from `res` on; int arithmetic. A char above 127 is negative or at least 128: no letter. -/
def excelCol : Int → Str → Res Int
  | r, [] => .ok r
  | r, c :: s =>
    if upChar c < 65 ∨ 90 < upChar c ∨ 82595550 ≤ r then .ok 0
    else
      let n := r * 26 + ((upChar c).toNat - 65) + 1
      if 2147483647 < n then .ub else excelCol n s

def strExcelCol (s : Str) : Res Int := excelCol 0 s

/-- strutilx.cpp:144-151: the letters in the order in which they are appended -/
def colLoop : Nat → Int → Res Str
  | 0, _ => .ub
  | f + 1, c => if c = 0 then .ok [] else do
    let s ← colLoop f ((c - 1).tdiv 26)
    pure (UInt8.ofNat (65 + ((c - 1).tmod 26).toNat) :: s)

/-- strutilx.cpp:144-151 ExcelColStr -/
def excelColStr (c : Int) : Res Str := if c ≤ 0 then .ok [] else colLoop 8 c

end Gdx.IntText
