import Verif.Model.Val
import Mathlib.Data.Rat.Floor
import Mathlib.Algebra.Order.Field.Power
import Mathlib.Data.Nat.Log

/-!
The little floating point arithmetic the code does on values: `Zvalacr * index`, `V / Zvalacr`, `n + 0.5` and the
conversion to an integer (gxfile.cpp:1240-1270, 1366, 1472-1505, 3240-3263; gdlib/utils.hpp:510-514).
IEEE-754 binary64, round to nearest, ties to even, on exact rationals. Only used for operands and results ≥ 1, so
subnormal numbers and negative numbers do not occur; the functions are not meant for other arguments.
-/

namespace Gdx

/-- the number a finite, non-negative, normal double stands for (52 bits fraction, 11 bits exponent) -/
def Dbl.toRat (d : Dbl) : ℚ :=
  ((4503599627370496 + d.toNat % 4503599627370496 : Nat) : ℚ) *
    (2 : ℚ) ^ (((d.toNat / 4503599627370496 % 2048 : Nat) : Int) - 1075)

/-- round to an integer, ties to even -/
def roundEven (r : ℚ) : Int :=
  if r - ⌊r⌋ < 1 / 2 then ⌊r⌋
  else if 1 / 2 < r - ⌊r⌋ then ⌊r⌋ + 1
  else if ⌊r⌋ % 2 = 0 then ⌊r⌋ else ⌊r⌋ + 1

/-- binary exponent of a rational ≥ 1 -/
def binExp (q : ℚ) : Nat := Nat.log 2 ⌊q⌋₊

/-- the 53-bit integer significand to which `q` is rounded (2^53 stands for a carry into the next binade) -/
def signif (q : ℚ) : Int := roundEven (q / (2 : ℚ) ^ ((binExp q : Int) - 52))

/-- the rounded value, with unbounded exponent -/
def rne (q : ℚ) : ℚ := (signif q : ℚ) * (2 : ℚ) ^ ((binExp q : Int) - 52)

/-- the double to which the exact result `q` ≥ 1 is rounded; overflow gives +inf -/
def toDbl (q : ℚ) : Dbl :=
  let bits := (binExp q + 1022) * 4503599627370496 + (signif q).toNat
  if bits < 9218868437227405312 then UInt64.ofNat bits else Dbl.posInf

/-- gxfile.cpp:3260-3263 gdxAcronymValue, and `Zvalacr * newIndx` in AcronymRemap (1505) for a positive index -/
def acrValue (i : Int) : Dbl := if i ≤ 0 then Dbl.zero else toDbl (Dbl.acr.toRat * i)

/-- `V < Zvalacr` for Zvalacr = 1e301: false for NaN -/
def ltAcr (x : Dbl) : Bool := !geAcr x && dblInfo x != .nan

/-- gdlib/utils.hpp:510-514 round for n ≥ 0: `n + 0.5` rounded to double, then truncated -/
def roundPos (n : ℚ) : Int := ⌊rne (n + 1 / 2)⌋

/-- `utils::round<int>( V / Zvalacr )` for V ≥ 1e301. For +inf the conversion of an infinity to an integer is
    undefined. -/
def acrDiv (x : Dbl) : Res Int :=
  if x = Dbl.posInf then .ub else .ok (roundPos (rne (x.toRat / Dbl.acr.toRat)))

/-- gxfile.cpp:3240-3243 gdxAcronymIndex; a NaN is not `< Zvalacr`, so it is converted to an integer: undefined -/
def acrIndex (x : Dbl) : Res Int :=
  if ltAcr x then .ok 0
  else if dblInfo x = .nan then .ub
  else acrDiv x

end Gdx
