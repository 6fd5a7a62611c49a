import Verif.Model.Ieee
import Mathlib.Data.Int.Log

/-!
IEEE-754 binary64 arithmetic on values, for the comparison of numbers in `gdxdiff` (tools/gdxdiff/gdxdiff.cpp:298-339): difference,
absolute value, sum, quotient, comparison. Round to nearest, ties to even, with gradual underflow and overflow to infinity, on exact
rationals. Simplification: the two zeros are one value (no operation modelled here tells them apart: there is no division by zero).
-/

namespace Gdx

/-- the value of a double -/
inductive FV where
  | fin (q : ℚ)
  | inf (neg : Bool)
  | nan
  deriving DecidableEq, Repr

namespace Dbl

/-- sign bit -/
def isNeg (d : Dbl) : Bool := decide (9223372036854775808 ≤ d.toNat)

/-- the eleven bits of the exponent -/
def expo (d : Dbl) : Nat := d.toNat / 4503599627370496 % 2048

/-- the 52 bits of the fraction -/
def frac (d : Dbl) : Nat := d.toNat % 4503599627370496

/-- the number as a multiple of the smallest positive double, 2^-1074 (exponent not all ones) -/
def units (d : Dbl) : Int :=
  let a : Int := if d.expo = 0 then d.frac else (4503599627370496 + d.frac : Nat) * 2 ^ (d.expo - 1)
  if d.isNeg then -a else a

/-- the value of a double: infinity or not a number if the exponent is all ones, else a rational number -/
def fv (d : Dbl) : FV :=
  if d.expo = 2047 then (if d.frac = 0 then .inf d.isNeg else .nan)
  else .fin (d.units * (2 : ℚ) ^ (-1074 : Int))

end Dbl

namespace FV

/-- exponent of the unit in the last place of the doubles near `q` ≠ 0: 52 below the binary exponent, at least -1074 -/
def ulpExp (q : ℚ) : Int := max (Int.log 2 |q| - 52) (-1074)

/-- the nearest double, exponent not bounded above -/
def near (q : ℚ) : ℚ := roundEven (q / (2 : ℚ) ^ ulpExp q) * (2 : ℚ) ^ ulpExp q

/-- the exact result `q` rounded to double -/
def round (q : ℚ) : FV := if (2 : ℚ) ^ (1024 : Int) ≤ |near q| then .inf (decide (q < 0)) else .fin (near q)

def neg : FV → FV
  | .fin q => .fin (-q)
  | .inf n => .inf !n
  | .nan => .nan

def add : FV → FV → FV
  | .fin a, .fin b => round (a + b)
  | .nan, _ => .nan
  | _, .nan => .nan
  | .inf m, .inf n => if m = n then .inf m else .nan
  | .inf m, .fin _ => .inf m
  | .fin _, .inf n => .inf n

def sub (x y : FV) : FV := add x y.neg

def abs : FV → FV
  | .fin q => .fin |q|
  | .inf _ => .inf false
  | .nan => .nan

/-- quotient by a positive divisor (the only one that occurs is `1 + min(|a|,|b|)`) -/
def divPos : FV → FV → FV
  | .nan, _ => .nan
  | _, .nan => .nan
  | .fin a, .fin b => round (a / b)
  | .inf m, .fin _ => .inf m
  | .fin _, .inf _ => .fin 0
  | .inf _, .inf _ => .nan

/-- `<=`: false if one of the two is not a number -/
def le : FV → FV → Bool
  | .fin a, .fin b => decide (a ≤ b)
  | .nan, _ => false
  | _, .nan => false
  | .inf m, .inf n => m || !n
  | .inf m, .fin _ => m
  | .fin _, .inf n => !n

/-- `<` -/
def lt : FV → FV → Bool
  | .fin a, .fin b => decide (a < b)
  | .nan, _ => false
  | _, .nan => false
  | .inf m, .inf n => m && !n
  | .inf m, .fin _ => m
  | .fin _, .inf n => !n

end FV
end Gdx
