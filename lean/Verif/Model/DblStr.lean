import Verif.Model.Float
import Verif.Model.Names

/-!
Numbers as text, for `gdxdump`: rtl/p3io.cpp (P3_Str_dd0, dig2Exp), gdlib/strutilx.cpp (DblToStrSep), gdlib/dblutil.cpp (hexadecimal
formats).

The conversion from binary to decimal digits (`dtoaLoc`, the routine of D. Gay, mode 2 with 15 digits) is a parameter: the digits, the
position of the decimal point and the sign. Buffers are lists of bytes without the terminating 0; writing or reading outside the
string is undefined (the real buffers have 256 bytes).
-/

namespace Gdx.DblStr

/-- result of dtoaLoc( x, 2, 15, … ) for a finite `x`: `0.d₁d₂… * 10 ^ decPos` -/
structure Digits where
  dig : Str
  decPos : Int
  neg : Bool
  deriving DecidableEq, Repr

/-- the lowest four decimal digits of `n` -/
def four (n : Nat) : Str := [48 + UInt8.ofNat (n / 1000 % 10), 48 + UInt8.ofNat (n / 100 % 10), 48 + UInt8.ofNat (n / 10 % 10), 48 + UInt8.ofNat (n % 10)]

/-- rtl/p3io.cpp:60-96 dig2Exp with width 23 and 15 decimals: sign or blank, digit, point, digits filled up with zeros, `E`, sign, four
digits (`%04d`; exponents of doubles have at most three). The two assertions at the start are kept. -/
def dig2Exp (d : Digits) : Res Str :=
  match d.dig with
  | [] => .ub
  | c :: rest =>
    if d.dig.length ≤ 18 then
      let e := d.decPos - 1
      .ok ((if d.neg then 45 else 32) :: c :: 46 :: (rest ++ List.replicate (15 - d.dig.length) 48) ++ 69 :: (if e < 0 then 45 else 43) :: four e.natAbs)
    else .ub

/-- s[i] -/
def rd (s : Str) (i : Int) : Res UInt8 := if 0 ≤ i then need s[i.toNat]? else .ub

/-- s[i] = c -/
def wr (s : Str) (i : Int) (c : UInt8) : Res Str := if 0 ≤ i ∧ i < s.length then .ok (s.set i.toNat c) else .ub

/-- gdlib/strutilx.cpp:226-236 RChSetPos( "+-", … ): last place with one of the two signs, `n` places from the left are searched -/
def rSign (s : Str) : Nat → Int
  | 0 => -1
  | n + 1 => if s[n]? = some 43 ∨ s[n]? = some 45 then n else rSign s n

/-- gdlib/strutilx.cpp:187-198 LChPos( '.', … ) -/
def lPoint (s : Str) : Int := match s.findIdx? (· == 46) with
  | some k => k
  | none => -1

/-- utils::val( &s[k], 5, e, scrap ) of a sign and four digits (rtl/p3io.cpp:224-262, the usual case) -/
def val5 (s : Str) (k : Int) : Res Int := do
  let sg ← rd s k
  let a ← rd s (k + 1)
  let b ← rd s (k + 2)
  let c ← rd s (k + 3)
  let d ← rd s (k + 4)
  let n : Int := (((a.toNat : Int) - 48) * 10 + (b.toNat - 48)) * 100 + (((c.toNat : Int) - 48) * 10 + (d.toNat - 48))
  pure (if sg = 45 then -n else n)

/-- for n places from `i` on: s[i] = c -/
def fill (c : UInt8) : Nat → Int → Str → Res Str
  | 0, _, s => .ok s
  | n + 1, i, s => do fill c n (i + 1) (← wr s i c)

/-- for n places from `i` on: s[i - 1] = s[i] -/
def shiftL : Nat → Int → Str → Res Str
  | 0, _, s => .ok s
  | n + 1, i, s => do shiftL n (i + 1) (← wr s (i - 1) (← rd s i))

/-- for n places from `i` down: s[i + e] = s[i] -/
def shiftR (e : Int) : Nat → Int → Str → Res Str
  | 0, _, s => .ok s
  | n + 1, i, s => do shiftR e n (i - 1) (← wr s (i + e) (← rd s i))

/-- the point is removed when no place is left -/
def dropPoint : Nat → Option Int → Str → Res Str
  | 0, some p, s => wr s p 32
  | _, _, s => .ok s

/-- for n places from `i` down: a zero becomes a blank, anything else ends the loop; after the last place that of the point as well, if
there is one to remove -/
def trimZeros (point : Option Int) : Nat → Int → Str → Res Str
  | 0, _, s => .ok s
  | n + 1, i, s => do
    if (← rd s i) = 48 then
      let s ← wr s i 32
      trimZeros point n (i - 1) (← dropPoint n point s)
    else pure s

/-- for n places from `i` on: leading zeros become blanks (strutilx.cpp:307-316; the test for `i == slen` never holds) -/
def trimLead : Nat → Int → Str → Res Str
  | 0, _, s => .ok s
  | n + 1, i, s => do
    if (← rd s i) = 48 then trimLead n (i + 1) (← wr s i 32) else pure s

/-- the double 1e-4 -/
def lowest : Dbl := 0x3f1a36e2eb1c432d

/-- the double 1e15 -/
def highest : Dbl := 0x430c6bf526340000

/-- V >= 1e-4 && V < 1e15 of the absolute value -/
def plain (v : Dbl) : Bool := lowest.fv.le v.fv.abs && v.fv.abs.lt highest.fv

/-- gdlib/strutilx.cpp:258-301, exponent not negative -/
def expand (sep : UInt8) (slen k j e : Int) (s : Str) : Res Str := do
  let s ← fill 48 (slen - (k - 1)).toNat (k - 1) s
  if e ≥ 0 then
    let s ← shiftL e.toNat (j + 1) s
    let s ← wr s (j + e) sep
    trimZeros (some (j + e)) (slen - 1 - (j + e)).toNat (slen - 1) s
  else
    let s ← wr s j (← rd s (j - 1))
    let s ← wr s (j - 1) 48
    let e := -e
    let s ← shiftR e (k - 1 - j).toNat (k - 2) s
    let s ← fill 48 (e - 1).toNat (j + 1) s
    let s ← wr s j sep
    trimZeros none (slen - 1 - (j + e)).toNat (slen - 1) s

/-- gdlib/strutilx.cpp:302-334: the exponent stays -/
def compact (slen k j : Int) (s : Str) : Res Str := do
  let s ← (if (← rd s k) = 43 then wr s k 32 else .ok s)
  let s ← trimLead (slen - (k + 1)).toNat (k + 1) s
  trimZeros (some j) (k - 2 - j).toNat (k - 2) s

/-- gdlib/strutilx.cpp:247-330 DblToStrSepCore. The point in the mantissa of a number that keeps its exponent is not replaced by the
separator. -/
def core (dtoa : Dbl → Digits) (v : Dbl) (sep : UInt8) : Res Str := do
  if v.expo = 2047 then .ub else
  let s ← dig2Exp (dtoa v)
  let slen : Int := s.length
  let k := rSign s s.length
  let j := lPoint s
  if k < 0 ∨ j < 0 then .ub else
  if plain v then do
    let e ← val5 s k
    expand sep slen k j e s
  else compact slen k j s

/-- gdlib/strutilx.cpp:340-352 DblToStrSep -/
def dblToStrSep (dtoa : Dbl → Digits) (v : Dbl) (sep : UInt8) : Res Str :=
  if v.fv = .fin 0 then .ok [48]
  else do
    let s ← core dtoa v sep
    pure (s.filter (· ≠ 32))

/-- gdlib/dblutil.cpp:65-68 hexDigit -/
def hexDigit (b : Nat) : UInt8 := if b < 10 then 48 + UInt8.ofNat b else 97 + UInt8.ofNat (b - 10)

/-- gdlib/dblutil.cpp:70-97 dblToStrHex: the bytes from the highest one down -/
def hexBytes (v : Dbl) : Str :=
  [48, 120] ++ ((List.range 8).map fun i : Nat => v.toNat / 256 ^ (7 - i) % 256).flatMap fun c => [hexDigit (c / 16), hexDigit (c % 16)]

/-- gdlib/dblutil.cpp:100-115 mFormat, the loop: `sh` is the shift count, the mask has the four bits from there on -/
def mDigits : Nat → Nat → Nat → Str
  | 0, _, _ => []
  | f + 1, m, sh =>
    if m = 0 then []
    else hexDigit (m / 2 ^ sh % 16) :: mDigits f (m - m / 2 ^ sh % 16 * 2 ^ sh) (sh - 4)

def mFormat (m : Nat) : Str := if m = 0 then [48] else mDigits 14 m 48

/-- decimal digits of `n`, for IntToStr; `f` digits at most -/
def decDigits : Nat → Nat → Str
  | 0, _ => []
  | f + 1, n => if n < 10 then [48 + UInt8.ofNat n] else decDigits f (n / 10) ++ [48 + UInt8.ofNat (n % 10)]

/-- rtl/sysutils_p3.cpp IntToStr -/
def intToStr (n : Int) : Str := if n < 0 then 45 :: decDigits 19 n.natAbs else decDigits 19 n.natAbs

/-- gdlib/dblutil.cpp:117-152 dblToStrHexponential -/
def hexponential (v : Dbl) : Str :=
  let sg : Str := if v.isNeg then [45] else []
  if v.expo = 0 then
    if v.frac = 0 then sg ++ [48, 120, 48, 46, 48, 112, 48]
    else sg ++ [48, 120, 48, 46] ++ mFormat v.frac ++ [112, 45, 49, 48, 50, 50]
  else if v.expo < 2047 then sg ++ [48, 120, 49, 46] ++ mFormat v.frac ++ [112] ++ intToStr ((v.expo : Int) - 1023)
  else if v.frac = 0 then sg ++ [73, 110, 102, 105, 110, 105, 116, 121]
  else [78, 97, 78]

end Gdx.DblStr
