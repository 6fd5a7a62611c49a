import Verif.Model.Prim

/-!
Values: special-value tables and the value part of DoWrite / DoRead
(`/repo/src/gxfile.cpp` 686-717, 1215-1226, 1325-1366, 1429-1447, 2299-2372, 3418-3437, 3463-3485).
Doubles are bit patterns.
-/

namespace Gdx

abbrev Dbl := UInt64

namespace Dbl
/-- bits of 1e300, 2e300, 3e300, 4e300, 5e300, 1e301 (`/repo/generated/gclgms.h` 110-115) -/
def sv_und : Dbl := 0x7e37e43c8800759c
def sv_na  : Dbl := 0x7e47e43c8800759c
def sv_pin : Dbl := 0x7e51eb2d66005835
def sv_min : Dbl := 0x7e57e43c8800759c
def sv_eps : Dbl := 0x7e5ddd4baa009303
def acr    : Dbl := 0x7e6ddd4baa009303
def zero   : Dbl := 0
def one    : Dbl := 0x3ff0000000000000
def mone   : Dbl := 0xbff0000000000000
def half   : Dbl := 0x3fe0000000000000
def two    : Dbl := 0x4000000000000000
def negZero : Dbl := 0x8000000000000000
def posInf : Dbl := 0x7ff0000000000000
def negInf : Dbl := 0xfff0000000000000
end Dbl

/-- gxfile.cpp:1192-1199 -/
inductive DblClass where
  | nan | ninf | pinf | finite
  deriving DecidableEq, Repr

/-- gxfile.cpp:1215-1226 dblInfo: exponent bits all ones → NaN if some mantissa bit is set, else ±inf by the sign
    bit. The masks are written as arithmetic on the bit pattern: bits 52..62 are `n / 2^52 % 2048`, bits 0..51
    are `n % 2^52`, bit 63 is `n / 2^63`. -/
def dblInfo (x : Dbl) : DblClass :=
  if x.toNat / 4503599627370496 % 2048 = 2047 then
    if x.toNat % 4503599627370496 ≠ 0 then .nan
    else if x.toNat / 9223372036854775808 ≠ 0 then .ninf else .pinf
  else .finite

/-- `X >= Zvalacr` for Zvalacr = 1e301: sign bit clear, not a NaN, and bit pattern not smaller. -/
def geAcr (x : Dbl) : Bool := Dbl.acr ≤ x && x ≤ Dbl.posInf

/-- The five user-definable special values (the entries vm_valund..vm_valeps of intlValueMapDbl, gxfile.hpp:151-165).
    The other five entries are constants. -/
structure SVTab where
  und : Dbl
  na : Dbl
  pin : Dbl
  min : Dbl
  eps : Dbl
  deriving DecidableEq, Repr

/-- gxfile.cpp:686-717 gdxResetSpecialValues -/
def SVTab.default : SVTab :=
  { und := Dbl.sv_und, na := Dbl.sv_na, pin := Dbl.sv_pin, min := Dbl.sv_min, eps := Dbl.sv_eps }

/-- the whole table intlValueMapDbl / intlValueMapI64, in the order of the enumeration -/
def SVTab.toList (t : SVTab) : List Dbl :=
  [t.und, t.na, t.pin, t.min, t.eps, Dbl.zero, Dbl.one, Dbl.mone, Dbl.half, Dbl.two]

/-- What the file holds for one value: an indicator byte other than 10, or 10 followed by the 8 bytes of the double. -/
inductive SVal where
  | code (c : UInt8)
  | num (d : Dbl)
  deriving DecidableEq, Repr

/-- position of `x` in the list (first match), counting from `i` -/
def findIdxFrom (x : Dbl) : List Dbl → Nat → Option Nat
  | [], _ => none
  | y :: ys, i => if x = y then some i else findIdxFrom x ys (i + 1)

/-- gxfile.cpp:1328-1360: the indicator byte chosen by DoWrite for value `x`. -/
def storeVal (t : SVTab) (x : Dbl) : SVal :=
  match findIdxFrom x t.toList 0 with
  | some k => .code (UInt8.ofNat k)
  | none =>
    if x = Dbl.negZero then .code 5            -- X == -0.0 (+0.0 was found in the table)
    else match dblInfo x with
      | .ninf => .code 3
      | .pinf => .code 2
      | .nan => .code 1
      | .finite => .num x

/-- gxfile.cpp:1361-1364: the bytes of one value. -/
def encSVal : SVal → List UInt8
  | .code c => [c]
  | .num d => 10 :: wrDouble d

/-- gxfile.cpp:1431-1444: reading one value (before the reader's special value table and the acronym map are applied). -/
def rdSVal : Rd SVal := fun l => do
  let (b, r) ← rdByte l
  if b = 10 then do
    let (d, r) ← rdDouble r
    some (.num d, r)
  else some (.code b, r)

def rdSVals : Nat → Rd (List SVal)
  | 0, l => some ([], l)
  | n + 1, l => do
    let (v, r) ← rdSVal l
    let (vs, r) ← rdSVals n r
    some (v :: vs, r)

/-- gxfile.cpp:1437-1444: indicator bytes ≥ 11 give 0.0, smaller ones the table entry. A stored double is passed
    through `remap` when it is ≥ 1e301 (maybeRemap, 1384-1386). -/
def loadVal (t : SVTab) (remap : Dbl → Dbl) : SVal → Dbl
  | .code c => match t.toList[c.toNat]? with
    | some x => x
    | none => Dbl.zero
  | .num d => if geAcr d then remap d else d

/-- the values part of one record -/
def encSVals (vs : List SVal) : List UInt8 := (vs.map encSVal).flatten

/-! ### special-value API -/

/-- gxfile.cpp:2320-2372 gdxSetSpecialValues: the duplicate check compares all pairs of the five entries. Input: the
    first five entries of the user's array. Result `none` = failure (ERR_DUPLICATESPECVAL). -/
def setSpecialValues (v : SVTab) : Option SVTab :=
  let l := [v.und, v.na, v.pin, v.min, v.eps]
  let dup := (List.range 5).any fun i => (List.range 5).any fun j => i < j && l[i]? == l[j]?
  if dup then none else some v

/-- kinds of gdxMapValue: gclgms.h sv_valund=0, sv_valna=1, sv_valpin=2, sv_valmin=3, sv_valeps=4, sv_normal=5 -/
def mapValue (t : SVTab) (x : Dbl) : Nat :=
  if x = t.und then 0
  else if x = t.na then 1
  else if x = t.pin then 2
  else if x = t.min then 3
  else if x = t.eps then 4
  else 5

end Gdx
