import Verif.Model.Ieee

/-!
Remaining primitives of `/repo/src/gdlib/gmsstrm.cpp`: bool, char, PChar (320-345, 402-437) and the variable-length
encodings GmsInteger and GmsDouble of TMiBufferedStream (879-1045), on a little-endian machine (NormalOrder = false).
-/

namespace Gdx

/-- gmsstrm.cpp:316-326 WriteBool -/
def wrBool (b : Bool) : List UInt8 := [if b then 1 else 0]
/-- gmsstrm.cpp:397-400 ReadBool; a byte other than 0 and 1 is not a value of type bool (undefined) -/
def rdBool : Rd Bool := fun l => do
  let (b, r) ← rdByte l
  if b = 0 then some (false, r) else if b = 1 then some (true, r) else none

/-- gmsstrm.cpp:340-345 WritePChar of a buffer of `L` = length bytes -/
def wrPChar (s : Str) : List UInt8 := wrInt s.length ++ s
/-- gmsstrm.cpp:407-418 ReadPChar -/
def rdPChar : Rd Str := fun l => do
  let (n, r) ← rdInt l
  if n ≤ 0 then some ([], r) else rdBytes n.toNat r

/-- gmsstrm.cpp:894-899: the bytes of `N >> 4`, low byte first, until nothing is left -/
def gmsDigits (n : Nat) : List UInt8 :=
  if h : n = 0 then [] else UInt8.ofNat (n % 256) :: gmsDigits (n / 256)
termination_by n
decreasing_by omega

/-- gmsstrm.cpp:879-902 WriteGmsInteger; `N = -N` overflows for INT_MIN. `B | C << 4` on disjoint bits. -/
def wrGmsInt (N : Int) : Res (List UInt8) :=
  if N = -2147483648 then .ub
  else
    let ds := gmsDigits (N.natAbs / 16)
    let b := (if N ≥ 0 then 0 else 128) ||| (N.natAbs % 16)
    .ok (UInt8.ofNat (b ||| ds.length * 16) :: ds)

/-- gmsstrm.cpp:983-1009 ReadGmsInteger; more than 4 extra bytes are written outside of `W` (undefined), and so is a
    result outside of the range of int -/
def rdGmsInt : Rd Int := fun l => do
  let (B, r) ← rdByte l
  let C := B.toNat / 16 % 8
  if 4 < C then none
  else do
    let (W, r) ← rdBytes C r
    let m := decLE W * 16 + B.toNat % 16
    if m < 2147483648 then some (if 128 ≤ B.toNat then -(m : Int) else m, r) else none

/-- the double 1.0e-5 -/
def Dbl.em5 : Dbl := 0x3ee4f8b588e368f1

/-- gmsstrm.cpp:904-913 tgmsvalue -/
inductive GmsKind where
  | real | und | na | pin | min | eps | acr
  deriving DecidableEq, Repr

/-- numeric value of the enumeration -/
def GmsKind.code : GmsKind → UInt8
  | real => 0 | und => 1 | na => 2 | pin => 3 | min => 4 | eps => 5 | acr => 6

/-- `x < GMS_SV_UNDEF` (1e300): negative, or the smaller bit pattern; false for NaN -/
def ltUnd (x : Dbl) : Bool := dblInfo x != .nan && (9223372036854775808 ≤ x.toNat || x < Dbl.sv_und)

/-- gmsstrm.cpp:919-925: classification of a number in [1e300, 1e301): nearest multiple of 1e300. `k - x` is exact in
    double arithmetic here. -/
def gmsNear (y : ℚ) : GmsKind :=
  let k := roundPos y
  if Dbl.em5.toRat < |(k : ℚ) - y| then .und
  else if k = 1 then .und else if k = 2 then .na else if k = 3 then .pin else if k = 4 then .min
  else if k = 5 then .eps else .acr

/-- gmsstrm.cpp:915-926 mapval; NaN reaches the conversion to an integer: undefined -/
def gmsKind (x : Dbl) : Res GmsKind :=
  if ltUnd x then .ok .real
  else if geAcr x then .ok .acr
  else if dblInfo x = .nan then .ub
  else .ok (gmsNear (rne (x.toRat / Dbl.sv_und.toRat)))

/-- the 8 bytes of a double, most significant first -/
def beBytes (d : Dbl) : List UInt8 := (encLE 8 d.toNat).reverse

/-- gmsstrm.cpp:968-980: number of leading zero bytes, then the others -/
def wrGmsBytes (d : Dbl) : List UInt8 :=
  let rest := (beBytes d).dropWhile (· == 0)
  UInt8.ofNat (128 ||| (8 - rest.length)) :: rest

/-- gmsstrm.cpp:928-981 WriteGmsDouble -/
def wrGmsDouble (d : Dbl) : Res (List UInt8) :=
  match gmsKind d with
  | .ub => .ub
  | .ok .real =>
    if d = Dbl.zero ∨ d = Dbl.negZero then .ok [7]
    else if d = Dbl.one then .ok [8]
    else if d = Dbl.mone then .ok [9]
    else .ok (wrGmsBytes d)
  | .ok .acr => do
    let i ← acrDiv d
    let b ← wrGmsInt i
    .ok (6 :: b)
  | .ok k => .ok [k.code]

/-- `int * 1e301` in double arithmetic -/
def acrMul (i : Int) : Dbl :=
  if i = 0 then Dbl.zero
  else if i > 0 then toDbl (Dbl.acr.toRat * i)
  else toDbl (Dbl.acr.toRat * (-i)) + 0x8000000000000000

/-- gmsstrm.cpp:1032-1043: C zero bytes, then bytes read from the stream, most significant first. A count above 8
    leaves the double 0. -/
def rdGmsBytes (C : Nat) : Rd Dbl := fun l => do
  let (bs, r) ← rdBytes (8 - C) l
  some (UInt64.ofNat (decLE bs.reverse), r)

/-- gmsstrm.cpp:1011-1045 ReadGmsDouble -/
def rdGmsDouble : Rd Dbl := fun l => do
  let (B, r) ← rdByte l
  if B < 128 then
    if B = 6 then do
      let (i, r) ← rdGmsInt r
      some (acrMul i, r)
    else some (match B.toNat with
      | 1 => Dbl.sv_und | 2 => Dbl.sv_na | 3 => Dbl.sv_pin | 4 => Dbl.sv_min | 5 => Dbl.sv_eps
      | 8 => Dbl.one | 9 => Dbl.mone | _ => Dbl.zero, r)
  else rdGmsBytes (B.toNat % 128) r

end Gdx
