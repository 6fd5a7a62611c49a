import Verif.Model.Names
import Verif.Model.StrUtil

/-!
Acronym table: `/repo/src/gxfile.cpp` 3916-3999 (TAcronymList) and 4118-4150 (TAcronym).
-/

namespace Gdx

/-- decimal digits of a natural number, `fuel` digits at most -/
def digits : Nat → Nat → Str
  | 0, _ => []
  | fuel + 1, n => if n < 10 then [UInt8.ofNat (48 + n)] else digits fuel (n / 10) ++ [UInt8.ofNat (48 + n % 10)]

/-- rtl::sysutils_p3::IntToStr of an int (at most 10 digits; 20 would do for 64 bits) -/
def intToStr (n : Int) : Str := if n < 0 then 45 :: digits 20 n.natAbs else digits 20 n.natAbs

/-- gxfile.hpp:282-294 TAcronym -/
structure Acr where
  name : Str
  text : Str
  map : Int
  readMap : Int := -1
  auto : Bool := false
  deriving DecidableEq, Repr

/-- gxfile.cpp:4118-4123 constructor (MakeGoodExplText of the text) -/
def Acr.mk' (name text : Str) (map : Int) : Acr := { name := name, text := makeGoodExplText text, map := map }

/-- gxfile.cpp:3934-3940 FindEntry: number (from 0) of the first entry with this map -/
def acrFind (l : List Acr) (map : Int) : Option Nat := l.findIdx? fun a => a.map == map

/-- gxfile.cpp:3942-3948 FindName: number (from 0) of the first entry with this name -/
def acrFindName (l : List Acr) (name : Str) : Option Nat := l.findIdx? fun a => sameText false a.name name

/-- gxfile.cpp:3956-3960 CheckEntry -/
def acrCheck (l : List Acr) (map : Int) : List Acr :=
  match acrFind l map with
  | some _ => l
  | none => l ++ [Acr.mk' [] [] map]

/-- "UnknownACRO" -/
def unknownACRO : Str := [85, 110, 107, 110, 111, 119, 110, 65, 67, 82, 79]

/-- gxfile.cpp:4138-4143: the name written to the file -/
def Acr.saveName (a : Acr) : Str := if a.name = [] then unknownACRO ++ intToStr a.map else a.name

/-- gxfile.cpp:4138-4143 TAcronym::SaveToStream -/
def Acr.save (a : Acr) : Res (List UInt8) := do
  let n ← wrString a.saveName
  let t ← wrString a.text
  pure (n ++ t ++ wrInt a.map)

/-- concatenation of what is written for the entries of a list -/
def saveAll {α : Type} (f : α → Res (List UInt8)) : List α → Res (List UInt8)
  | [] => .ok []
  | a :: l => do
    let x ← f a
    let y ← saveAll f l
    pure (x ++ y)

/-- gxfile.cpp:3962-3967 TAcronymList::SaveToStream -/
def acrSave (l : List Acr) : Res (List UInt8) := do
  let bs ← saveAll Acr.save l
  pure (wrInt l.length ++ bs)

/-- `n` items read one after the other -/
def rdMany {α : Type} (rd : Rd α) : Nat → Rd (List α)
  | 0, l => some ([], l)
  | n + 1, l => do
    let (a, r) ← rd l
    let (as, r) ← rdMany rd n r
    some (a :: as, r)

/-- gxfile.cpp:4125-4130 TAcronym( TXStream ) -/
def rdAcr : Rd Acr := fun l => do
  let (n, r) ← rdString l
  let (t, r) ← rdString r
  let (m, r) ← rdInt r
  some ({ name := n, text := t, map := m }, r)

/-- gxfile.cpp:3969-3981 TAcronymList::LoadFromStream. A negative count: `SetCapacity` and the size of the first batch get
    negative numbers, no entry is read; the list is empty. -/
def rdAcros : Rd (List Acr) := fun l => do
  let (n, r) ← rdInt l
  rdMany rdAcr n.toNat r

end Gdx
