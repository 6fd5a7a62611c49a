import Verif.Model.Prim

/-!
Conversion of a string into an integer: `/repo/src/gdlib/utils.cpp` val (306-317) with `/repo/src/rtl/p3io.cpp` P3_Val_i. A string is without the zero byte at
its end; a position in it is the rest of the string from there.
-/

namespace Gdx.ValInt
open Gdx

/-- the value of a digit, by its ASCII code -/
def digit (c : UInt8) : Option Nat :=
  if 48 ≤ c ∧ c ≤ 57 then some (c.toNat - 48)
  else if 65 ≤ c ∧ c ≤ 70 then some (c.toNat - 55)
  else if 97 ≤ c ∧ c ≤ 102 then some (c.toNat - 87)
  else none

def isDig (b : Nat) (c : UInt8) : Bool :=
  match digit c with
  | some n => n < b
  | none => false

/-- the number with these digits -/
def number (b : Nat) (s : Str) : Nat := s.foldl (fun n c => n * b + (digit c).getD 0) 0

/-- `long` has 64 bits -/
def clamp (v : Int) : Int := max (-9223372036854775808) (min 9223372036854775807 v)

/-- 0x is skipped before a hexadecimal digit -/
def skip0x : Str → Str
  | 48 :: x :: d :: r => if (x = 120 ∨ x = 88) ∧ isDig 16 d then d :: r else 48 :: x :: d :: r
  | s => s

/-- `strtol` of the C library: the value, and where it stopped. White space at the start is skipped there: P3_Val_i has no such call. -/
def strtol (b : Nat) (s : Str) : Int × Str :=
  let t := match s with
    | 43 :: t => t
    | 45 :: t => t
    | t => t
  let t := if b = 16 then skip0x t else t
  let ds := t.takeWhile (isDig b)
  if ds = [] then (0, s) else
  (clamp (if s.head? = some 45 then -number b ds else number b ds), t.dropWhile (isDig b))

/-- `static_cast<int>` of a long -/
def asInt (v : Int) : Int := Int.bmod v 4294967296

/-- p3io.cpp:272-333 P3_Val_i: the number, and 0 or the position of the error. The buffer has 256 bytes. -/
def valI (s : Str) : Res (Int × Int) :=
  if 256 ≤ s.length then .ub else
  let code (e : Str) : Int := if e = [] then 0 else s.length - e.length + 1
  let at' (e : Str) : Int := s.length - e.length + 1
  let s2 := s.dropWhile (· = 32)
  let sd := match s2 with
    | 43 :: t => t
    | 45 :: t => t
    | t => t
  let neg := s2.head? = some 45
  let c0 : UInt8 := sd.head?.getD 0
  let c1 : UInt8 := sd.tail.head?.getD 0
  if (48 < c0 ∧ c0 ≤ 57) ∨ (c0 = 48 ∧ (c1 = 0 ∨ (48 ≤ c1 ∧ c1 ≤ 57))) then
    let (v, e) := strtol 10 s2
    .ok (asInt v, code e)
  else if c0 = 36 then
    if (48 ≤ c1 ∧ c1 ≤ 57) ∨ (65 ≤ c1 ∧ c1 ≤ 70) then
      let (v, e) := strtol 16 (if neg then 45 :: sd.tail else sd.tail)
      .ok (asInt v, code e)
    else .ok (0, at' sd.tail)
  else if c0 = 48 ∧ (c1 = 120 ∨ c1 = 88) then
    let (v, e) := strtol 16 s2
    .ok (asInt v, if e = [] then 0 else at' (if sd.length < e.length + 2 then sd.tail.tail else e))
  else .ok (0, at' sd)

end Gdx.ValInt
