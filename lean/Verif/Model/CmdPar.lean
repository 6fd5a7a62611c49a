import Verif.Model.StrHash
import Verif.Model.Prim

/-!
The command line of gdxdiff and gdxmerge: `/repo/src/tools/library/cmdpar.cpp`. A position in the string FParams is the rest of the string from there.
CrackCommandLine is called once per program, with empty lists. Parameter files are a function from names to lines.
-/

namespace Gdx.CmdPar
open Gdx

/-- ParamRec: number of the keyword and value. Numbers below 0: -1 ke_empty, -2 ke_unknown, -3 ke_noparam, -4 ke_badfile (cmdpar.hpp) -/
abbrev Param := Int × Str

/-- strutilx.cpp:67-72 UpperCase; `::toupper` in the C locale -/
def upper (s : Str) : Str := s.map upC

/-- cmdpar.cpp:63-67 SkipBl: `char` is signed, so that bytes from 128 on are smaller than the blank -/
def isBl (c : UInt8) : Bool := c ≤ 32 || 128 ≤ c

def skipBl (s : Str) : Str := s.dropWhile isBl

/-- what is before the first stop character, and what is behind it -/
def cutAt (p : UInt8 → Bool) (s : Str) : Str × Str := (s.takeWhile fun c => !p c, (s.dropWhile fun c => !p c).tail)

def stopPlain (c : UInt8) : Bool := c = 32 || c = 9 || c = 61
def stopQuoted (c : UInt8) : Bool := c = 34 || c = 61

/-- cmdpar.cpp:69-98 NextToken: the token, and the rest -/
def nextToken (s : Str) : Str × Str :=
  match skipBl s with
  | [] => ([], [])
  | c :: t => if c ≠ 34 then cutAt stopPlain (c :: t) else cutAt stopQuoted t

/-- cmdpar.cpp:136-139: single quotes around the value are removed -/
def bare (s : Str) : Str := if 2 ≤ s.length ∧ s.head? = some 39 ∧ s.getLast? = some 39 then s.tail.dropLast else s

/-- cmdpar.cpp:127-130: a `=` is skipped -/
def skipEq (s : Str) : Str :=
  match skipBl s with
  | 61 :: t => t
  | t => t

/-- cmdpar.cpp:100-142 NextKey. A number from 10000 on (kk_big) is that of a parameter, which has a value. -/
def nextKey (ks : List (Str × Int)) (s : Str) : Param × Str :=
  let (t, r) := nextToken s
  if t = [] then ((-1, []), r) else
  match ks.find? fun k => upper k.1 = upper t with
  | none => (if t.head? = some 64 then (-4, t.tail) else (-2, t), r)
  | some (_, v) =>
    if 10000 ≤ v then
      let (w, r) := nextToken (skipEq r)
      (if w = [] then (-3, []) else (v - 10000, bare w), r)
    else ((v, []), r)

/-- cmdpar.cpp:275-283: the loop; it ends at the first empty token -/
def params (ks : List (Str × Int)) : Nat → Str → Res (List Param)
  | 0, _ => .ub
  | n + 1, s =>
    let (p, r) := nextKey ks s
    if p.1 = -1 then .ok [] else do
      let l ← params ks n r
      pure (p :: l)

/-- cmdpar.cpp:150-169: what is appended for one argument -/
def piece (s : Str) : Str :=
  if s = [] then []
  else if 32 ∉ s then 32 :: s
  else if 61 ∉ s then
    if s.head? ≠ some 64 then 32 :: 34 :: (s ++ [34]) else 32 :: 64 :: 34 :: (s.tail ++ [34])
  else 32 :: (s.takeWhile (· ≠ 61) ++ 61 :: 32 :: 34 :: ((s.dropWhile (· ≠ 61)).tail ++ [34]))

/-- cmdpar.cpp:144-173 ExpandCommandLine; `args` are the arguments without the name of the program -/
def expandArgs (args : List Str) : Str := args.flatMap piece

/-- strutilx.cpp:834-838 ExtractFileExtEx is not empty (for Linux) -/
def hasExt (s : Str) : Bool := s.reverse.find? (fun c => c = 47 || c = 46) = some 46

/-- ".txt" -/
def txt : Str := [46, 116, 120, 116]

/-- common.cpp:127-135 splitString at blanks, from the word begun with `w`: no empty string at the end -/
def splitAux : Str → Str → List Str
  | w, [] => if w = [] then [] else [w]
  | w, c :: t => if c = 32 then w :: splitAux [] t else splitAux (w ++ [c]) t

def splitSp (s : Str) : List Str := splitAux [] s

/-- cmdpar.cpp:234-245: what is appended for a line of a parameter file -/
def lineText (s : Str) : Str :=
  match splitSp s with
  | [] => []
  | w :: ws => if w = [] ∨ w.head? = some 42 then [] else ((w :: ws).takeWhile (· ≠ [])).flatMap fun w => 32 :: w

/-- cmdpar.cpp:248-251: the last word of a line has 255 bytes -/
def badLine (s : Str) : Bool :=
  match splitSp s with
  | [] => false
  | w :: ws => !(w = [] || w.head? = some 42) && ((w :: ws).getLast (by simp)).length = 255

/-- cmdpar.cpp:223-254: the text of a parameter file; false if it cannot be opened -/
def fileText (fs : Str → Option (List Str)) (name : Str) : Bool × Str :=
  match fs (if hasExt name then name else name ++ txt) with
  | none => (false, [])
  | some ls => (!ls.any badLine, ls.flatMap lineText)

/-- cmdpar.cpp:175-258 ExpandFiles -/
def expandFiles (fs : Str → Option (List Str)) : Nat → Str → Res (Bool × Str)
  | 0, _ => .ub
  | n + 1, src =>
    match src.dropWhile (· ≠ 64) with
    | [] => .ok (true, src)
    | _ :: t =>
      if t = [] then .ok (false, src.takeWhile (· ≠ 64)) else do
      let brk : UInt8 := if t.head? = some 34 then 34 else 32
      let t := if t.head? = some 34 then t.tail else t
      let rest := t.dropWhile (· ≠ brk)
      let (b, d) := fileText fs (t.takeWhile (· ≠ brk))
      let (b', d') ← expandFiles fs n (if rest.head? = some 34 then rest.tail else rest)
      pure (b && b', src.takeWhile (· ≠ 64) ++ d ++ d')

/-- cmdpar.cpp:285-287: an unknown first parameter is the input, if there is none -/
def markInput (l : List Param) : List Param :=
  if l.any fun p => p.1 = 0 then l else
  match l with
  | (k, s) :: t => if k = -2 then (0, s) :: t else l
  | [] => []

/-- cmdpar.cpp:46-48, 59-290 CrackCommandLine with AddParameters: the result, and the list of parameters -/
def crack (ks : List (Str × Int)) (fs : Str → Option (List Str)) (args : List Str) : Res (Bool × List Param) := do
  let w := expandArgs args
  let (b, s) ← expandFiles fs (w.length + 1) w
  let l ← params ks (s.length + 1) s
  pure (b, markInput l)

/-- cmdpar.cpp:27-34 FindKeyV: the last value -/
def findKey (l : List Param) (v : Int) : Option Str := (l.reverse.find? fun p => p.1 = v).map Prod.snd

/-- cmdpar.cpp:304-313 HasParam; short_string.cpp:17-26: the copy into the 256 bytes of a ShortString is not checked -/
def hasParam (l : List Param) (v : Int) : Res (Option Str) :=
  match findKey l v with
  | none => .ok none
  | some s => if s.length ≤ 255 then .ok (some s) else .ub

/-- cmdpar.cpp:321-323 HasKey -/
def hasKey (l : List Param) (v : Int) : Bool := (findKey l v).isSome

end Gdx.CmdPar
