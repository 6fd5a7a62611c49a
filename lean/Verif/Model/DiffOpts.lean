import Verif.Model.CmdPar
import Verif.Model.Diff

/-!
The options of gdxdiff: `/repo/src/tools/gdxdiff/gdxdiff.cpp` main, 743-975, up to the first file that is opened. A conversion of a string into a number (utils::val) is a
parameter `num`, a test for a file is a parameter `ex`. The messages are not modelled: only whether ErrorCode is set.
-/

namespace Gdx.DiffOpts
open Gdx CmdPar

/-- ASCII characters -/
def str (s : String) : Str := s.toList.map fun c => c.toNat.toUInt8

/-- gdxdiff.cpp:754-771, gdxdiff.hpp:49-65: the parameters (with a value, 10000 added to the number) and the keywords -/
def keys : List (Str × Int) :=
  [(str "I", 10000), (str "Input", 10000), (str "Output", 10003), (str "O", 10003), (str "Eps", 10001), (str "RelEps", 10002), (str "Field", 10004),
   (str "SetDesc", 10005), (str "IDE", 10006), (str "ID", 10007), (str "SkipID", 10014), (str "FldOnly", 8), (str "DiffOnly", 9), (str "CmpDefaults", 10),
   (str "CmpDomains", 11), (str "MatrixFile", 12), (str "IgnoreOrder", 13)]

/-- what the program goes on with: InFile1, InFile2, DiffFileName, UsingIDE, and the options of the comparison -/
structure Conf where
  file1 : Str
  file2 : Str
  diff : Str
  ide : Bool
  opt : Diff.Opt

inductive Outcome
  | audit
  | usage
  | run (c : Conf)

/-- strutilx.cpp:740-747 StrUEqual -/
def uEqual (a b : Str) : Bool := upper a = upper b

/-- short_string.cpp:17-26: the 256 bytes of a ShortString; the copy is not checked -/
def short (s : Str) : Res Str := if s.length ≤ 255 then .ok s else .ub

/-- cmdpar.cpp:325-331 GetParams -/
def param (l : List Param) (n : Nat) : Param := l[n]?.getD (-1, [])

/-- utils.cpp:152-159 trim -/
def isWs (c : UInt8) : Bool := c = 32 || c = 9 || c = 10 || c = 13
def trim (s : Str) : Str := ((s.dropWhile isWs).reverse.dropWhile isWs).reverse

/-- gdxdiff.cpp:821-843, 689-697 GetAsDouble: whether there is an error, and the value. `num s` is the value if val accepts the whole string, and it is not negative. -/
def epsOf (num : Str → Option Dbl) (l : List Param) (v : Int) : Res (Bool × Dbl) := do
  match ← hasParam l v with
  | none => pure (false, Dbl.zero)
  | some s => match num s with
    | some d => pure (false, d)
    | none => pure (true, Dbl.zero)

/-- gdxdiff.cpp:850-878: whether there is an error, and the single field (fld_maybe) -/
def fieldOf (l : List Param) : Res (Bool × Option Nat) := do
  match ← hasParam l 4 with
  | none => pure (false, none)
  | some s =>
    if uEqual s (str "All") then pure (false, none)
    else if uEqual s (str "L") then pure (false, some 0)
    else if uEqual s (str "M") then pure (false, some 1)
    else if uEqual s (str "Up") then pure (false, some 3)
    else if uEqual s (str "Lo") then pure (false, some 2)
    else if uEqual s (str "Prior") || uEqual s (str "Scale") then pure (false, some 4)
    else pure (true, none)

/-- gdxdiff.cpp:898-911: whether there is an error, and CompSetText -/
def textOf (l : List Param) : Res (Bool × Bool) := do
  match ← hasParam l 5 with
  | none => pure (false, true)
  | some s =>
    let s := upper s
    if s = str "0" ∨ s = str "N" ∨ s = str "F" then pure (false, false)
    else if s = [] ∨ s = str "1" ∨ s = str "Y" ∨ s = str "T" then pure (false, true)
    else pure (true, true)

/-- gdxdiff.cpp:894-896 -/
def ideOf (l : List Param) : Res Bool := do
  match ← hasParam l 6 with
  | none => pure false
  | some s => pure (s.head? = some 89 || s.head? = some 121 || s.head? = some 49)

def isSep (c : UInt8) : Bool := c = 44 || c = 32

/-- gdxdiff.cpp:938-943: `if (idList->IndexOf(ID) < 0) idList->Add(ID)` -/
def addId (ids : List Str) (x : Str) : List Str :=
  if x = [] ∨ (lookup false x ids).isSome then ids else ids ++ [x]

/-- gdxdiff.cpp:924-944: the loop over the identifiers in S -/
def idLoop : Nat → Str → List Str → Res (List Str)
  | 0, _, _ => .ub
  | n + 1, s, ids =>
    if s = [] then .ok ids else
    match s.dropWhile fun c => !isSep c with
    | [] => idLoop n [] (addId ids (trim s))
    | _ :: r => idLoop n (trim r) (addId ids (trim (s.takeWhile fun c => !isSep c)))

/-- gdxdiff.cpp:920-946 -/
def idsFrom (v : Int) : List Param → List Str → Res (List Str)
  | [], ids => .ok ids
  | p :: l, ids =>
    if p.1 = v then do
      let s ← short (trim p.2)
      idsFrom v l (← idLoop (s.length + 1) s ids)
    else idsFrom v l ids

/-- gdxdiff.cpp:916-949 populateListFromParams -/
def idList (l : List Param) (v : Int) : Res (Option (List Str)) := do
  match ← hasParam l v with
  | none => pure none
  | some _ => pure (some (← idsFrom v l []))

/-- ".gdx" -/
def gdx : Str := str ".gdx"

/-- gdxdiff.cpp:724-728 CheckFile -/
def checkFile (ex : Str → Bool) (f : Str) : Str := if !ex f && !hasExt f then f ++ gdx else f

/-- gdxdiff.cpp:803-819: DiffFileName -/
def outOf (l : List Param) : Res Str := do
  let s ← match ← hasParam l 3 with
    | some s => pure s
    | none => if (param l 2).1 = -2 then short (param l 2).2 else pure []
  let s := if s = [] then str "diffile" else s
  if hasExt s then pure s else short (s ++ gdx)

/-- gdxdiff.cpp:783-975: from the list of parameters -/
def optsOf (num : Str → Option Dbl) (ex : Str → Bool) (l : List Param) : Res Outcome := do
  let f1 := if (param l 0).1 = 0 then (param l 0).2 else []
  let f2 := if (param l 1).1 = -2 then (param l 1).2 else []
  let out ← outOf l
  let (e1, eps) ← epsOf num l 1
  let (e2, rel) ← epsOf num l 2
  let diffOnly := hasKey l 9
  let (e3, fld) ← fieldOf l
  let e4 := hasKey l 8 && (fld = none || diffOnly)
  let ide ← ideOf l
  let (e5, txt) ← textOf l
  let ids ← idList l 7
  let skip ← idList l 14
  if f1 = [] || f2 = [] || e1 || e2 || e3 || e4 || e5 then pure .usage else
  pure (.run { file1 := checkFile ex f1, file2 := checkFile ex f2, diff := out, ide := ide, opt := {
    eps := eps, rel := rel, active := (match fld with | none => [0, 1, 2, 3, 4] | some f => [f]), fldOnly := if hasKey l 8 then fld else none,
    diffOnly := diffOnly, compText := txt, matrix := hasKey l 12, ignoreOrder := hasKey l 13, showDef := hasKey l 10, compDom := hasKey l 11,
    ids := ids, skip := skip } })

/-- gdxdiff.cpp:743-975 -/
def main (num : Str → Option Dbl) (ex : Str → Bool) (fs : Str → Option (List Str)) (args : List Str) : Res Outcome :=
  match args with
  | a :: _ => if uEqual a (str "AUDIT") then .ok .audit else do
    let (b, l) ← crack keys fs args
    if b then optsOf num ex l else pure .usage
  | [] => do
    let (b, l) ← crack keys fs args
    if b then optsOf num ex l else pure .usage

end Gdx.DiffOpts
