import Verif.Model.DiffOpts
import Verif.Model.Merge
import Verif.Model.ValInt

/-!
The options and the input files of gdxmerge: `/repo/src/tools/gdxmerge/gdxmerge.cpp` main 710-768, GetParameters 584-692, FindGDXFiles 358-405. The file system is a
parameter (`Sys`), the messages are not modelled.
-/

namespace Gdx.MergeOpts
open Gdx CmdPar DiffOpts

/-- gdxmerge.cpp:606-612 with the numbers of KP (585-591); AddParam adds 10000 -/
def keys : List (Str × Int) :=
  [(str "ID", 10001), (str "EXCLUDE", 10002), (str "BIG", 10003), (str "STRICT", 10004), (str "Output", 10005), (str "O", 10005)]

/-- IncludeList, ExcludeList, SizeCutOff if DoBigSymbols, StrictMode, OutFile, FilePatterns -/
structure Conf where
  incl : List Str := []
  excl : List Str := []
  big : Option Int := none
  strict : Bool := false
  out : Str := []
  pats : List Str := []

/-- gdxmerge.cpp:627-650: the identifiers in KS -/
def idParse : Nat → Str → Res (List Str)
  | 0, _ => .ub
  | n + 1, s =>
    if s = [] then .ok [] else do
    let (x, r) := match s.dropWhile fun c => !isSep c with
      | [] => (s, [])
      | _ :: r => (s.takeWhile fun c => !isSep c, trim r)
    let xs ← idParse n r
    pure (if trim x = [] then xs else trim x :: xs)

/-- gdxmerge.cpp:624-681: one parameter; true if it is an error -/
def step (c : Conf) (p : Param) : Res (Conf × Bool) :=
  if p.1 = 1 then do
    let xs ← idParse (p.2.length + 1) p.2
    pure ({ c with incl := c.incl ++ xs }, false)
  else if p.1 = 2 then do
    let xs ← idParse (p.2.length + 1) p.2
    pure ({ c with excl := c.excl ++ xs }, false)
  else if p.1 = 3 then do
    let old := c.big.getD 10000000
    if p.2 = [] then pure ({ c with big := some old }, false) else do
    let (v, k) ← ValInt.valI p.2
    pure ({ c with big := some (if k = 0 then v else old) }, false)
  else if p.1 = 4 then pure ({ c with strict := c.strict || uEqual p.2 (str "true") }, false)
  else if p.1 = 5 then if c.out = [] then pure ({ c with out := p.2 }, false) else pure (c, true)
  else pure ({ c with pats := c.pats ++ [p.2] }, false)

/-- the loop; true if there was no error -/
def steps : Conf → List Param → Res (Conf × Bool)
  | c, [] => .ok (c, true)
  | c, p :: l => do
    let (c, e) ← step c p
    let (c, b) ← steps c l
    pure (c, b && !e)

/-- gdxmerge.cpp:685-689 -/
def outName (s : Str) : Str := if s = [] then str "merged.gdx" else if hasExt s then s else s ++ gdx

/-- gdxmerge.cpp:597-691: there is one round of the loop for an empty list, with ke_empty (cmdpar.cpp:325-331) -/
def getParams (l : List Param) : Res (Conf × Bool) := do
  let (c, b) ← steps {} (if l = [] then [(-1, [])] else l)
  pure ({ c with out := outName c.out }, b)

/-- The file system: parameter files, whether a file exists, whether it can be written, the names that match a pattern (FindFirst, FindNext), the text of the date of a
    file, and its content -/
structure Sys where
  params : Str → Option (List Str)
  isFile : Str → Bool
  writable : Str → Bool
  find : Str → List Str
  date : Str → Str
  disk : Str → Disk

/-- strutilx.cpp:758-761 ExtractFilePathEx (for Linux) -/
def pathOf (s : Str) : Str := (s.reverse.dropWhile (· ≠ 47)).reverse

/-- strutilx.cpp:828-832 ChangeFileExtEx with an empty extension -/
def noExt (s : Str) : Str := if hasExt s then (s.reverse.dropWhile (· ≠ 46)).tail.reverse else s

/-- an input file, with its name -/
structure Found where
  name : Str
  id : Str
  info : Str

/-- gdxmerge.cpp:374-396: one name that was found; `n` files are in the list -/
def entry (sys : Sys) (path name : Str) (n : Nat) : Found :=
  let s := noExt name
  let id := if !goodUEL s || trim s = [] then str "File_" ++ intToStr ((n : Int) + 1) else s
  ⟨path ++ name, id, sys.date (path ++ name) ++ [32, 32] ++ (path ++ name)⟩

def addNames (sys : Sys) (out path : Str) : List Str → List Found → List Found × Bool
  | [], fs => (fs, true)
  | x :: xs, fs =>
    if x = str "." ∨ x = str ".." then addNames sys out path xs fs
    else if out = path ++ x then ((addNames sys out path xs fs).1, false)
    else addNames sys out path xs (fs ++ [entry sys path x fs.length])

/-- gdxmerge.cpp:358-405 FindGDXFiles -/
def findFiles (sys : Sys) (out : Str) (fs : List Found) (pat : Str) : List Found × Bool :=
  if sys.find pat = [] then (fs, false) else addNames sys out (pathOf pat) (sys.find pat) fs

/-- gdxmerge.cpp:762-767: the loop over the patterns; `none` if the program ends -/
def findAll (sys : Sys) (c : Conf) : List Found → List Str → Option (List Found)
  | fs, [] => some fs
  | fs, p :: ps =>
    let (fs, ok) := findFiles sys c.out fs p
    if !ok && c.strict then none else findAll sys c fs ps

/-- how the program goes on. For an error: whether the output file was deleted, and whether a new one was begun -/
inductive Outcome
  | audit
  | usage
  | fail (deleted begun : Bool)
  | run (c : Conf) (fs : List Found)

/-- the files for the merge -/
def inFile (sys : Sys) (f : Found) : Merge.InFile := ⟨f.id, f.info, sys.disk f.name⟩

def opt (c : Conf) : Merge.Opt := { incl := c.incl, excl := c.excl, big := c.big }

/-- gdxmerge.cpp:730-768. OpenOutput takes a ShortString: 256 bytes. -/
def start (sys : Sys) (l : List Param) : Res Outcome := do
  let (c, ok) ← getParams l
  if !ok then pure (.fail false false)
  else if sys.isFile c.out && c.strict then pure (.fail false false)
  else if c.incl ≠ [] ∧ c.excl ≠ [] then pure (.fail (sys.isFile c.out) false)
  else do
    let out ← short c.out
    if !sys.writable out then pure (.fail (sys.isFile c.out) false)
    else match findAll sys c [] c.pats with
      | none => pure (.fail (sys.isFile c.out) true)
      | some fs => pure (.run c fs)

/-- gdxmerge.cpp:710-768 -/
def main (sys : Sys) (args : List Str) : Res Outcome :=
  match args with
  | [] => .ok .usage
  | a :: t =>
    if uEqual a (str "AUDIT") then .ok .audit
    else if t = [] ∧ a = str "/?" then .ok .usage
    else do
      let (b, l) ← crack keys sys.params args
      if b then start sys l else pure (.fail false false)

end Gdx.MergeOpts
