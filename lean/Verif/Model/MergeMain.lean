import Verif.Model.MergeOpts
import Verif.Model.Merge

/-!
gdxmerge as a whole, src/tools/gdxmerge/gdxmerge.cpp: main 710-825. Messages are not modelled, except for the last lines. Loading the library always succeeds.
-/

namespace Gdx.MergeMain
open Gdx Gdx.Merge Gdx.MergeOpts
open Gdx.DiffOpts (str)

/-- what becomes of the output file -/
inductive Left
  | untouched
  | deleted
  | unfinished
  | written (name : Str) (file : List UInt8)
  deriving DecidableEq

/-- what the program leaves: its exit code, the output file, and the last lines of the standard output -/
structure Result where
  code : Nat
  out : Left
  last : Str := []
  deriving DecidableEq

/-- gdxmerge.cpp:804-822 -/
def lastLines (strict : Bool) (errs read : Nat) : Str :=
  [10] ++ (if errs > 0 then str "Number of errors reported = " ++ intToStr errs ++ [10] else []) ++
  (if read = 0 then (if strict then [] else str "No valid input files specified" ++ [10])
   else str "Merge complete, " ++ intToStr read ++ str " input files merged" ++ [10])

/-- gdxmerge.cpp:710-825. After an error the output file that was begun is not closed. `srt`: what std::sort makes of the records -/
def gdxmerge (sys : Sys) (e : Env) (z : Cz) (srt : List MRec → List MRec) (args : List Str) : Res Result := do
  match ← MergeOpts.main sys args with
  | .audit => pure { code := 0, out := .untouched }
  | .usage => pure { code := 0, out := .untouched }
  | .fail deleted begun => pure { code := 1, out := if begun then .unfinished else if deleted then .deleted else .untouched }
  | .run c fs => do
    let s ← mergeTo (opt c) e z srt (fs.map (inFile sys))
    let (m, _) ← gdxClose z s.out
    pure { code := if s.read = 0 ∧ c.strict = true then 1 else 0, out := .written c.out m.file, last := lastLines c.strict s.errs s.read }

end Gdx.MergeMain
