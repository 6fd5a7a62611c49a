import Verif.Model.DiffOpts
import Verif.Model.Diff

/-!
gdxdiff as a whole, src/tools/gdxdiff/gdxdiff.cpp: FatalErrorExit 93-113, OpenGDX 124-139, main 730-1176, on POSIX. Error messages go to the
error output and are not modelled. Loading the library always succeeds.
-/

namespace Gdx.DiffMain
open Gdx Gdx.Diff
open Gdx.DiffOpts (str Conf)

/-- what the program finds. `disk`: the files with their content, one name for each file; an existing file can be read. `create`: the error number of
    creating a file; `canDelete`: what unlink answers for an existing file, open or not; `canRename`: what rename answers (it fails, for example, if the
    directories are on different file systems); `unfinished`: what another reader sees of the temporary file while it is written; `audit`,
    `usage`: the texts of AuditLine and of Usage. -/
structure World where
  disk : Str → Option (List UInt8)
  create : Str → Int
  canDelete : Str → Bool
  canRename : Str → Str → Bool
  unfinished : List UInt8
  audit : Str
  usage : Str

/-- what the program leaves: its exit code, what it wrote to the standard output, and the files -/
structure Result where
  code : Nat
  std : Str
  disk : Str → Option (List UInt8)

/-- the files after a change of one of them -/
def upd (d : Str → Option (List UInt8)) (n : Str) (c : Option (List UInt8)) : Str → Option (List UInt8) := fun m => if m = n then c else d m

/-- gdxdiff.cpp:1004 -/
def tmpName (n : Nat) : Str := str "tmpdifffile" ++ intToStr n ++ str ".gdx"

/-- gdxdiff.cpp:1003-1008: the first name that is free, from number `n` on. `N++` is undefined behaviour after the last one. -/
def freeTmp (d : Str → Option (List UInt8)) : Nat → Nat → Res Str
  | 0, _ => .ub
  | k + 1, n => if (d (tmpName n)).isSome then freeTmp d k (n + 1) else .ok (tmpName n)

/-- gdxdiff.cpp:124-152 OpenGDX with the table `us`: the content of the file and the table, or the exit code -/
def openFile (z : Cz) (d : Str → Option (List UInt8)) (n : Str) (us : List Str) : Res (Except Nat (List UInt8 × List Str)) :=
  match d n with
  | none => .ok (.error 3)
  | some f => do
    match ← openGDX z f us with
    | none => pure (.error 4)
    | some (_, us) => pure (.ok (f, us))

/-- gdxdiff.hpp:67-77 StatusText -/
def statusText : Status → Str
  | .same => str "Symbols are identical"
  | .notf1 => str "Symbol not found in file 1"
  | .notf2 => str "Symbol not found in file 2"
  | .dim => str "Dimensions are different"
  | .typ => str "Types are different"
  | .key => str "Keys are different"
  | .data => str "Data are different"
  | .dim10 => str "Dim >= maxdim"
  | .dim10diff => str "Dim >= maxdim & different"
  | .domain => str "Domains are different"

/-- strutilx.cpp:769-773 PadLeft -/
def padLeft (s : Str) (w : Nat) : Str := List.replicate (min 255 w - s.length) 32 ++ s

/-- gdxdiff.cpp:1080-1085 -/
def longest (t : List (Str × Status)) : Nat := t.foldl (fun n p => if p.1.length > n then p.1.length else n) 1

/-- gdxdiff.cpp:1075-1090 -/
def summary (t : List (Str × Status)) : Str :=
  if t = [] then str "No differences found" ++ [10]
  else str "Summary of differences:" ++ [10] ++ (t.map fun p => padLeft p.1 (longest t) ++ str "   " ++ statusText p.2 ++ [10]).flatten

/-- gdxdiff.cpp:972-995 -/
def heading (w : World) (c : Conf) : Str :=
  w.audit ++ [10] ++ str "File1 : " ++ c.file1 ++ [10] ++ str "File2 : " ++ c.file2 ++ [10] ++
  (match c.opt.ids with | none => [] | some l => str "ID    :" ++ (l.map fun s => 32 :: s).flatten ++ [10]) ++
  (match c.opt.skip with | none => [] | some l => str "SkipID:" ++ (l.map fun s => 32 :: s).flatten ++ [10])

/-- gdxdiff.cpp:1128-1146, from the files `d` on: does the output have its name, and the files -/
def deliver (w : World) (c : Conf) (tmp : Str) (d : Str → Option (List UInt8)) : Bool × (Str → Option (List UInt8)) :=
  let (ok, d) := if (d c.diff).isNone then (true, d) else if w.canDelete c.diff then (true, upd d c.diff none) else (false, d)
  if ok = false then (false, d) else
  let d := match d tmp with
    | none => d
    | some f => if w.canRename tmp c.diff then upd (upd d tmp none) c.diff (some f) else d
  ((d c.diff).isSome, d)

/-- gdxdiff.cpp:1153-1175: the last lines, with the name of the output -/
def ending (c : Conf) (tmp : Str) (ok : Bool) : Str :=
  let n := if ok then c.diff else tmp
  (if ok then [] else str "Could not rename " ++ tmp ++ str " to " ++ c.diff ++ [10]) ++ str "Output: " ++ n ++ [10] ++
  (if c.ide then str "GDXDiff file written: " ++ n ++ str "[FIL:\"" ++ n ++ str "\",0,0]" ++ [10] else []) ++ str "GDXDiff finished" ++ [10]

/-- gdxdiff.cpp:972-1176. `statusTable` repeats the opening of the two files, with the same results. -/
def run (e : Env) (z : Cz) (fuel fuel' : Nat) (w : World) (c : Conf) : Res Result := do
  let tmp ← freeTmp w.disk 2147483647 1
  let (_, (_, err)) ← openWriteEx e Gx.new false (w.create tmp) producer 0
  if err ≠ 0 then pure { code := 6, std := heading w c, disk := w.disk } else do
  let d := upd w.disk tmp (some w.unfinished)
  match ← openFile z d c.file1 (startUels c.opt) with
  | .error k => pure { code := k, std := heading w c, disk := upd d tmp none }
  | .ok (f1, us) => do
    match ← openFile z d c.file2 us with
    | .error k => pure { code := k, std := heading w c, disk := upd d tmp none }
    | .ok (f2, _) => do
      match ← statusTable c.opt e z fuel f1 f2 with
      | none => .ub
      | some (x, t) => do
        let file ← finishDiff z fuel' x.gd c.file1 c.file2
        let (ok, d) := deliver w c tmp (upd d tmp (some file))
        pure { code := if ok = false then 7 else if t = [] then 0 else 1, std := heading w c ++ summary t ++ ending c tmp ok, disk := d }

/-- gdxdiff.cpp:730-1176 -/
def gdxdiff (num : Str → Option Dbl) (fs : Str → Option (List Str)) (e : Env) (z : Cz) (fuel fuel' : Nat) (w : World) (args : List Str) : Res Result := do
  match ← DiffOpts.main num (fun n => (w.disk n).isSome) fs args with
  | .audit => pure { code := 0, std := w.audit ++ [10], disk := w.disk }
  | .usage => pure { code := 2, std := w.usage, disk := w.disk }
  | .run c => run e z fuel fuel' w c

end Gdx.DiffMain
