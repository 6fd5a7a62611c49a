import Verif.Model.DumpOpts
import Verif.Model.DumpAll
import Verif.Model.DumpBas
import Verif.Model.DumpList

/-!
gdxdump as a whole, src/tools/gdxdump/gdxdump.cpp: main 1002-1495. Error messages are not modelled, except for the one that goes to the output. Loading the library always succeeds.
-/

namespace Gdx.DumpMain
open Gdx Gdx.Dump Gdx.DumpOpts
open Gdx.DiffOpts (str)

/-- what the program finds: the files with their content, the files that can be opened for writing, and the texts of AUDIT and of Usage. An existing file can be read. -/
structure World where
  disk : Str → Option (List UInt8)
  canWrite : Str → Bool
  audit : Str
  usage : Str

/-- what the program leaves: its exit code, what it wrote to the standard output, and the file it wrote -/
structure Result where
  code : Nat
  std : Str := []
  file : Option (Str × Str) := none
  deriving DecidableEq

/-- gdxdump.cpp:151-163: the elements with Format=csv, from number `n` on -/
def uelsCsv (g : Gx) : Nat → Int → Res Str
  | 0, _ => .ok []
  | f + 1, n => do
    let (_, s, _) ← umUelGet g n
    let r ← uelsCsv g f (n + 1)
    pure ([32, 32] ++ writeUEL s ++ [10] ++ r)

/-- gdxdump.cpp:266-272, up to the first `/` -/
def sAsSet : Bool → Str
  | false => str "alias (Symbol, Dim, Type, *);" ++ [10] ++ str "set    gdxitems(Symbol,Dim,Type)  Items in the GDX file "
  | true => str "alias (Symbol, Dim, Type, Domain, *);" ++ [10] ++ str "set    gdxitemsDI(Symbol,Dim,Type,Domain)  Items in the GDX file "

/-- gdxdump.cpp:1406-1423: what comes before everything else -/
def front (r : Run) (g : Gx) : Res Str := do
  let acr ← if r.fmt = .csv then .ok [] else writeAcronyms g
  let uel ← if r.uels = [] ∨ r.fmt = .csv then .ok [] else do
    let s ← writeUelTable g r.uels
    pure ([10] ++ s)
  pure ((if r.opt.data = true then [] else sGdxIn ++ r.input ++ [10]) ++ acr ++ uel)

/-- gdxdump.cpp:1454: `Symbol not found: ` -/
def notFound (s : Str) : Str := str "Symbol not found: " ++ s ++ [10]

/-- gdxdump.cpp:1442-1456: the option Symb; text, exit code and LineCount -/
def oneSymbol (r : Run) (z : Cz) (fuel : Nat) (g : Gx) (s : Str) : Res (Str × Nat × Nat) := do
  let (b, n) := findSymbol g s
  if b = false then pure (notFound s, 6, 0)
  else match r.fmt with
    | .csv => do
      let (_, t) ← writeCSV r.opt.toOpt z fuel g n
      pure (t, 0, 0)
    | .normal => do
      let (_, t) ← writeSymbol r.opt z fuel g n
      pure (t ++ (if r.opt.showHdr = true then [] else [10]), 0, 0)
    | .gamsbas => do
      let (_, t, lc) ← writeBas r.opt z fuel g 0 n
      pure (t ++ (if r.opt.showHdr = true then [] else [10]), 0, lc)

/-- gdxdump.cpp:1457-1471: all symbols; text and LineCount. With Format=csv there always is a symbol. -/
def allOf (r : Run) (z : Cz) (fuel : Nat) (g : Gx) : Res (Str × Nat) := do
  let (t, lc) ← (match r.fmt with
    | .gamsbas => do
      let (_, t, lc) ← allBas r.opt z fuel (systemInfo g).1.toNat g 0 1
      pure (t, lc)
    | _ => do
      let (_, t) ← allSymbols r.opt z fuel (systemInfo g).1.toNat g 1
      pure (t, 0))
  pure (sOnEmpty ++ (if r.opt.data = true then [] else sEolCom) ++ t ++ sOffEmpty, lc)

/-- gdxdump.cpp:1472-1474 -/
def listing (r : Run) (lc : Nat) : Str := if r.fmt = .gamsbas ∧ lc > 6 then sOnListing else []

/-- gdxdump.cpp:1415-1474: text and exit code -/
def body (r : Run) (z : Cz) (fuel : Nat) (g : Gx) : Res (Str × Nat) :=
  match r.act with
  | .uelsCsv => do
    let t ← uelsCsv g (systemInfo g).2.toNat 1
    pure (t, 0)
  | .symbols => do
    let t ← writeSymbolInfo g
    pure (t, 0)
  | .asSet false => pure (sAsSet false ++ symbolsAsSet g, 0)
  | .asSet true => do
    let (_, t) ← symbolsAsSetDI g
    pure (sAsSet true ++ t, 0)
  | .domInfo => do
    let (_, t) ← writeDomainInfo g
    pure (t, 0)
  | .setText => do
    let (_, t) ← writeSetText z fuel g
    pure (t, 0)
  | .csv s => do
    let (t, c, lc) ← oneSymbol r z fuel g s
    pure (t ++ listing r lc, c)
  | .one s => do
    let (t, c, lc) ← oneSymbol r z fuel g s
    pure (t ++ listing r lc, c)
  | .all => do
    let (t, lc) ← allOf r z fuel g
    pure (t ++ listing r lc, 0)

/-- gdxdump.cpp:1388-1395 and gxfile.cpp:1725-1730 gdxFileVersion -/
def versionText (g : Gx) : Res Str := do
  let v ← IntText.niceStr (fileInfo g).1 4
  let c ← IntText.niceStr (fileInfo g).2 4
  let s ← IntText.niceStr (systemInfo g).1 4
  let u ← IntText.niceStr (systemInfo g).2 4
  pure (str "*  File version   : " ++ g.fsId ++ [10] ++ str "*  Producer       : " ++ g.producer ++ [10] ++ str "*  File format    : " ++ v ++ [10] ++
    str "*  Compression    : " ++ c ++ [10] ++ str "*  Symbols        : " ++ s ++ [10] ++ str "*  Unique Elements: " ++ u ++ [10])

/-- the functions that read records from the file after it was opened -/
def reads : Act → Bool
  | .setText | .csv _ | .one _ | .all => true
  | _ => false

/-- gdxdump.cpp:1480-1482 -/
def ideLine (r : Run) : Str :=
  if r.ide = true ∧ r.out ≠ [] then str "GDXDump file written: " ++ r.out ++ str "[FIL:\"" ++ r.out ++ str "\",0,0]" ++ [10] else []

/-- gdxdump.cpp:1397-1482. The output file is emptied when it is opened; if it is the input file, records that are read later are not defined here. -/
def dump (w : World) (z : Cz) (fuel : Nat) (r : Run) (g : Gx) : Res Result :=
  if r.out ≠ [] ∧ w.canWrite r.out = false then .ok { code := 6 }
  else if r.out ≠ [] ∧ r.out = r.input ∧ reads r.act = true then .ub
  else do
    let p ← front r g
    let (t, c) ← body r z fuel g
    pure { code := c, std := (if r.out = [] then p ++ t else []) ++ ideLine r, file := if r.out = [] then none else some (r.out, p ++ t) }

/-- gdxdump.cpp:1369-1384: open the file; the object, or the exit code. gdxGetLastError only changes an object that has an error. -/
def opened (w : World) (z : Cz) (n : Str) : Res (Except Nat Gx) :=
  match w.disk n with
  | none => .ub
  | some f => do
    let (g, (_, err)) ← openRead z Gx.new (.content f)
    if err ≠ 0 then pure (.error 4)
    else if (getLastError g).2 ≠ 0 then pure (.error 5)
    else pure (.ok g)

/-- gdxdump.cpp:1002-1495. With -V the message for the IDE is left out. -/
def gdxdump (w : World) (z : Cz) (fuel : Nat) (dtoa : Dbl → DblStr.Digits) (args : List Str) : Res Result := do
  match ← main (fun n => (w.disk n).isSome) dtoa args with
  | .audit => pure { code := 0, std := w.audit }
  | .usage => pure { code := 1, std := w.usage }
  | .fail c => pure { code := c }
  | .version n => do
    match ← opened w z n with
    | .error c => pure { code := c }
    | .ok g => do
      let t ← versionText g
      pure { code := 0, std := t }
  | .run r => do
    match ← opened w z r.input with
    | .error c => pure { code := c }
    | .ok g => dump w z fuel r g

end Gdx.DumpMain
