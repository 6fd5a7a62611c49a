import Verif.Model.Diff

/-!
The program `gdxmerge`: `/repo/src/tools/gdxmerge/gdxmerge.cpp`, on top of the model of the library. It reads the input files one
after the other (object PGX, a new one for each file) and writes one output file (object PGXMerge).
Not modelled: the command line and the search for files (their result are `Opt` and a list of `InFile`), messages, and the
test of the memory that is compiled only with OLD_MEMORY_CHECK. The output file can be opened.
The order of records with equal keys that `std::sort` leaves is not specified, so the sorting function is a parameter.
-/

namespace Gdx.Merge

/-- gdxmerge.hpp:46-50 GDXFileEntry: FFileId, FFileInfo, and what opening the file FFileName finds -/
structure InFile where
  id : Str
  info : Str
  disk : Disk

/-- The options, gdxmerge.cpp:563-667: IncludeList, ExcludeList, DoBigSymbols with SizeCutOff; `compr`: the compression flag that
    gdxOpenWrite takes from the environment -/
structure Opt where
  incl : List Str := []
  excl : List Str := []
  big : Option Int := none
  compr : Int := 0

/-- gdxmerge.hpp:24-30 ProcessPass -/
inductive Pass where
  | doAll | scan | small | big
  deriving DecidableEq, Repr

/-- A record of TTblGamsData (gmsdata.hpp): keys and values -/
abbrev MRec := List Int × List Dbl

/-- gdxmerge.hpp:32-44 GAMSSymbol with its name in the list. `data = none`: SyData is null. SyMemory is never read. -/
structure MSym where
  name : Str
  dim : Int
  typ : Nat
  sub : Int
  expl : Str := []
  size : Int := 0
  skip : Bool := false
  data : Option (List MRec) := some []

/-- The state of the program: PGXMerge, StrPool (texts in order, the first is the empty one), the list of symbols, FErrorCount,
    NextAcroNr, InputFilesRead -/
structure MState where
  out : Gx
  pool : List Str := [[]]
  syms : List MSym := []
  errs : Nat := 0
  nextAcro : Int := 0
  read : Nat := 0

/-- gdxmerge.hpp:22 DataTypSize (std::array::at throws for a type it does not have, and nothing catches that) -/
def typSize (t : Nat) : Res Nat := need ([1, 1, 5, 5, 0] : List Nat)[t]?

/-- gdxmerge.cpp:119-123 AddUEL: if the label is refused the result is an uninitialised variable -/
def addUEL (g : Gx) (s : Str) : Res (Gx × Int) := do
  let (g, (ok, n)) ← uelRegisterStr g s
  if ok then pure (g, n) else .ub

/-- AddUEL for several labels -/
def addUELs (g : Gx) : List Str → Res (Gx × List Int)
  | [] => .ok (g, [])
  | s :: ss => do
    let (g, n) ← addUEL g s
    let (g, ns) ← addUELs g ss
    pure (g, n :: ns)

/-- gmsobj.hpp:719-734 AddObject of TXStrPool: the number of the text; the comparison is exact (`sameTextPChar<false>`), and no two
    entries are equal, so that searching the list from the front finds the same entry as the hash table -/
def poolAdd (pool : List Str) (s : Str) : List Str × Nat :=
  match pool.findIdx? (· == s) with
  | some n => (pool, n)
  | none => (pool ++ [s], pool.length)

/-- gmsobj.hpp:557-562 IndexOf: the first symbol with this name, ignoring case -/
def symIdx (l : List MSym) (s : Str) : Option Nat := l.findIdx? fun y => sameText false y.name s

/-- gdxmerge.cpp:125-138: may a symbol with this name be added? (comparison with case) -/
def Opt.takes (o : Opt) (s : Str) : Bool :=
  (o.incl.isEmpty || o.incl.contains s) && (o.excl.isEmpty || !o.excl.contains s)

/-! ### acronyms -/

/-- gdxmerge.cpp:532-543 FindAcronym for these numbers; the number, or 0 if there is none -/
def findAcr (m : Gx) (id : Str) : List Int → Res Int
  | [] => .ok 0
  | n :: ns => do
    let a ← acronymGetInfo m n
    let (nm, _, _) ← need a
    if sameText false id nm then pure n else findAcr m id ns

/-- 1, …, count -/
def upTo (n : Int) : List Int := (List.range n.toNat).map fun k : Nat => (k : Int) + 1

/-- gdxmerge.cpp:518-529: the loop of ShareAcronyms. With `assertWithMessage` the program ends; that is not a normal result here. -/
def shareLoop (m : Gx) : Gx → List Int → Res Gx
  | g, [] => .ok g
  | g, n :: ns => do
    let a ← acronymGetInfo g n
    let (nm, tx, _) ← need a
    let k ← findAcr m nm (upTo (acronymCount m))
    if k ≤ 0 then shareLoop m g ns else do
    let b ← acronymGetInfo m k
    let (_, _, ix) ← need b
    if ix ≤ 0 then .ub else do
    let (g, _) ← acronymSetInfo g n nm tx ix
    shareLoop m g ns

/-- gdxmerge.cpp:503-530 ShareAcronyms -/
def shareAcronyms (s : MState) (g : Gx) : Res (MState × Gx) :=
  if acronymCount g = 0 then .ok (s, (acronymNextNr g 0).1) else do
  let s ← (if s.nextAcro = 0 then do
      let a ← acronymGetInfo g 1
      let (_, _, ix) ← need a
      pure { s with nextAcro := ix }
    else .ok s)
  let g := (acronymNextNr g s.nextAcro).1
  let g ← shareLoop s.out g (upTo (acronymCount g))
  pure (s, g)

/-- gdxmerge.cpp:482-498: the loop of KeepNewAcronyms. For an acronym without a name the program looks for a number with a result of
    FindAcronym below 0, which there never is: the counter overflows. -/
def keepLoop (next : Int) (g : Gx) : Gx → List Int → Res Gx
  | m, [] => .ok m
  | m, n :: ns => do
    let (_, new, _) ← acronymGetMapping g n
    if new < next then keepLoop next g m ns else do
    let a ← acronymGetInfo g n
    let (nm, tx, _) ← need a
    if nm = [] then .ub else do
    let (m, _) ← acronymAdd m nm tx new
    keepLoop next g m ns

/-- gdxmerge.cpp:473-501 KeepNewAcronyms -/
def keepAcronyms (s : MState) (g : Gx) : Res MState :=
  let nn := (acronymNextNr g (-1)).2
  if nn ≤ s.nextAcro then .ok s else do
  let m ← keepLoop s.nextAcro g s.out (upTo (acronymCount g))
  pure { s with out := m, nextAcro := nn }

/-! ### reading a file -/

/-- the first entries of an array are replaced -/
def overwrite {α : Type} (old new : List α) : List α := new ++ old.drop new.length

/-- The local arrays IndxS, IndxI and Vals of AddPGXFile and CollectBigOne: 20 strings, 20 numbers, 5 values -/
structure Bufs where
  strs : List Str := List.replicate 20 []
  idx : List Int := List.replicate 20 0
  vals : List Dbl := List.replicate 5 Dbl.zero

/-- gdxmerge.cpp:280-283, 342-345: the value of a record of a set becomes the number of its text in StrPool -/
def poolText (g : Gx) (typ : Nat) (pool : List Str) (vals : List Dbl) : Res (List Str × List Dbl) := do
  let v0 ← need vals.head?
  if typ = dtSet ∧ nonZero v0 then do
    let n ← Diff.roundInt v0
    let (pool, k) := poolAdd pool (getElemText g n).2.1
    pure (pool, intDbl k :: vals.drop 1)
  else pure (pool, vals)

/-- gdxmerge.cpp:275-279 (`last = Dim`) and 339-341 (`last = SyDim + 1`): the labels from position `frst - 1` to `last - 1` are
    registered, their numbers go to the array behind the number of the file. Arrays have 20 entries. -/
def setIndex (m : Gx) (b : Bufs) (frst last : Nat) : Res (Gx × Bufs) :=
  if frst = 0 then .ub
  else if frst ≤ last ∧ 20 ≤ last then .ub else do
  let (m, ns) ← addUELs m ((b.strs.take last).drop (frst - 1))
  pure (m, { b with idx := b.idx.take frst ++ ns ++ b.idx.drop (frst + ns.length) })

/-- gmsdata.hpp:68-76 AddRecord of the table of a symbol -/
def record (y : MSym) (b : Bufs) : Res MRec := do
  let n ← typSize y.typ
  if 20 < y.dim then .ub else pure (b.idx.take y.dim.toNat, b.vals.take n)

/-- One round of the loops 274-285 and 338-347. `last`: the end of the inner loop, `none`: there is no inner loop (Dim = 0) -/
def takeRec (g : Gx) (y : MSym) (typ : Nat) (last : Option Nat) (m : Gx) (pool : List Str) (b : Bufs) (r : RecOut Str) :
    Res (Gx × List Str × Bufs × MRec) := do
  let b := { b with strs := overwrite b.strs r.key, vals := overwrite b.vals r.vals }
  let (m, b) ← (match last with
    | none => .ok (m, b)
    | some n => setIndex m b r.frst n)
  let (pool, vals) ← poolText g typ pool b.vals
  let b := { b with vals := vals }
  let x ← record y b
  pure (m, pool, b, x)

/-- the loop over the records; the number of rounds is limited by the bytes that are left -/
def takeRecs (y : MSym) (typ : Nat) (last : Option Nat) : Nat → Gx → Gx → List Str → Bufs →
    Res (Gx × Gx × List Str × Bufs × List MRec)
  | 0, _, _, _, _ => .ub
  | n + 1, g, m, pool, b => do
    let (g, o) ← dataReadStr g
    match o with
    | none => do
      let (g, _) ← dataReadDone g
      pure (g, m, pool, b, [])
    | some r => do
      let (m, pool, b, x) ← takeRec g y typ last m pool b r
      let (g, m, pool, b, xs) ← takeRecs y typ last n g m pool b
      pure (g, m, pool, b, x :: xs)

/-- variable or equation -/
def isVarEqu (t : Nat) : Bool := t == dtVar || t == dtEqu

/-- gdxmerge.cpp:221-228: Size -/
def symSize (y : MSym) (typ : Nat) (cnt : Int) : Int := cnt * y.dim * (if isVarEqu typ then 4 else 1)

/-- gdxmerge.cpp:256-264: are dimension, type and subtype those of the symbol in the list? -/
def agrees (y : MSym) (dim : Int) (typ : Nat) (sub : Int) : Bool :=
  decide (dim + 1 = y.dim) && decide (typ = y.typ) && (!isVarEqu typ || decide (sub = y.sub))

/-- gdxmerge.cpp:194-217: the symbol `nr` of the file: its number in the list, added if it is new; also dimension, type, subtype, count
    and text. `none`: the symbol is left out. -/
def listSym (o : Opt) (s : MState) (g : Gx) (nr : Int) : Res (MState × Option (Nat × SymInfo × SymInfoX)) :=
  let a := symbolInfo g nr
  let x := symbolInfoX g nr
  if ¬ a.dim < 20 then .ok ({ s with errs := s.errs + 1 }, none) else
  let a := if a.typ = dtAlias then { a with typ := dtSet } else a
  let x := if (symbolInfo g nr).typ = dtAlias then { x with userInfo := 0 } else x
  match symIdx s.syms a.name with
  | some n => .ok (s, some (n, a, x))
  | none =>
    if o.takes a.name = false then .ok (s, none) else do
    let _ ← typSize a.typ
    pure ({ s with syms := s.syms ++ [{ name := a.name, dim := a.dim + 1, typ := a.typ, sub := x.userInfo }] },
      some (s.syms.length, a, x))

/-- gdxmerge.cpp:230-251: the size of the symbol (passes `scan` and `doAll`) -/
def countSym (p : Pass) (y : MSym) (typ : Nat) (cnt : Int) : MSym :=
  if p = .scan ∨ p = .doAll then
    let y := { y with size := y.size + symSize y typ cnt }
    if 2147483647 < ((y.data.getD []).length : Int) + cnt then { y with skip := true, data := none } else y
  else y

/-- gdxmerge.cpp:266-270: the explanatory text, and whether that is an error -/
def explText (y : MSym) (t : Str) : MSym × Nat :=
  if y.expl = [] then ({ y with expl := t }, 0) else (y, if t ≠ [] ∧ y.expl ≠ t then 1 else 0)

/-- gdxmerge.cpp:272-286: the records of the symbol `nr` are appended to those of symbol `n` of the list -/
def collect (z : Cz) (id : Str) (s : MState) (g : Gx) (b : Bufs) (nr : Int) (n : Nat) (y : MSym) (typ : Nat) (last : Option Nat) :
    Res (MState × Gx × Bufs) := do
  let (m, f) ← addUEL s.out id
  let b := { b with idx := overwrite b.idx [f] }
  let (g, _) ← dataReadStrStart z g nr
  let (g, m, pool, b, xs) ← takeRecs y typ last (g.fuel + 1) g m s.pool b
  let y := { y with data := y.data.map (· ++ xs) }
  pure ({ s with out := m, pool := pool, syms := s.syms.set n y }, g, b)

/-- gdxmerge.cpp:191-287: one round of the loop over the symbols of a file -/
def addSym (o : Opt) (z : Cz) (p : Pass) (id : Str) (s : MState) (g : Gx) (b : Bufs) (nr : Int) : Res (MState × Gx × Bufs) := do
  let (s, l) ← listSym o s g nr
  match l with
  | none => pure (s, g, b)
  | some (n, a, x) => do
    let y ← need s.syms[n]?
    if y.data.isNone ∨ y.skip then pure (s, g, b) else do
    let y := countSym p y a.typ x.recs
    let s := { s with syms := s.syms.set n y }
    if y.data.isNone then pure ({ s with errs := s.errs + 1 }, g, b)
    else if p = .scan ∨ (p = .small ∧ o.big.getD 10000000 ≤ y.size) ∨ (p = .big ∧ y.size < o.big.getD 10000000) then pure (s, g, b)
    else if agrees y a.dim a.typ x.userInfo = false then pure ({ s with errs := s.errs + 1 }, g, b)
    else
      let (y, e) := explText y x.expl
      collect z id { s with errs := s.errs + e } g b nr n y a.typ (if a.dim > 0 then some a.dim.toNat else none)

def addSyms (o : Opt) (z : Cz) (p : Pass) (id : Str) : MState → Gx → Bufs → List Int → Res (MState × Gx × Bufs)
  | s, g, b, [] => .ok (s, g, b)
  | s, g, b, nr :: ns => do
    let (s, g, b) ← addSym o z p id s g b nr
    addSyms o z p id s g b ns

/-- gdxmerge.cpp:140-295 AddPGXFile -/
def addFile (o : Opt) (z : Cz) (p : Pass) (s : MState) (f : InFile) : Res MState := do
  let (g, (_, err)) ← openReadXX z Gx.new f.disk 0
  if err ≠ 0 then pure s else do
  let (s, g) ← shareAcronyms { s with read := s.read + 1 } g
  let s := { s with out := (uelRegisterStrStart s.out).1 }
  let (s, g, _) ← addSyms o z p f.id s g {} (upTo (systemInfo g).1)
  let s ← keepAcronyms s g
  let _ ← gdxClose z g
  pure { s with out := (uelRegisterDone s.out).1 }

def addFiles (o : Opt) (z : Cz) (p : Pass) : MState → List InFile → Res MState
  | s, [] => .ok s
  | s, f :: fs => do
    let s ← addFile o z p s f
    addFiles o z p s fs

/-- gdxmerge.cpp:320-357: CollectBigOne for one file; the arrays stay as they are from file to file -/
def bigFile (z : Cz) (n : Nat) (s : MState) (b : Bufs) (f : InFile) : Res (Option (MState × Bufs)) := do
  let (g, (_, err)) ← openReadXX z Gx.new f.disk 0
  if err ≠ 0 then pure none else do
  let y ← need s.syms[n]?
  let (ok, nr) := findSymbol g y.name
  let (s, g, b) ← (if ok then collect z f.id s g b nr n y y.typ (some (y.dim + 1).toNat) else .ok (s, g, b))
  let s ← keepAcronyms s g
  let _ ← gdxClose z g
  pure (some (s, b))

/-- the loop of CollectBigOne: did it come to its end? -/
def bigFiles (z : Cz) (n : Nat) : MState → Bufs → List InFile → Res (MState × Bool)
  | s, _, [] => .ok (s, true)
  | s, b, f :: fs => do
    let r ← bigFile z n s b f
    match r with
    | none => pure (s, false)
    | some (s, b) => bigFiles z n s b fs

/-- gdxmerge.cpp:297-361 CollectBigOne -/
def collectBig (z : Cz) (fs : List InFile) (s : MState) (n : Nat) : Res (MState × Bool) := do
  let y ← need s.syms[n]?
  if y.data.isNone then pure (s, false) else do
  let (s, ok) ← bigFiles z n { s with out := (uelRegisterStrStart s.out).1 } {} fs
  if ok = false then pure (s, false) else pure ({ s with out := (uelRegisterDone s.out).1 }, true)

/-! ### writing -/

/-- gdxmerge.cpp:429-437: one record. GetRecord leaves the values behind those of the record as they are. -/
def writeRec (pool : List Str) (typ : Nat) (m : Gx) (r : MRec) : Res Gx := do
  let v0 ← need r.2.head?
  if typ = dtSet ∧ nonZero v0 then do
    let n ← Diff.roundInt v0
    let t ← at0 pool n
    let (m, (_, k)) := addSetText m t
    stateOf (dataWriteRaw m r.1 (intDbl k :: r.2.drop 1))
  else stateOf (dataWriteRaw m r.1 r.2)

def writeRecs (pool : List Str) (typ : Nat) : Gx → List MRec → Res Gx
  | m, [] => .ok m
  | m, r :: rs => do
    let m ← writeRec pool typ m r
    writeRecs pool typ m rs

/-- gdxmerge.cpp:408-442 WritePGXFile; `srt`: what std::sort makes of the records -/
def writeSym (o : Opt) (z : Cz) (srt : List MRec → List MRec) (p : Pass) (s : MState) (n : Nat) : Res MState := do
  let y ← need s.syms[n]?
  match y.data with
  | none => pure s
  | some d =>
    if p = .small ∧ o.big.getD 10000000 ≤ y.size then pure s else do
    let (m, _) ← dataWriteRawStart s.out y.name y.expl y.dim y.typ y.sub
    let m ← writeRecs s.pool y.typ m (srt d)
    let (m, _) ← dataWriteDone z m
    pure { s with out := m, syms := s.syms.set n { y with data := none } }

def writeSyms (o : Opt) (z : Cz) (srt : List MRec → List MRec) (p : Pass) : MState → List Nat → Res MState
  | s, [] => .ok s
  | s, n :: ns => do
    let s ← writeSym o z srt p s n
    writeSyms o z srt p s ns

/-- gdxmerge.cpp:749-753 -/
def bigSyms (o : Opt) (z : Cz) (srt : List MRec → List MRec) (fs : List InFile) : MState → List Nat → Res MState
  | s, [] => .ok s
  | s, n :: ns => do
    let (s, ok) ← collectBig z fs s n
    let s ← (if ok then writeSym o z srt .big s n else .ok s)
    bigSyms o z srt fs s ns

/-- "Merged_set_" -/
def mergedSet : Str := [77, 101, 114, 103, 101, 100, 95, 115, 101, 116, 95]
/-- "Merge set" -/
def mergeSet : Str := [77, 101, 114, 103, 101, 32, 115, 101, 116]
/-- "gdxmerge" -/
def producer : Str := [103, 100, 120, 109, 101, 114, 103, 101]

/-- gdxmerge.cpp:456-464: the first number from `k` on whose name is free; there are at most as many names in use as symbols -/
def freeName (m : Gx) : Nat → Nat → Res Str
  | 0, _ => .ub
  | n + 1, k =>
    let s := mergedSet ++ intToStr k
    if (findSymbol m s).2 < 0 then .ok s else freeName m n (k + 1)

def writeNames : Gx → List InFile → Res Gx
  | m, [] => .ok m
  | m, f :: fs => do
    let (m, (_, k)) := addSetText m f.info
    let (m, _) ← dataWriteStr m [f.id] [intDbl k]
    writeNames m fs

/-- gdxmerge.cpp:444-471 WriteNameList -/
def writeNameList (z : Cz) (m : Gx) (fs : List InFile) : Res Gx := do
  let nm ← freeName m ((systemInfo m).1.toNat + 1) 1
  let (m, _) ← dataWriteStrStart m nm mergeSet 1 0 0
  let m ← writeNames m fs
  let (m, _) ← dataWriteDone z m
  pure m

/-- gdxmerge.cpp:113-117, 694-765: the state before the output file is closed. The symbols are numbered in the order of the list. -/
def mergeTo (o : Opt) (e : Env) (z : Cz) (srt : List MRec → List MRec) (fs : List InFile) : Res MState := do
  let (m, _) ← openWriteEx e Gx.new false 0 producer o.compr
  let s : MState := { out := { m with storeDom := false } }
  let s ← (match o.big with
    | none => do
      let s ← addFiles o z .doAll s fs
      writeSyms o z srt .doAll s (List.range s.syms.length)
    | some _ => do
      let s ← addFiles o z .scan s fs
      let s ← addFiles o z .small s fs
      let s ← writeSyms o z srt .small s (List.range s.syms.length)
      bigSyms o z srt fs s (List.range s.syms.length))
  let m ← writeNameList z s.out fs
  pure { s with out := m }

/-- The output file and the number of errors -/
def merge (o : Opt) (e : Env) (z : Cz) (srt : List MRec → List MRec) (fs : List InFile) : Res (List UInt8 × Nat) := do
  let s ← mergeTo o e z srt fs
  let (m, _) ← gdxClose z s.out
  pure (m.file, s.errs)

end Gdx.Merge
