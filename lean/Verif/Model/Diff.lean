import Verif.Model.Api
import Verif.Model.Float

/-!
The program `gdxdiff`: `/repo/src/tools/gdxdiff/gdxdiff.cpp`, on top of the model of the library. It works with three objects: the
two files that are compared (PGX1, PGX2) and the difference file (PGXDIF).
Not modelled: the command line (its result is `Opt`), messages, the choice of the temporary file name and its renaming.
Loops that read records have a bound on the number of rounds as first argument; running out of rounds is `ub`, so that a theorem with
the result `ok` for all large enough bounds says that the loop ends.
-/

namespace Gdx.Diff

/-- gdxdiff.hpp:35-46 StatusCode -/
inductive Status where
  | same | notf1 | notf2 | dim | typ | key | data | dim10 | dim10diff | domain
  deriving DecidableEq, Repr

/-- The options, gdxdiff.cpp:62-71, 821-957. `fldOnly`: fldOnly = fld_yes with the field; `active`: ActiveFields; `ids`, `skip`: IDsOnly,
    SkipIDs -/
structure Opt where
  eps : Dbl := Dbl.zero
  rel : Dbl := Dbl.zero
  active : List Nat := [0, 1, 2, 3, 4]
  fldOnly : Option Nat := none
  diffOnly : Bool := false
  compText : Bool := true
  matrix : Bool := false
  ignoreOrder : Bool := false
  showDef : Bool := false
  compDom : Bool := false
  ids : Option (List Str) := none
  skip : Option (List Str) := none

/-- The objects and tables of the program: PGX1, PGX2, PGXDIF, UELTable (numbers from 0), staticUELNum, diffUELsRegistered -/
structure Objs where
  g1 : Gx
  g2 : Gx
  gd : Gx
  uels : List Str
  static : Nat
  reg : Bool := false

/-- State of the comparison of one symbol: SymbOpen and Status of CompareSy -/
structure Cmp where
  o : Objs
  opn : Bool := false
  st : Status := .same

/-- The symbol that is compared: ID, Dim, ST, VarEquType, DefValues of CompareSy -/
structure Sy where
  id : Str
  dim : Nat
  typ : Nat
  vet : Int
  defs : List Dbl

/-- "ins1", "ins2", "dif1", "dif2" -/
def ins1 : Str := [105, 110, 115, 49]
def ins2 : Str := [105, 110, 115, 50]
def dif1 : Str := [100, 105, 102, 49]
def dif2 : Str := [100, 105, 102, 50]

/-- gdxdiff.hpp GamsFieldNames: "Level", "Marginal", "Lower", "Upper", "Scale" -/
def fieldNames : List Str := [[76, 101, 118, 101, 108], [77, 97, 114, 103, 105, 110, 97, 108], [76, 111, 119, 101, 114],
  [85, 112, 112, 101, 114], [83, 99, 97, 108, 101]]

/-- "Differences", "Differences Only", "Differences Field = " -/
def txtDiff : Str := [68, 105, 102, 102, 101, 114, 101, 110, 99, 101, 115]
def txtOnly : Str := txtDiff ++ [32, 79, 110, 108, 121]
def txtField : Str := txtDiff ++ [32, 70, 105, 101, 108, 100, 32, 61, 32]

/-- variable or equation -/
def isVarEqu (t : Nat) : Bool := t == dtVar || t == dtEqu

/-! ### numbers -/

/-- gdxdiff.cpp:319-326, the part of DoublesEqual that compares two numbers by their difference -/
def close (o : Opt) (v1 v2 : Dbl) : Bool :=
  let d := (v1.fv.sub v2.fv).abs
  if d.le o.eps.fv then true
  else if (FV.fin 0).lt o.rel.fv then
    let a := v1.fv.abs
    let b := v2.fv.abs
    (d.divPos ((FV.fin 1).add (if a.le b then a else b))).le o.rel.fv
  else false

/-- gdxdiff.cpp:298-339 DoublesEqual -/
def doublesEqual (o : Opt) (g1 g2 : Gx) (v1 v2 : Dbl) : Res Bool :=
  let s1 := mapValue g1.sv v1
  let s2 := mapValue g2.sv v2
  if s1 = 5 then
    if s2 = 5 then do
      let (a1, n1) ← acronymName g1 v1
      if a1 then do
        let (a2, n2) ← acronymName g2 v2
        if a2 then pure (sameText false n1 n2) else pure (close o v1 v2)
      else pure (close o v1 v2)
    else .ok (decide (s2 = 4) && (FV.fin 0).lt o.eps.fv && v1.fv.abs.le o.eps.fv)
  else if s2 = 5 then .ok (decide (s1 = 4) && (FV.fin 0).lt o.eps.fv && v2.fv.abs.le o.eps.fv)
  else .ok (decide (s1 = s2))

/-- are the two records equal in these fields? Stops at the first difference. -/
def fieldsEqual (o : Opt) (g1 g2 : Gx) (v1 v2 : List Dbl) : List Nat → Res Bool
  | [] => .ok true
  | t :: ts => do
    let a ← need v1[t]?
    let b ← need v2[t]?
    let e ← doublesEqual o g1 g2 a b
    if e then fieldsEqual o g1 g2 v1 v2 ts else pure false

/-- the five fields in the order of the loops `for T`, those that are active -/
def fieldsOf (o : Opt) : List Nat := (List.range 5).filter fun t => o.active.contains t

/-- gdlib/utils.hpp:510-514 round<int>: to a 64 bit integer (undefined out of range), then cut to 32 bits -/
def roundInt (d : Dbl) : Res Int :=
  match d.fv with
  | .fin q =>
    match (if 0 ≤ q then FV.round (q + 1 / 2) else FV.round (q - 1 / 2)) with
    | .fin r =>
      let n := if 0 ≤ r then ⌊r⌋ else ⌈r⌉
      if I64 n then .ok (Int.bmod n 4294967296) else .ub
    | _ => .ub
  | _ => .ub

/-! ### the difference file -/

/-- gdxdiff.cpp:164-166 the loop of RegisterDiffUELs -/
def regAll (g : Gx) : List Str → Res Gx
  | [] => .ok g
  | s :: ss => do
    let (g, _) ← uelRegisterStr g s
    regAll g ss

/-- gdxdiff.cpp:155-171 RegisterDiffUELs -/
def registerDiff (o : Opt) (x : Objs) : Res Objs :=
  if x.reg then .ok x else do
    let gd ← regAll (uelRegisterStrStart x.gd).1 (if o.ignoreOrder then x.uels.take x.static else x.uels)
    pure { x with gd := (getLastError (uelRegisterDone gd).1).1, reg := true }

/-- gdxdiff.cpp:185-196: the symbol in the difference file is started -/
def openSymb (o : Opt) (s : Sy) (gd : Gx) : Res Gx :=
  match o.fldOnly, isVarEqu s.typ with
  | some f, true => do
    let n ← need fieldNames[f]?
    stateOf (dataWriteStrStart gd s.id (txtField ++ n) (s.dim + 1) dtPar 0)
  | _, _ =>
    if o.diffOnly ∧ isVarEqu s.typ then stateOf (dataWriteStrStart gd s.id txtOnly (s.dim + 2) dtPar 0)
    else stateOf (dataWriteStrStart gd s.id txtDiff (s.dim + 1) s.typ s.vet)

/-- gdxdiff.cpp:182-184, 455-457 -/
def Status.toDiff (st : Status) : Status := if st = .dim10 then .dim10diff else st

/-- gdxdiff.cpp:452-457 -/
def Status.toKey (st : Status) : Status := if st = .same then .key else st.toDiff

/-- gdxdiff.cpp:630-632 -/
def Status.toData (st : Status) (eq : Bool) : Status := if eq = false ∧ st = .same then .data else st

/-- gdxdiff.cpp:181-198 CheckSymbOpen -/
def checkOpen (o : Opt) (s : Sy) (c : Cmp) : Res (Cmp × Bool) := do
  let x ← registerDiff o c.o
  if c.opn = false ∧ c.st.toDiff ≠ .dim10diff then do
    let gd ← openSymb o s x.gd
    pure ({ o := { x with gd := gd }, opn := true, st := c.st.toDiff }, true)
  else pure ({ o := x, opn := c.opn, st := c.st.toDiff }, c.opn)

/-- gdxdiff.cpp:217-224: the string for a key; "L__" and the number for a number behind the table -/
def keyStr (uels : List Str) (k : Int) : Res Str :=
  if k < uels.length then at0 uels k else .ok ([76, 95, 95] ++ intToStr k)

def keyStrs (f : Int → Res Str) : List Int → Res (List Str)
  | [] => .ok []
  | k :: ks => do
    let s ← f k
    let r ← keyStrs f ks
    pure (s :: r)

/-- gdxDataWriteStr with arrays of 20 strings and 5 values; more than 20 strings do not fit the array of the program -/
def writeRec (g : Gx) (keys : List Str) (vals : List Dbl) : Res Gx :=
  if 20 < keys.length then .ub
  else stateOf (dataWriteStr g ((keys ++ List.replicate 20 []).take g.nd) ((vals ++ List.replicate 5 Dbl.zero).take g.dataSize))

/-- gdxdiff.cpp:241-246: the values; one field only for `fldOnly` -/
def writeVals (o : Opt) (s : Sy) (vals : List Dbl) : Res (List Dbl) :=
  match o.fldOnly, isVarEqu s.typ with
  | some f, true => do
    let v ← need (vals ++ List.replicate 5 Dbl.zero)[f]?
    pure [v]
  | _, _ => .ok vals

/-- gdxdiff.cpp:209-248 WriteDiff -/
def writeDiff (o : Opt) (s : Sy) (c : Cmp) (act fld : Str) (keys : List Int) (vals : List Dbl) : Res Cmp := do
  let x ← registerDiff o c.o
  let ks ← keyStrs (keyStr x.uels) keys
  let vs ← writeVals o s vals
  let gd ← writeRec x.gd (ks ++ if o.diffOnly && isVarEqu s.typ then [fld, act] else [act]) vs
  pure { c with o := { x with gd := gd } }

/-- gdxdiff.cpp:250-266 WriteSetDiff -/
def writeSetDiff (o : Opt) (c : Cmp) (act : Str) (keys : List Int) (txt : Str) : Res Cmp := do
  let x ← registerDiff o c.o
  let ks ← keyStrs (at0 x.uels) keys
  let (gd, (_, n)) := addSetText x.gd txt
  let gd ← writeRec gd (ks ++ [act]) [intDbl n]
  pure { c with o := { x with gd := gd } }

/-! ### the comparison of records -/

/-- gdxdiff.cpp:372-383: the values that differ, field by field -/
def writeFields (o : Opt) (s : Sy) (keys : List Int) (v1 v2 : List Dbl) : List Nat → Cmp → Res Cmp
  | [], c => .ok c
  | t :: ts, c => do
    let a ← need v1[t]?
    let b ← need v2[t]?
    let n ← need fieldNames[t]?
    let e ← doublesEqual o c.o.g1 c.o.g2 a b
    if e then writeFields o s keys v1 v2 ts c else do
      let c ← writeDiff o s c dif1 n keys [a]
      let c ← writeDiff o s c dif2 n keys [b]
      writeFields o s keys v1 v2 ts c

/-- gdxdiff.cpp:342-354: are the values of two records with the same keys equal? -/
def valuesEqual (o : Opt) (s : Sy) (g1 g2 : Gx) (v1 v2 : List Dbl) : Res Bool :=
  if s.typ = dtPar then fieldsEqual o g1 g2 v1 v2 [0]
  else match o.fldOnly with
  | some f => fieldsEqual o g1 g2 v1 v2 [f]
  | none => fieldsEqual o g1 g2 v1 v2 (fieldsOf o)

/-- gdxdiff.cpp:341-387 CheckParDifference -/
def checkPar (o : Opt) (s : Sy) (c : Cmp) (keys : List Int) (v1 v2 : List Dbl) : Res (Cmp × Bool) := do
  let e ← valuesEqual o s c.o.g1 c.o.g2 v1 v2
  if e then pure (c, true) else do
  let (c, ok) ← checkOpen o s c
  if ok = false then pure (c, false)
  else if o.diffOnly && isVarEqu s.typ then do
    let c ← writeFields o s keys v1 v2 (fieldsOf o) c
    pure (c, false)
  else do
    let c ← writeDiff o s c dif1 [] keys v1
    let c ← writeDiff o s c dif2 [] keys v2
    pure (c, false)

/-- gdxdiff.cpp:392-401: the text with this number -/
def setText (g : Gx) (v : Dbl) : Res Str := do
  let n ← roundInt v
  pure (if n = 0 then [] else (getElemText g n).2.1)

/-- gdxdiff.cpp:389-421 CheckSetDifference -/
def checkSet (o : Opt) (s : Sy) (c : Cmp) (keys : List Int) (v1 v2 : Dbl) : Res (Cmp × Bool) := do
  let t1 ← setText c.o.g1 v1
  let t2 ← setText c.o.g2 v2
  if t1 = t2 then pure (c, true) else do
  let (c, ok) ← checkOpen o s c
  if ok = false then pure (c, false) else do
  let c ← writeSetDiff o c dif1 keys t1
  let c ← writeSetDiff o c dif2 keys t2
  pure (c, false)

/-- gdxdiff.cpp:480-488: a record in one file only, field by field -/
def writeInsFields (o : Opt) (s : Sy) (act : Str) (keys : List Int) (v : List Dbl) : List Nat → Cmp → Res Cmp
  | [], c => .ok c
  | t :: ts, c => do
    let a ← need v[t]?
    let n ← need fieldNames[t]?
    let c ← writeDiff o s c act n keys [a]
    writeInsFields o s act keys v ts c

/-- gdxdiff.cpp:425-445: is it a record with default values? -/
def isDefault (o : Opt) (s : Sy) (g1 g2 : Gx) (vals : List Dbl) : Res Bool :=
  if s.typ = dtPar then fieldsEqual o g1 g2 vals [Dbl.zero] [0]
  else if isVarEqu s.typ then fieldsEqual o g1 g2 vals s.defs (fieldsOf o)
  else .ok false

/-- gdxdiff.cpp:468-476: the text of an element goes to the difference file, and its number there replaces the value -/
def insText (s : Sy) (g gd : Gx) (vals : List Dbl) : Res (Gx × List Dbl) := do
  let v0 ← need vals.head?
  if s.typ = dtSet ∧ nonZero v0 then do
    let n ← roundInt v0
    let (gd, (_, k)) := addSetText gd (getElemText g n).2.1
    pure (gd, [intDbl k])
  else pure (gd, vals)

/-- gdxdiff.cpp:423-490 ShowInsert; `first`: the record is in file 1 -/
def showInsert (o : Opt) (s : Sy) (c : Cmp) (first : Bool) (keys : List Int) (vals : List Dbl) : Res Cmp := do
  let eq ← isDefault o s c.o.g1 c.o.g2 vals
  if eq && !o.showDef then pure c else do
  if c.st.toKey = .dim10diff then pure { c with st := c.st.toKey } else do
  let (c, ok) ← checkOpen o s { c with st := c.st.toKey }
  if ok = false then pure c else do
  let (gd, vals) ← insText s (if first then c.o.g1 else c.o.g2) c.o.gd vals
  let c := { c with o := { c.o with gd := gd } }
  if o.diffOnly && isVarEqu s.typ then writeInsFields o s (if first then ins1 else ins2) keys vals (fieldsOf o) c
  else writeDiff o s c (if first then ins1 else ins2) [] keys vals

/-- gdxdiff.cpp:609-617: difference of the keys in the first position where they differ, or 0; the difference is an `int` -/
def keyDiff : List Int → List Int → Res Int
  | a :: as, b :: bs => if ¬ I32 (a - b) then .ub else if a - b = 0 then keyDiff as bs else .ok (a - b)
  | _, _ => .ok 0

/-- gdxDataReadRaw or gdxDataReadMap with the array of the last call -/
def readRec (o : Opt) (g : Gx) (key : List Int) : Res (Gx × Option (RecOut Int)) :=
  if o.matrix then dataReadRaw g else dataReadMap g key

/-- the same with the object of file 1 -/
def next1 (o : Opt) (c : Cmp) (key : List Int) : Res (Cmp × Option (RecOut Int)) := do
  let (g, r) ← readRec o c.o.g1 key
  pure ({ c with o := { c.o with g1 := g } }, r)

def next2 (o : Opt) (c : Cmp) (key : List Int) : Res (Cmp × Option (RecOut Int)) := do
  let (g, r) ← readRec o c.o.g2 key
  pure ({ c with o := { c.o with g2 := g } }, r)

/-- gdxdiff.cpp:619-629: two records with the same keys; are they equal? -/
def checkRec (o : Opt) (s : Sy) (c : Cmp) (a b : RecOut Int) : Res (Cmp × Bool) :=
  if s.typ = dtSet then
    if o.compText then do
      let v1 ← need a.vals.head?
      let v2 ← need b.vals.head?
      checkSet o s c a.key v1 v2
    else .ok (c, true)
  else checkPar o s c a.key a.vals b.vals

/-- gdxdiff.cpp:618-634: two records with the same keys -/
def bothRecs (o : Opt) (s : Sy) (c : Cmp) (a b : RecOut Int) : Res Cmp := do
  let (c, eq) ← checkRec o s c a b
  pure { c with st := c.st.toData eq }

/-- gdxdiff.cpp:608-678: the loops over the records of the two files. `r1`, `r2`: the current records (`none`: Flg1, Flg2 false). The
    loops at the end (662-678) are the cases in which one file has no more records. -/
def cmpLoop (o : Opt) (s : Sy) : Nat → Cmp → Option (RecOut Int) → Option (RecOut Int) → Res Cmp
  | 0, _, _, _ => .ub
  | _ + 1, c, none, none => .ok c
  | n + 1, c, some a, none => do
    let c ← showInsert o s c true a.key a.vals
    let (c, r) ← next1 o c a.key
    cmpLoop o s n c r none
  | n + 1, c, none, some b => do
    let c ← showInsert o s c false b.key b.vals
    let (c, r) ← next2 o c b.key
    cmpLoop o s n c none r
  | n + 1, c, some a, some b => do
    let d ← keyDiff a.key b.key
    if d = 0 then do
      let c ← bothRecs o s c a b
      let (c, r1) ← next1 o c a.key
      let (c, r2) ← next2 o c b.key
      cmpLoop o s n c r1 r2
    else if d < 0 then do
      let c ← showInsert o s c true a.key a.vals
      let (c, r) ← next1 o c a.key
      cmpLoop o s n c r (some b)
    else do
      let c ← showInsert o s c false b.key b.vals
      let (c, r) ← next2 o c b.key
      cmpLoop o s n c (some a) r

/-- gdxdiff.cpp:573-580: the default record; gmsDefRecVar has 10 rows, gmsDefRecEqu has 7 (gclgms.h:189-212) -/
def defRecord (typ : Nat) (vet : Int) : Res (List Dbl) :=
  if typ = dtVar then (if 0 ≤ vet ∧ vet < 10 then .ok (defVar SVTab.default vet) else .ub)
  else if typ = dtEqu then (if 0 ≤ vet ∧ vet < 7 then .ok (defEqu SVTab.default (53 + vet)) else .ub)
  else .ok (List.replicate 5 Dbl.zero)

/-- gdxdiff.cpp:586-606: start of reading and first record -/
def startRead (o : Opt) (z : Cz) (g : Gx) (nr : Int) (dim : Nat) : Res (Gx × Option (RecOut Int)) := do
  let (g, (ok, _)) ← if o.matrix then dataReadRawStart z g nr else dataReadMapStart z g nr
  if ok then readRec o g (List.replicate dim 0) else pure (g, none)

/-- gdxdiff.cpp:200-207 SymbClose -/
def symbClose (z : Cz) (c : Cmp) : Res Cmp :=
  if c.opn then do
    let (gd, _) ← dataWriteDone z (getLastError c.o.gd).1
    pure { c with o := { c.o with gd := (getLastError gd).1 }, opn := false }
  else .ok c

/-- alias counts as set -/
def symTyp (t : Nat) : Nat := if t = dtAlias then dtSet else t

/-- gdxdiff.cpp:538-550: are the domains different? -/
def domsDiffer (o : Opt) (x : Objs) (sy1 sy2 : Int) (dim : Nat) : Res (Objs × Bool) :=
  if o.compDom = true ∧ 0 < dim then do
    let (g1, (_, d1)) ← symbolGetDomainX x.g1 sy1
    let (g2, (_, d2)) ← symbolGetDomainX x.g2 sy2
    let pad := fun (l : List Str) => (l ++ List.replicate 20 []).take dim
    pure ({ x with g1 := g1, g2 := g2 }, !(List.zipWith (sameText false) (pad d1) (pad d2)).all id)
  else .ok (x, false)

/-- gdxdiff.cpp:173-687 CompareSy: the entry of StatusTable, if there is one -/
def compareSy (o : Opt) (z : Cz) (fuel : Nat) (x : Objs) (sy1 sy2 : Int) : Res (Objs × Option (Str × Status)) := do
  let i1 := symbolInfo x.g1 sy1
  let vet := (symbolInfoX x.g1 sy1).userInfo
  let i2 := symbolInfo x.g2 sy2
  if symTyp i1.typ ≠ symTyp i2.typ then pure (x, some (i2.name, .typ))
  else if i1.dim ≠ i2.dim then pure (x, some (i2.name, .dim))
  else do
  let (x, df) ← domsDiffer o x sy1 sy2 i1.dim.toNat
  if df then pure (x, some (i2.name, .domain)) else do
  let defs ← defRecord (symTyp i1.typ) vet
  let s : Sy := ⟨i2.name, i1.dim.toNat, symTyp i1.typ, vet, defs⟩
  let st : Status := if 20 ≤ i1.dim ∨ (o.diffOnly = true ∧ 20 ≤ i1.dim - 1) then .dim10 else .same
  let (g1, r1) ← startRead o z x.g1 sy1 s.dim
  let (g2, r2) ← startRead o z x.g2 sy2 s.dim
  let c ← cmpLoop o s fuel { o := { x with g1 := g1, g2 := g2 }, st := st } r1 r2
  let c ← symbClose z c
  pure (c.o, if c.st = .same ∨ c.st = .dim10 then none else some (i2.name, c.st))

/-! ### the main program -/

/-- strhash.hpp Add of UELTable: the number (from 0) of the string, which is appended if there is no equal one -/
def addUel (l : List Str) (s : Str) : List Str × Nat :=
  match lookup false s l with
  | some n => (l, n)
  | none => (l ++ [s], l.length)

/-- gdxdiff.cpp:144-150 the loop of OpenGDX, `n` = number of the element, `k` = how many are left -/
def regFile : Nat → Int → Gx → List Str → Res (Gx × List Str)
  | 0, _, g, us => .ok (g, us)
  | k + 1, n, g, us => do
    let (_, s, _) ← umUelGet g n
    let (us, m) := addUel us s
    let (g, _) ← uelRegisterMap g m s
    regFile k (n + 1) g us

/-- gdxdiff.cpp:124-153 OpenGDX for a file with this content; `none` = FatalError -/
def openGDX (z : Cz) (f : List UInt8) (us : List Str) : Res (Option (Gx × List Str)) := do
  let (g, (_, err)) ← openRead z Gx.new (.content f)
  if err ≠ 0 then pure none else do
  let (_, n, _) ← umUelInfo g
  let (g, us) ← regFile n.toNat 1 (uelRegisterMapStart g).1 us
  pure (some ((getLastError (uelRegisterDone g).1).1, us))

/-- std::map::insert with the order of strcmp: nothing happens if the key is there -/
def insMap {α : Type} (k : Str) (v : α) : List (Str × α) → List (Str × α)
  | [] => [(k, v)]
  | (a, b) :: l => if k = a then (a, b) :: l else if k < a then (k, v) :: (a, b) :: l else (a, b) :: insMap k v l

/-- gdxdiff.cpp:1039-1048, 1062-1067: the identifiers with their numbers -/
def idTable (o : Opt) (g : Gx) : List (Str × Int) :=
  let l := (g.names.getD []).map Sym.name
  (l.zipIdx 1).foldl (fun t (p : Str × Nat) =>
    if (match o.ids with | none => true | some is => (lookup false p.1 is).isSome) &&
       (match o.skip with | none => true | some is => (lookup false p.1 is).isNone)
    then insMap p.1 (p.2 : Int) t else t) []

/-- the entry in the table, if there is one -/
def note (t : List (Str × Status)) : Option (Str × Status) → List (Str × Status)
  | some p => insMap p.1 p.2 t
  | none => t

/-- gdxdiff.cpp:1050-1057: the symbols of file 1 -/
def compareAll (o : Opt) (z : Cz) (fuel : Nat) : List (Str × Int) → Objs → List (Str × Status) → Res (Objs × List (Str × Status))
  | [], x, t => .ok (x, t)
  | (id, n) :: l, x, t =>
    if (findSymbol x.g2 id).1 then do
      let (x, e) ← compareSy o z fuel x n (findSymbol x.g2 id).2
      compareAll o z fuel l x (note t e)
    else compareAll o z fuel l x (insMap id .notf2 t)

/-- gdxdiff.cpp:1069-1074: the symbols of file 2 that are not in file 1 -/
def onlyIn2 (g1 : Gx) : List (Str × Int) → List (Str × Status) → List (Str × Status)
  | [], t => t
  | (id, _) :: l, t => onlyIn2 g1 l (if (findSymbol g1 id).1 then t else insMap id .notf1 t)

/-- gdxdiff.cpp:1018-1033: UELTable at the beginning -/
def startUels (o : Opt) : List Str :=
  (([ins1, ins2, dif1, dif2] ++ if o.diffOnly then fieldNames else []).foldl (fun l s => (addUel l s).1) [])

/-- "GDXDIFF" -/
def producer : Str := [71, 68, 88, 68, 73, 70, 70]

/-- the objects after both files are opened (gdxdiff.cpp:1010-1037); `none` = FatalError -/
def prepare (o : Opt) (e : Env) (z : Cz) (f1 f2 : List UInt8) : Res (Option Objs) := do
  let (gd, (_, err)) ← openWriteEx e Gx.new false 0 producer 0
  if err ≠ 0 then pure none else do
  let us := startUels o
  match ← openGDX z f1 us with
  | none => pure none
  | some (g1, us1) => do
    match ← openGDX z f2 us1 with
    | none => pure none
    | some (g2, us2) => pure (some { g1 := g1, g2 := g2, gd := { gd with storeDom := false }, uels := us2, static := us.length })

/-- gdxdiff.cpp:1039-1074: what is in StatusTable at the end; empty = "No differences found", exit code 0. -/
def statusTable (o : Opt) (e : Env) (z : Cz) (fuel : Nat) (f1 f2 : List UInt8) : Res (Option (Objs × List (Str × Status))) := do
  match ← prepare o e z f1 f2 with
  | none => pure none
  | some x => do
    let (x, t) ← compareAll o z fuel (idTable o x.g1) x []
    pure (some (x, onlyIn2 x.g1 (idTable o x.g2) t))

/-! ### the end of the difference file -/

/-- "FilesCompared", "File1", "File2" -/
def filesCompared : Str := [70, 105, 108, 101, 115, 67, 111, 109, 112, 97, 114, 101, 100]
def file1 : Str := [70, 105, 108, 101, 49]
def file2 : Str := [70, 105, 108, 101, 50]

/-- gdxdiff.cpp:1097-1111: a free name. `std::to_string('_')` is "95". -/
def freeName (gd : Gx) : Nat → Nat → Res Str
  | 0, _ => .ub
  | k + 1, n =>
    let id := if n = 0 then filesCompared else filesCompared ++ [57, 53] ++ intToStr n
    if (findSymbol gd id).1 then freeName gd k (n + 1) else .ok id

/-- gdxdiff.cpp:1097-1121: the symbol with the names of the two files. -/
def finishTo (z : Cz) (fuel : Nat) (gd : Gx) (in1 in2 : Str) : Res Gx := do
  let id ← freeName gd fuel 0
  let (gd, _) ← dataWriteStrStart gd id [] 1 dtSet 0
  let (gd, (_, n)) := addSetText gd in1
  let gd ← writeRec gd [file1] [intDbl n]
  let (gd, (_, n)) := addSetText gd in2
  let gd ← writeRec gd [file2] [intDbl n]
  let (gd, _) ← dataWriteDone z gd
  pure gd

/-- gdxdiff.cpp:1097-1126: … and the end; the result is the content of the file. -/
def finishDiff (z : Cz) (fuel : Nat) (gd : Gx) (in1 in2 : Str) : Res (List UInt8) := do
  let gd ← finishTo z fuel gd in1 in2
  let (gd, _) ← gdxClose z gd
  pure gd.file

end Gdx.Diff
