import Verif.Model.Diff
import Verif.Model.DblStr

/-!
gdxdump, src/tools/gdxdump/gdxdump.cpp: one symbol as CSV (WriteSymbolCSV and what it calls). Output goes to a string.
-/

namespace Gdx.Dump
open Gdx

/-- dFormat -/
inductive DFmt where
  | normal
  | hexBytes
  | hexponential
  deriving DecidableEq, Repr

/-- The options of gdxdump.cpp:51-60 that WriteSymbolCSV and WriteSymbol look at. `EpsOut` and the like are given or not. `dtoa` is the conversion
of a double to 15 decimal digits, see DblStr. -/
structure Opt where
  dtoa : Dbl → DblStr.Digits
  delim : UInt8 := 44
  sep : UInt8 := 46
  dfmt : DFmt := .normal
  eps : Option Str := none
  na : Option Str := none
  pin : Option Str := none
  min : Option Str := none
  und : Option Str := none
  zero : Option Str := none
  header : Option Str := none
  showHdr : Bool := true
  cdim : Bool := false
  allFields : Bool := false
  setText : Bool := false

/-- gdxdump.cpp:76-85, the loop over the text after the first quote; `f` is above its length -/
def dblQuotes : Nat → Str → Str
  | 0, s => s
  | f + 1, s =>
    match s.dropWhile (· ≠ 34) with
    | [] => s
    | _ :: ws => s.takeWhile (· ≠ 34) ++ [34, 34] ++ dblQuotes f ws

/-- gdxdump.cpp:67-87 QQCSV. The text after the first quote is cut at 255 bytes. -/
def qqcsv (delim : UInt8) (s : Str) : Str :=
  if delim = 9 then s
  else
    match s.dropWhile (· ≠ 34) with
    | [] => [34] ++ s ++ [34]
    | _ :: ws => [34] ++ (s.takeWhile (· ≠ 34) ++ [34, 34]) ++ dblQuotes 256 (ws.take 255) ++ [34]

/-- tools/library/common.cpp specialValueStr: `Undf`, `NA`, `+Inf`, `-Inf`, `Eps` -/
def svStr : Nat → Str
  | 0 => [85, 110, 100, 102]
  | 1 => [78, 65]
  | 2 => [43, 73, 110, 102]
  | 3 => [45, 73, 110, 102]
  | _ => [69, 112, 115]

/-- the option for a special value -/
def svOpt (o : Opt) : Nat → Option Str
  | 0 => o.und
  | 1 => o.na
  | 2 => o.pin
  | 3 => o.min
  | _ => o.eps

/-- gdxdump.cpp:188-203: an ordinary number -/
def numStr (o : Opt) (v : Dbl) : Res Str :=
  match o.dfmt with
  | .normal => DblStr.dblToStrSep o.dtoa v o.sep
  | .hexBytes => .ok (DblStr.hexBytes v)
  | .hexponential => .ok (DblStr.hexponential v)

/-- gdxdump.cpp:165-206 WrVal -/
def wrVal (o : Opt) (g : Gx) (v : Dbl) : Res Str := do
  let (b, s) ← acronymName g v
  if b then pure s
  else if mapValue g.sv v ≠ 5 then pure ((svOpt o (mapValue g.sv v)).getD (svStr (mapValue g.sv v)))
  else
    match o.zero with
    | some t => if v.fv = .fin 0 then pure t else numStr o v
    | none => numStr o v

/-- gdxdump.cpp:211-219 GetUELAsString, and how much BadUELs grows: `L__` and the number for a missing label -/
def uelAs (g : Gx) (n : Int) : Res (Str × Nat) := do
  let (b, s, _) ← umUelGet g n
  if b then pure (s, 0) else pure ([76, 95, 95] ++ intToStr n, 1)

/-- gdxdump.cpp:583-596: the number is appended until the name differs from those before the previous one; `f` trials at most -/
def uniq (base : Str) (prev : List Str) : Nat → Str → Int → Res (Str × Int)
  | 0, _, _ => .ub
  | f + 1, s, nr => if s ∈ prev then uniq base prev f (base ++ [95] ++ intToStr nr) (nr + 1) else .ok (s, nr)

/-- gdxdump.cpp:575-598 the loop of GetDomainNames; `done` are the names so far. Only the names before the previous one are compared. -/
def domNames : List Str → Int → List Str → Res (List Str)
  | done, _, [] => .ok done
  | done, nr, s :: ss => do
    let base := if s = star then [68, 105, 109] ++ intToStr ((done.length : Int) + 1) else s
    let (t, nr) ← uniq base (done.take (done.length - 1)) 22 base nr
    domNames (done ++ [t]) nr ss

/-- strings with the delimiter in between -/
def joined (d : UInt8) : List Str → Str
  | [] => []
  | [s] => s
  | s :: ss => s ++ [d] ++ joined d ss

/-- the fields of a record that are written after the level with CSVAllFields: marginal, lower, upper, scale -/
def moreVals (o : Opt) (g : Gx) (vals : List Dbl) : List Nat → Res Str
  | [] => .ok []
  | k :: ks => do
    let v ← at0 vals k
    let s ← wrVal o g v
    let r ← moreVals o g vals ks
    pure ([o.delim] ++ s ++ r)

/-- gdxdump.cpp:651-661 and 669-679: the values of a record -/
def csvVals (o : Opt) (g : Gx) (typ : Nat) (vals : List Dbl) : Res Str := do
  let v ← at0 vals 0
  let s ← wrVal o g v
  if (typ = dtVar ∨ typ = dtEqu) ∧ o.allFields = true then do
    let r ← moreVals o g vals [1, 2, 3, 4]
    pure (s ++ r)
  else pure s

/-- the labels of a key, quoted; how many are missing -/
def csvKeys (o : Opt) (g : Gx) : List Int → Res (List Str × Nat)
  | [] => .ok ([], 0)
  | k :: ks => do
    let (s, b) ← uelAs g k
    let (r, c) ← csvKeys o g ks
    pure (qqcsv o.delim s :: r, b + c)

/-- gdxdump.cpp:650-690: the line of a record, and the number of missing labels -/
def csvRow (o : Opt) (g : Gx) (dim : Nat) (typ : Nat) (r : RecOut Int) : Res (Str × Nat) := do
  if dim = 0 then do
    let s ← csvVals o g typ r.vals
    pure (s ++ [10], 0)
  else do
    let (ks, b) ← csvKeys o g r.key
    if typ ≠ dtSet ∧ typ ≠ dtAlias then do
      let s ← csvVals o g typ r.vals
      pure (joined o.delim ks ++ [o.delim] ++ s ++ [10], b)
    else if o.setText = true then do
      let v ← at0 r.vals 0
      if v.fv = .fin 0 then pure (joined o.delim ks ++ [o.delim] ++ [10], b)
      else do
        let n ← Diff.roundInt v
        pure (joined o.delim ks ++ [o.delim] ++ qqcsv o.delim (getElemText g n).2.1 ++ [10], b)
    else pure (joined o.delim ks ++ [10], b)

/-- gdxdump.cpp:648-691: read and write the records -/
def csvRows (o : Opt) (dim typ : Nat) : Nat → Gx → Res (Gx × Str × Nat)
  | 0, _ => .ub
  | f + 1, g => do
    let (g, r) ← dataReadRaw g
    match r with
    | none => pure (g, [], 0)
    | some r => do
      let (s, b) ← csvRow o g dim typ r
      let (g, t, c) ← csvRows o dim typ f g
      pure (g, s ++ t, b + c)

/-- `Val`, `Text`, `Marginal`, `Lower`, `Upper`, `Scale` -/
def sVal : Str := [86, 97, 108]
def sText : Str := [84, 101, 120, 116]
def sFields : List Str := [[77, 97, 114, 103, 105, 110, 97, 108], [76, 111, 119, 101, 114], [85, 112, 112, 101, 114], [83, 99, 97, 108, 101]]

/-- gdxdump.cpp:618-647: the header -/
def csvHead (o : Opt) (dim typ : Nat) (names : List Str) : Str :=
  match o.header with
  | some h => if h = [] then [] else h ++ [10]
  | none =>
    if o.showHdr = true then
      joined o.delim (names.map (qqcsv o.delim)) ++
        (if typ ≠ dtSet ∧ typ ≠ dtAlias then (if dim = 0 then qqcsv o.delim sVal else [o.delim] ++ qqcsv o.delim sVal)
          else if o.setText = true then [o.delim] ++ qqcsv o.delim sText else []) ++
        (if (typ = dtVar ∨ typ = dtEqu) ∧ o.allFields = true then (sFields.map fun s => [o.delim] ++ qqcsv o.delim s).flatten else []) ++ [10]
    else []

/-! ### the last index as columns -/

/-- gdxdump.cpp:693-706: which last indices occur, how many, the highest; an index outside the table is undefined -/
def colScan (dim : Nat) : Nat → Gx → List Bool → Int → Int → Res (Gx × List Bool × Int × Int)
  | 0, _, _, _, _ => .ub
  | f + 1, g, ms, cnt, high => do
    let (g, r) ← dataReadRaw g
    match r with
    | none => pure (g, ms, cnt, high)
    | some r => do
      let x ← at0 r.key (dim - 1)
      if x < 1 ∨ x > ms.length then .ub else do
      let b ← at0 ms (x - 1).toNat
      if b = false then colScan dim f g (ms.set (x - 1).toNat true) (cnt + 1) (max high x) else colScan dim f g ms cnt high

/-- gdxdump.cpp:709-719: CSVUels -/
def colUels (ms : List Bool) (high : Int) : List Int :=
  ((List.range high.toNat).filter fun i : Nat => ms[i]? = some true).map fun i : Nat => (i : Int) + 1

/-- gdxdump.cpp:747-754: go to the column of index `x`; CSVUels is read behind its end when there is none -/
def colFind (d : UInt8) (us : List Int) (x : Int) : Nat → Int → Res (Int × Str)
  | 0, _ => .ub
  | f + 1, col =>
    match us[(col + 1).toNat]? with
    | none => .ub
    | some u =>
      if u ≥ x then .ok (col + 1, [])
      else do
        let (c, s) ← colFind d us x f (col + 1)
        pure (c, [d] ++ s)

/-- gdxdump.cpp:756-761: a cell -/
def cell (o : Opt) (g : Gx) (typ : Nat) (vals : List Dbl) : Res Str := do
  if typ = dtSet ∨ typ = dtAlias then pure [o.delim, 89]
  else do
    let v ← at0 vals 0
    let s ← wrVal o g v
    pure ([o.delim] ++ s)

/-- gdxdump.cpp:745-771: the cells of a line, the first record of it is `r`; the record read after it -/
def colCells (o : Opt) (dim typ : Nat) (us : List Int) : Nat → Gx → RecOut Int → Int → Res (Gx × Option (RecOut Int) × Str)
  | 0, _, _, _ => .ub
  | f + 1, g, r, col => do
    let x ← at0 r.key (dim - 1)
    let (col, s) ← colFind o.delim us x (us.length + 2) col
    let u ← at0 us col.toNat
    if u = x then do
      let c ← cell o g typ r.vals
      let (g, n) ← dataReadRaw g
      let fin : Str := List.replicate (us.length - 1 - col).toNat o.delim
      match n with
      | none => pure (g, none, s ++ c ++ fin)
      | some r' =>
        if r'.frst < dim then pure (g, some r', s ++ c ++ fin)
        else do
          let (g, n, t) ← colCells o dim typ us f g r' col
          pure (g, n, s ++ c ++ t)
    else do
      let (g, n, t) ← colCells o dim typ us f g r col
      pure (g, n, s ++ t)

/-- gdxdump.cpp:738-773: the lines -/
def colLines (o : Opt) (dim typ : Nat) (us : List Int) (fc : Nat) : Nat → Gx → Option (RecOut Int) → Res (Gx × Str × Nat)
  | _, g, none => .ok (g, [], 0)
  | 0, _, some _ => .ub
  | f + 1, g, some r => do
    let (ks, b) ← csvKeys o g (r.key.take (dim - 1))
    let (g, n, s) ← colCells o dim typ us fc g r (-1)
    let (g, t, c) ← colLines o dim typ us fc f g n
    pure (g, joined o.delim ks ++ s ++ [10] ++ t, b + c)

/-- gdxdump.cpp:720-735: the header -/
def colHead (o : Opt) (g : Gx) (dim : Nat) (names : List Str) (us : List Int) : Res (Str × Nat) :=
  match o.header with
  | some h => .ok (if h = [] then [] else h ++ [10], 0)
  | none =>
    if o.showHdr = true then do
      let (ks, b) ← csvKeys o g us
      pure (((names.take (dim - 1)).map fun s => qqcsv o.delim s ++ [o.delim]).flatten ++ joined o.delim ks ++ [10], b)
    else .ok ([], 0)

/-- `**** `, the number, ` reference(s) to unique elements without a string representation` -/
def badLine (n : Nat) : Str :=
  if n = 0 then []
  else [42, 42, 42, 42, 32] ++ intToStr n ++ [32, 114, 101, 102, 101, 114, 101, 110, 99, 101, 40, 115, 41, 32, 116, 111, 32, 117, 110, 105, 113, 117, 101, 32,
    101, 108, 101, 109, 101, 110, 116, 115, 32, 119, 105, 116, 104, 111, 117, 116, 32, 97, 32, 115, 116, 114, 105, 110, 103, 32, 114, 101, 112, 114, 101, 115,
    101, 110, 116, 97, 116, 105, 111, 110, 10]

/-- gdxdump.cpp:693-774: with CDim -/
def csvTable (o : Opt) (z : Cz) (fuel : Nat) (g : Gx) (nr : Int) (dim typ : Nat) (names : List Str) : Res (Gx × Str × Nat) := do
  let (g, _) ← dataReadRawStart z g nr
  let (g, ms, _, high) ← colScan dim fuel g (List.replicate (systemInfo g).2.toNat false) 0 0
  let (g, _) ← dataReadDone g
  let us := colUels ms high
  let (h, a) ← colHead o g dim names us
  let (g, _) ← dataReadRawStart z g nr
  let (g, r) ← dataReadRaw g
  let (g, s, b) ← colLines o dim typ us fuel fuel g r
  let (g, _) ← dataReadDone g
  pure (g, h ++ s, a + b)

/-- gdxdump.cpp:559-779 WriteSymbolCSV: the output -/
def writeCSV (o : Opt) (z : Cz) (fuel : Nat) (g : Gx) (nr : Int) : Res (Gx × Str) := do
  let si := symbolInfo g nr
  let dim := si.dim.toNat
  let (g, (_, ds)) ← symbolGetDomainX g nr
  let names ← domNames [] 1 ds
  if o.cdim = true ∧ 2 ≤ dim then do
    let (g, s, b) ← csvTable o z fuel g nr dim si.typ names
    pure (g, s ++ badLine b)
  else do
    let (g, _) ← dataReadRawStart z g nr
    let (g, s, b) ← csvRows o dim si.typ fuel g
    pure (g, csvHead o dim si.typ names ++ s ++ badLine b)

end Gdx.Dump
