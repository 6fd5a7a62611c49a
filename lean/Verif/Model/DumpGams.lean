import Verif.Model.Dump

/-!
gdxdump, src/tools/gdxdump/gdxdump.cpp: one symbol as a GAMS declaration (WriteSymbol with Format=normal), the acronyms, the table of
elements and the symbols as a set. Output goes to a string.
-/

namespace Gdx.Dump
open Gdx

/-- The options of gdxdump.cpp:51-60 that WriteSymbol looks at: those of `Opt`, FilterDef and ShowData -/
structure GOpt extends Opt where
  filter : Bool := true
  data : Bool := true

/-- gdxdump.cpp:62-64 QQ -/
def qq (s : Str) : UInt8 := if 39 ∈ s then 34 else 39

/-- gdxdump.cpp:134-137 WriteUEL -/
def writeUEL (s : Str) : Str := [qq s] ++ s ++ [qq s]

/-- gdxdump.cpp:94-100: is there a special character or a pair of dots? -/
def special (p : UInt8 → Bool) : Str → Bool
  | [] => false
  | c :: s => p c || (c == 46 && s.head? == some 46) || special p s

/-- gdxdump.cpp:93-107 WriteQuotedCommon; `t` is the text from the index `i` on -/
def writeQuoted (p : UInt8 → Bool) (t : Str) (g : Bool) (s : Str) : Str := if g && !special p t then [32] ++ s else [32] ++ writeUEL s

/-- gdxdump.cpp:124: `,` `;` `/` `$` `=` and quotes -/
def qSpecial (c : UInt8) : Bool := c == 44 || c == 59 || c == 47 || c == 36 || c == 61 || c == 39 || c == 34

/-- gdxdump.cpp:110-125 WriteQText -/
def writeQText (s : Str) (paren : Bool) : Str :=
  if paren = true then writeQuoted qSpecial (s.dropWhile (· == 32)) ((s.dropWhile (· == 32)).head? != some 40) s else writeQuoted qSpecial s true s

/-- gdxdump.cpp:130: blank, `,` `;` `/` `$` `=` `*`; quotes are not among them -/
def tSpecial (c : UInt8) : Bool := c == 32 || c == 44 || c == 59 || c == 47 || c == 36 || c == 61 || c == 42

/-- gdxdump.cpp:128-132 WriteQUELText -/
def writeQUELText (s : Str) : Str := writeQuoted tSpecial s true s

/-- tools/library/common.cpp:76-91 valTypStr: `L`, `M`, `LO`, `UP`, `SCALE` -/
def valTyp : Nat → Str
  | 0 => [76]
  | 1 => [77]
  | 2 => [76, 79]
  | 3 => [85, 80]
  | _ => [83, 67, 65, 76, 69]

/-- tools/library/common.cpp:93-113 varTypStr: `unknown `, `binary  `, `integer `, `positive`, `negative`, `free    `, `sos1    `, `sos2    `, `semicont`, `semiint ` -/
def varTyp (n : Int) : Str :=
  ([[117, 110, 107, 110, 111, 119, 110, 32], [98, 105, 110, 97, 114, 121, 32, 32], [105, 110, 116, 101, 103, 101, 114, 32], [112, 111, 115, 105, 116, 105, 118, 101],
    [110, 101, 103, 97, 116, 105, 118, 101], [102, 114, 101, 101, 32, 32, 32, 32], [115, 111, 115, 49, 32, 32, 32, 32], [115, 111, 115, 50, 32, 32, 32, 32],
    [115, 101, 109, 105, 99, 111, 110, 116], [115, 101, 109, 105, 105, 110, 116, 32]] : List Str).getD n.toNat []

/-- gclgms.h:140-146 gmsGdxTypeText: `Set`, `Parameter`, `Variable`, `Equation`, `Alias` -/
def typName : Nat → Str
  | 0 => [83, 101, 116]
  | 1 => [80, 97, 114, 97, 109, 101, 116, 101, 114]
  | 2 => [86, 97, 114, 105, 97, 98, 108, 101]
  | 3 => [69, 113, 117, 97, 116, 105, 111, 110]
  | _ => [65, 108, 105, 97, 115]

/-- `Scalar`, `Singleton`, `Logic` -/
def sScalar : Str := [83, 99, 97, 108, 97, 114]
def sSingleton : Str := [83, 105, 110, 103, 108, 101, 116, 111, 110]
def sLogic : Str := [76, 111, 103, 105, 99]

/-- a == b of doubles -/
def dblEq (a b : Dbl) : Bool := a.fv.le b.fv && b.fv.le a.fv

/-- gdxdump.cpp:404-435: DefaultValues and SubTypeName. The type of an equation is taken as a number from 0 to 6, while the library stores numbers from
    53 to 59; these all become 0. -/
def subType (typ : Nat) (user : Int) : List Dbl × Str :=
  if typ = dtSet then ([Dbl.zero], if user = 1 then sSingleton else [])
  else if typ = dtVar then
    let u := if user < 0 ∨ user > 9 then 5 else user
    (defVar SVTab.default u, if u = 0 then [] else varTyp u)
  else if typ = dtEqu then
    let u := if user < 0 ∨ user > 6 then 0 else user
    (defEqu SVTab.default (53 + u), if u = 6 then sLogic else [])
  else ([Dbl.zero], [])

/-- gdxdump.cpp:295-299: is the value left out? -/
def dropped (o : GOpt) (dim typ : Nat) (defs vals : List Dbl) (k : Nat) : Res Bool := do
  if ¬ (dim = 0 ∧ typ = dtPar) ∧ typ ≠ dtSet ∧ o.filter = true ∧ (typ ≠ dtEqu ∨ k ≠ 2 ∧ k ≠ 3) then do
    let v ← at0 vals k
    pure (dblEq v (defs.getD k Dbl.zero))
  else pure false

/-- gdxdump.cpp:321-326: the labels with the delimiter in between; how many are missing -/
def gKeys (o : GOpt) (g : Gx) : List Int → Res (List Str × Nat)
  | [] => .ok ([], 0)
  | k :: ks => do
    let (s, b) ← uelAs g k
    let (r, c) ← gKeys o g ks
    pure (writeUEL s :: r, b + c)

/-- gdxdump.cpp:332-362: what stands after the labels -/
def gBody (o : GOpt) (g : Gx) (dim typ : Nat) (vals : List Dbl) (k : Nat) : Res Str :=
  if typ = dtSet then do
    let v ← at0 vals 0
    if v.fv = .fin 0 then pure []
    else do
      let n ← Diff.roundInt v
      pure (writeQUELText (getElemText g n).2.1)
  else if typ = dtPar then do
    let v ← at0 vals k
    let s ← wrVal o.toOpt g v
    pure ([32] ++ s)
  else if typ = dtEqu ∨ typ = dtVar then do
    let v ← at0 vals k
    let s ← wrVal o.toOpt g v
    pure ((if dim > 0 then [o.delim] else []) ++ valTyp k ++ [32] ++ s)
  else .ok [79, 111, 112, 115]

/-- gdxdump.cpp:305-310: the separator before a value that is not the first -/
def gSep (dim typ : Nat) : Str := [44, 32] ++ (if (typ ≠ dtVar ∧ typ ≠ dtEqu) ∨ dim ≠ 0 then [10] else [])

/-- gdxdump.cpp:294-366 WriteItem: the text, whether still nothing is written, the missing labels -/
def gItem (o : GOpt) (g : Gx) (dim typ : Nat) (defs : List Dbl) (first : Bool) (r : RecOut Int) (k : Nat) : Res (Str × Bool × Nat) := do
  let d ← dropped o dim typ defs r.vals k
  if d then pure ([], first, 0)
  else do
    let (ks, b) ← gKeys o g r.key
    let s ← gBody o g dim typ r.vals k
    pure ((if first then [] else gSep dim typ) ++ joined o.delim ks ++ s, false, b)

/-- the values of a record with these numbers -/
def gItems (o : GOpt) (g : Gx) (dim typ : Nat) (defs : List Dbl) (r : RecOut Int) : Bool → List Nat → Res (Str × Bool × Nat)
  | first, [] => .ok ([], first, 0)
  | first, k :: ks => do
    let (s, first, b) ← gItem o g dim typ defs first r k
    let (t, first, c) ← gItems o g dim typ defs r first ks
    pure (s ++ t, first, b + c)

/-- gdxdump.cpp:528-538: level, marginal, lower, upper, scale, or only the level -/
def gFields (typ : Nat) : List Nat := if typ = dtVar ∨ typ = dtEqu then [0, 1, 2, 3, 4] else [0]

/-- gdxdump.cpp:512-542: read and write the records -/
def gRows (o : GOpt) (dim typ : Nat) (defs : List Dbl) : Nat → Gx → Bool → Res (Gx × Str × Nat)
  | 0, _, _ => .ub
  | f + 1, g, first => do
    let (g, r) ← dataReadRaw g
    match r with
    | none => pure (g, [], 0)
    | some r => do
      let (s, first, b) ← gItems o g dim typ defs r first (gFields typ)
      let (g, t, c) ← gRows o dim typ defs f g first
      pure (g, s ++ t, b + c)

/-- gdxdump.cpp:368-376 WriteComments; `f` is above the number of comments -/
def comments (g : Gx) (nr : Int) : Nat → Int → Res Str
  | 0, _ => .ub
  | f + 1, n => do
    let (b, s) ← symbolGetComment g nr n
    if b then do
      let r ← comments g nr f (n + 1)
      pure ([42, 32] ++ s ++ [10] ++ r)
    else pure []

/-- gdxdump.cpp:459-467: the names of the domains; the name of a symbol that is not there is empty -/
def domIds (g : Gx) (ns : List Int) : List Str := ns.map fun n => if n ≤ 0 then star else (symbolInfo g n).name

/-- gdxdump.cpp:437-482: the header -/
def gHead (g : Gx) (nr : Int) (sub : Str) : Res (Gx × Str) := do
  let si := symbolInfo g nr
  let sx := symbolInfoX g nr
  let kind := if si.dim = 0 ∧ si.typ = dtPar then sScalar else (if sub = [] then [] else sub ++ [32]) ++ typName si.typ
  if si.typ = dtAlias then
    pure (g, kind ++ [32, 40] ++ si.name ++ [44, 32] ++ (if sx.userInfo = 0 then star else (symbolInfo g sx.userInfo).name) ++ [41, 59, 10])
  else if si.dim ≥ 1 then do
    let (g, ns) ← symbolGetDomain g nr
    let ns := (ns.getD [] ++ List.replicate 20 0).take si.dim.toNat
    pure (g, kind ++ [32] ++ si.name ++ [40] ++ joined 44 (domIds g ns) ++ [41] ++ (if sx.expl = [] then [] else writeQText sx.expl false))
  else pure (g, kind ++ [32] ++ si.name ++ (if sx.expl = [] then [] else writeQText sx.expl true))

/-- ` ; !!empty`, `$loadDC `, ` !!empty`: gdxdump.cpp:499-508 -/
def noData (empty : Bool) (name : Str) : Str :=
  let mark : Str := if empty then [32, 33, 33, 101, 109, 112, 116, 121] else []
  [32, 59] ++ mark ++ [10, 36, 108, 111, 97, 100, 68, 67, 32] ++ name ++ mark ++ [10]

/-- ` / 0.0 /;` and ` / /;` -/
def scalarZero : Str := [32, 47, 32, 48, 46, 48, 32, 47, 59, 10]
def emptyList : Str := [32, 47, 32, 47, 59, 10]

/-- gdxdump.cpp:284-557 WriteSymbol with Format=normal -/
def writeSymbol (o : GOpt) (z : Cz) (fuel : Nat) (g : Gx) (nr : Int) : Res (Gx × Str) := do
  let si := symbolInfo g nr
  let sx := symbolInfoX g nr
  let (defs, sub) := subType si.typ sx.userInfo
  let (g, head) ← (if o.showHdr = true then do let (g, h) ← gHead g nr sub; pure (g, [10] ++ h) else .ok (g, []))
  if sx.recs = 0 ∧ o.data = true then
    if si.dim = 0 ∧ si.typ = dtPar then do
      let c ← comments g nr fuel 1
      pure (g, head ++ scalarZero ++ c)
    else if o.showHdr = true ∧ si.typ ≠ dtAlias then do
      let c ← comments g nr fuel 1
      pure (g, head ++ emptyList ++ c)
    else pure (g, head)
  else do
    let head := head ++ (if o.showHdr = true ∧ o.data = true then [32, 47] ++ (if si.dim > 0 then [10] else []) else [])
    let c ← comments g nr fuel 1
    if o.data = false then pure (g, head ++ c ++ (if si.typ = dtAlias then [] else noData (decide (sx.recs = 0)) si.name))
    else do
      let (g, _) ← dataReadRawStart z g nr
      let (g, s, b) ← gRows o si.dim.toNat si.typ defs fuel g true
      let (g, _) ← dataReadDone g
      pure (g, head ++ c ++ s ++ (if o.showHdr = true then [32, 47, 59, 10] else []) ++ (badLine b).dropLast)

/-- gdxdump.cpp:982-1000 WriteAcronyms; `n` counts from 0. gdxAcronymGetInfo gives empty strings for a number it does not know. -/
def acroLines (g : Gx) : Nat → Int → Res Str
  | 0, _ => .ok []
  | f + 1, n => do
    let a ← acronymGetInfo g n
    let (nm, tx) := match a with
      | some (nm, tx, _) => (nm, tx)
      | none => ([], [])
    let r ← acroLines g f (n + 1)
    pure ([65, 99, 114, 111, 110, 121, 109, 32] ++ nm ++ (if tx = [] then [] else writeQText tx true) ++ [59, 10] ++ r)

def writeAcronyms (g : Gx) : Res Str :=
  if acronymCount g ≤ 0 then .ok []
  else do
    let s ← acroLines g (acronymCount g).toNat 0
    pure ([10] ++ s)

/-- gdxdump.cpp:151-163: the lines of the table of elements from number `n` on -/
def uelLines (g : Gx) (total : Int) : Nat → Int → Res Str
  | 0, _ => .ok []
  | f + 1, n => do
    let (_, s, _) ← umUelGet g n
    let r ← uelLines g total f (n + 1)
    pure ([32, 32] ++ writeUEL s ++ (if n < total then [32, 44] else [32, 47, 59]) ++ [10] ++ r)

/-- gdxdump.cpp:139-163 WriteUELTable, not for CSV -/
def writeUelTable (g : Gx) (name : Str) : Res Str := do
  let n := (systemInfo g).2
  let s ← uelLines g n n.toNat 1
  pure ((if n > 0 then [83, 101, 116, 32] ++ name ++ [32, 47, 10]
    else [36, 111, 110, 69, 109, 112, 116, 121, 10, 83, 101, 116, 32] ++ name ++ [40, 42, 41, 32, 47, 32, 47, 59, 10, 36, 111, 102, 102, 69, 109, 112, 116, 121, 10]) ++ s)

/-- tools/library/common.cpp:45-65 gdxDataTypStr: `Set`, `Par`, `Var`, `Equ`, `Alias` -/
def typShort : Nat → Str
  | 0 => [83, 101, 116]
  | 1 => [80, 97, 114]
  | 2 => [86, 97, 114]
  | 3 => [69, 113, 117]
  | _ => [65, 108, 105, 97, 115]

/-- gdxdump.cpp:225-265 WriteSymbolAsItem without domains -/
def symItem (g : Gx) (n : Int) : Str :=
  let si := symbolInfo g n
  let tx := (symbolInfoX g n).expl
  [34] ++ si.name ++ [34, 46] ++ intToStr si.dim ++ [46, 34] ++ typShort si.typ ++ [34] ++
    (if tx = [] then [] else let q : UInt8 := if 34 ∈ tx then 39 else 34; [32, q] ++ tx ++ [q])

/-- gdxdump.cpp:275-281: the symbols from number `n` on -/
def symItems (g : Gx) (total : Int) : Nat → Int → Str
  | 0, _ => []
  | f + 1, n => symItem g n ++ (if n < total then [44] else []) ++ [10] ++ symItems g total f (n + 1)

/-- gdxdump.cpp:266-282 WriteSymbolsAsSet without domains, from the first `/` on (the declaration before it is a constant) -/
def symbolsAsSet (g : Gx) : Str := [47, 10] ++ symItems g (systemInfo g).1 (systemInfo g).1.toNat 1 ++ [47, 59, 10]

end Gdx.Dump
