import Verif.Model.Diff
import Verif.Model.DumpGams
import Verif.Model.IntText

/-!
gdxdump, src/tools/gdxdump/gdxdump.cpp: the lists of the options Symbols, DomainInfo, SetText and SymbolsAsSetDI. Output goes to a string.
-/

namespace Gdx.Dump
open Gdx

/-- strutilx.cpp:763-767 PadRight -/
def padRight (s : Str) (w : Nat) : Str := s ++ List.replicate (min 255 w - s.length) 32

/-- strutilx.cpp:769-773 PadLeft -/
def padLeft (s : Str) (w : Nat) : Str := List.replicate (min 255 w - s.length) 32 ++ s

/-- short_string.cpp operator<: strcmp(s, t) < 0; bytes are compared without sign -/
def strLt : Str → Str → Bool
  | _, [] => false
  | [], _ :: _ => true
  | a :: s, b :: t => decide (a < b) || (a == b && strLt s t)

/-- insert of a std::map from ShortString to int; the map is the list of its pairs in their order -/
def mapIns (k : Str) (v : Int) : List (Str × Int) → List (Str × Int)
  | [] => [(k, v)]
  | (a, b) :: m => if strLt k a = true then (k, v) :: (a, b) :: m else if strLt a k = true then (a, b) :: mapIns k v m else (a, b) :: m

/-- gdxdump.cpp:789-798, 828-831: the symbols from number `n` on, by name -/
def symMap (g : Gx) : Nat → Int → List (Str × Int) → List (Str × Int)
  | 0, _, m => m
  | f + 1, n, m => symMap g f (n + 1) (mapIns (symbolInfo g n).name n m)

/-- gdxdump.cpp:792-794: the longest name. The length is a uint8; names have at most 63 bytes. -/
def maxName (g : Gx) : Nat → Int → Nat → Nat
  | 0, _, w => w
  | f + 1, n, w => maxName g f (n + 1) (max w (symbolInfo g n).name.length)

/-- gdxdump.cpp:795: the longest number of records -/
def maxCount (g : Gx) : Nat → Int → Nat → Res Nat
  | 0, _, w => .ok w
  | f + 1, n, w => do
    let c ← IntText.intWidth (symbolInfoX g n).recs
    maxCount g f (n + 1) (max w c)

/-- `Symbol`, ` Dim Type `, `Records`, `  Explanatory text` -/
def sSymbol : Str := [83, 121, 109, 98, 111, 108]
def sDimType : Str := [32, 68, 105, 109, 32, 84, 121, 112, 101, 32]
def sRecords : Str := [82, 101, 99, 111, 114, 100, 115]
def sExplText : Str := [32, 32, 69, 120, 112, 108, 97, 110, 97, 116, 111, 114, 121, 32, 116, 101, 120, 116, 10]

/-- gdxdump.cpp:806-811: a line; `i` counts from 0 -/
def infoRow (g : Gx) (w1 w2 w3 i : Nat) (n : Int) : Str :=
  padLeft (intToStr ((i : Int) + 1)) w1 ++ [32] ++ padRight (symbolInfo g n).name w2 ++ [32] ++ padLeft (intToStr (symbolInfo g n).dim) 3 ++ [32] ++
    padLeft (typShort (symbolInfo g n).typ) 4 ++ [32] ++ padLeft (intToStr (symbolInfoX g n).recs) w3 ++ [32, 32] ++ (symbolInfoX g n).expl ++ [10]

/-- gdxdump.cpp:805-812 -/
def infoRows (g : Gx) (w1 w2 w3 : Nat) : Nat → List (Str × Int) → Str
  | _, [] => []
  | i, p :: m => infoRow g w1 w2 w3 i p.2 ++ infoRows g w1 w2 w3 (i + 1) m

/-- gdxdump.cpp:781-813 WriteSymbolInfo -/
def writeSymbolInfo (g : Gx) : Res Str := do
  let n := (systemInfo g).1
  let w1 ← IntText.intWidth n
  let w2 := maxName g n.toNat 1 6
  let w3 ← maxCount g n.toNat 1 7
  pure (padLeft [32] w1 ++ [32] ++ padRight sSymbol w2 ++ sDimType ++ padRight sRecords w3 ++ sExplText ++ infoRows g w1 w2 w3 0 (symMap g n.toNat 1 []))

/-- `N/A`, `None`, `Relaxed`, `Regular`: gdxdump.cpp:816 -/
def domWord : Int → Str
  | 1 => [78, 111, 110, 101]
  | 2 => [82, 101, 108, 97, 120, 101, 100]
  | 3 => [82, 101, 103, 117, 108, 97, 114]
  | _ => [78, 47, 65]

/-- names with `, ` in between -/
def commaList : List Str → Str
  | [] => []
  | [s] => s
  | s :: t :: l => s ++ [44, 32] ++ commaList (t :: l)

/-- gdxdump.cpp:834-851: the lines. The names of the domains of a symbol that is not there stay those of the line before; such a number is not in the map. -/
def domRows (w1 : Nat) : Gx → List (Str × Int) → Res (Gx × Str)
  | g, [] => .ok (g, [])
  | g, p :: m => do
    let si := symbolInfo g p.2
    let (g, k, ds) ← symbolGetDomainX g p.2
    let (g, r) ← domRows w1 g m
    pure (g, padLeft (intToStr p.2) w1 ++ [32] ++ padLeft (typShort si.typ) 5 ++ [32] ++ padLeft (domWord k) 7 ++ [32] ++ si.name ++
      (if si.dim > 0 then [40] ++ commaList (ds.take si.dim.toNat) ++ [41] else []) ++ [10] ++ r)

/-- `SyNr`, `  Type  DomInf Symbol` -/
def sSyNr : Str := [83, 121, 78, 114]
def sTypeDom : Str := [32, 32, 84, 121, 112, 101, 32, 32, 68, 111, 109, 73, 110, 102, 32, 83, 121, 109, 98, 111, 108, 10]

/-- gdxdump.cpp:815-853 WriteDomainInfo -/
def writeDomainInfo (g : Gx) : Res (Gx × Str) := do
  let n := (systemInfo g).1
  let w ← IntText.intWidth n
  let (g, r) ← domRows (max w 4) g (symMap g n.toNat 1 [])
  pure (g, padLeft sSyNr (max w 4) ++ sTypeDom ++ r)

/-- gdxdump.cpp:871-879: binary search for the last text; there is one at `lo` and none at `hi` -/
def textSearch (g : Gx) : Nat → Int → Int → Res Int
  | 0, _, _ => .ub
  | f + 1, lo, hi =>
    if lo + 1 < hi then
      if (getElemText g (lo + (hi - lo).tdiv 2)).1 = true then textSearch g f (lo + (hi - lo).tdiv 2) hi else textSearch g f lo (lo + (hi - lo).tdiv 2)
    else .ok lo

/-- gdxdump.cpp:895-898: the records of a set -/
def textMax : Nat → Gx → Int → Res (Gx × Int)
  | 0, _, _ => .ub
  | f + 1, g, m => do
    let (g, r) ← dataReadRaw g
    match r with
    | none => pure (g, m)
    | some r => do
      let v ← at0 r.vals 0
      let k ← Diff.roundInt v
      textMax f g (max m k)

/-- gdxdump.cpp:887-900: the symbols from number `n` on -/
def textMaxAll (z : Cz) (fuel : Nat) : Nat → Gx → Int → Int → Res (Gx × Int)
  | 0, g, _, m => .ok (g, m)
  | f + 1, g, n, m => do
    if (symbolInfo g n).typ ≠ dtSet then textMaxAll z fuel f g (n + 1) m
    else do
      let (g, _) ← dataReadRawStart z g n
      let (g, m) ← textMax fuel g m
      let (g, _) ← dataReadDone g
      textMaxAll z fuel f g (n + 1) m

/-- gdxdump.cpp:905-909: the lines from number `n` on -/
def textRows (g : Gx) : Nat → Int → Str
  | 0, _ => []
  | f + 1, n => padLeft (intToStr n) 6 ++ [32, 32, 32, 34] ++ (if n = 0 then [] else (getElemText g n).2.1) ++ [34, 10] ++ textRows g f (n + 1)

/-- `Count of set text strings in GDX: `, `max 0-based textIdx found in GDX: `, `   idx   text` -/
def sTextCount : Str := [67, 111, 117, 110, 116, 32, 111, 102, 32, 115, 101, 116, 32, 116, 101, 120, 116, 32, 115, 116, 114, 105, 110, 103, 115, 32, 105, 110, 32, 71, 68, 88, 58, 32]
def sTextMax : Str := [109, 97, 120, 32, 48, 45, 98, 97, 115, 101, 100, 32, 116, 101, 120, 116, 73, 100, 120, 32, 102, 111, 117, 110, 100, 32, 105, 110, 32, 71, 68, 88, 58, 32]
def sTextHead : Str := [32, 32, 32, 105, 100, 120, 32, 32, 32, 116, 101, 120, 116, 10]

/-- gdxdump.cpp:856-910 WriteSetText; a failed assertion is undefined here. The symbols are those from 0 up to the last but one. -/
def writeSetText (z : Cz) (fuel : Nat) (g : Gx) : Res (Gx × Str) := do
  if (getElemText g 0).1 = false ∨ (getElemText g intMax).1 = true then .ub
  else do
    let lo ← textSearch g 32 0 intMax
    let (g, m) ← textMaxAll z fuel (systemInfo g).1.toNat g 0 0
    pure (g, sTextCount ++ intToStr (lo + 1) ++ [10] ++ sTextMax ++ intToStr m ++ [10] ++ sTextHead ++ textRows g (lo + 1).toNat 0)

/-- `Domain exceeds 63 characters` -/
def sTooLong : Str := [68, 111, 109, 97, 105, 110, 32, 101, 120, 99, 101, 101, 100, 115, 32, 54, 51, 32, 99, 104, 97, 114, 97, 99, 116, 101, 114, 115]

/-- gdxdump.cpp:242-254: the names of the domains one after the other -/
def domJoin : Str → Bool → List Str → Str
  | d, _, [] => d
  | d, first, s :: l =>
    let d := d ++ (if first then [] else [44, 32]) ++ s
    if d.length > 63 then sTooLong else domJoin d false l

/-- gdxdump.cpp:225-265 WriteSymbolAsItem with domains -/
def symItemDI (g : Gx) (n : Int) : Res (Gx × Str) := do
  let si := symbolInfo g n
  let (g, ds) ← (if si.dim > 0 then do let (g, _, ds) ← symbolGetDomainX g n; pure (g, ds.take si.dim.toNat) else .ok (g, []))
  pure (g, [34] ++ si.name ++ [34, 46] ++ intToStr si.dim ++ [46, 34] ++ typShort si.typ ++ [34, 46, 34] ++ domJoin [] true ds ++ [34])

/-- gdxdump.cpp:275-281: the symbols from number `n` on -/
def symItemsDI (total : Int) : Nat → Gx → Int → Res (Gx × Str)
  | 0, g, _ => .ok (g, [])
  | f + 1, g, n => do
    let (g, s) ← symItemDI g n
    let (g, r) ← symItemsDI total f g (n + 1)
    pure (g, s ++ (if n < total then [44] else []) ++ [10] ++ r)

/-- gdxdump.cpp:266-282 WriteSymbolsAsSet with domains, from the first `/` on (the declaration before it is a constant) -/
def symbolsAsSetDI (g : Gx) : Res (Gx × Str) := do
  let (g, s) ← symItemsDI (systemInfo g).1 (systemInfo g).1.toNat g 1
  pure (g, [47, 10] ++ s ++ [47, 59, 10])

end Gdx.Dump
