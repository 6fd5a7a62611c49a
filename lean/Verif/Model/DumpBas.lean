import Verif.Model.DumpAll

/-!
gdxdump, src/tools/gdxdump/gdxdump.cpp: Format=gamsbas, a program that assigns the levels and marginals. main (1347-1350) sets ShowHdr to false and ShowData to true. Output goes to a string.
-/

namespace Gdx.Dump
open Gdx

/-- `$offListing`, `$onListing` -/
def sOffListing : Str := [36, 111, 102, 102, 76, 105, 115, 116, 105, 110, 103, 10]
def sOnListing : Str := [36, 111, 110, 76, 105, 115, 116, 105, 110, 103, 10]

/-- ` ;` and the end of the line -/
def sEnd : Str := [32, 59, 10]

/-- gdxdump.cpp:295-299: is the value left out? Sets and parameters do not come here. The array Vals starts with zeros. -/
def bDropped (o : GOpt) (typ : Nat) (defs vals : List Dbl) (k : Nat) : Bool :=
  o.filter && dblEq (vals.getD k Dbl.zero) (defs.getD k Dbl.zero) && (typ != dtEqu || (k != 2 && k != 3))

/-- gdxdump.cpp:311-366: ` name.L ('a'.'b') = 1`; the labels that are missing -/
def bText (o : GOpt) (g : Gx) (name : Str) (dim typ : Nat) (r : RecOut Int) (k : Nat) : Res (Str × Nat) := do
  let (ks, b) ← gKeys o g r.key
  let v ← (if typ = dtEqu ∨ typ = dtVar then do let s ← wrVal o.toOpt g (r.vals.getD k Dbl.zero); pure ([32, 61, 32] ++ s) else .ok [79, 111, 112, 115])
  pure ([32] ++ name ++ [46] ++ valTyp k ++ [32] ++ (if dim > 0 then [40] ++ joined o.delim ks ++ [41] else []) ++ v, b)

/-- gdxdump.cpp:294-366 WriteItem: the text, whether still nothing is written, LineCount (not bounded here), the missing labels -/
def bItem (o : GOpt) (g : Gx) (name : Str) (dim typ : Nat) (defs : List Dbl) (first : Bool) (lc : Nat) (r : RecOut Int) (k : Nat) : Res (Str × Bool × Nat × Nat) := do
  if bDropped o typ defs r.vals k = true then pure ([], first, lc, 0)
  else do
    let (s, b) ← bText o g name dim typ r k
    pure ((if first then [] else sEnd) ++ (if lc = 6 then sOffListing else []) ++ s, false, lc + 1, b)

/-- the values of a record with these numbers -/
def bItems (o : GOpt) (g : Gx) (name : Str) (dim typ : Nat) (defs : List Dbl) (r : RecOut Int) : Bool → Nat → List Nat → Res (Str × Bool × Nat × Nat)
  | first, lc, [] => .ok ([], first, lc, 0)
  | first, lc, k :: ks => do
    let (s, first, lc, b) ← bItem o g name dim typ defs first lc r k
    let (t, first, lc, c) ← bItems o g name dim typ defs r first lc ks
    pure (s ++ t, first, lc, b + c)

/-- gdxdump.cpp:515-521: only the marginal of an equation -/
def bFields (typ : Nat) : List Nat := if typ = dtEqu then [1] else [0, 1]

/-- gdxdump.cpp:512-542: read and write the records -/
def bRows (o : GOpt) (name : Str) (dim typ : Nat) (defs : List Dbl) : Nat → Gx → Bool → Nat → Res (Gx × Str × Nat × Nat)
  | 0, _, _, _ => .ub
  | f + 1, g, first, lc => do
    let (g, r) ← dataReadRaw g
    match r with
    | none => pure (g, [], lc, 0)
    | some r => do
      let (s, first, lc, b) ← bItems o g name dim typ defs r first lc (bFields typ)
      let (g, t, lc, c) ← bRows o name dim typ defs f g first lc
      pure (g, s ++ t, lc, b + c)

/-- gdxdump.cpp:284-557 WriteSymbol with Format=gamsbas; `lc` is LineCount -/
def writeBas (o : GOpt) (z : Cz) (fuel : Nat) (g : Gx) (lc : Nat) (nr : Int) : Res (Gx × Str × Nat) := do
  let si := symbolInfo g nr
  let sx := symbolInfoX g nr
  if si.typ = dtSet ∨ si.typ = dtPar then pure (g, [], lc)
  else if sx.recs = 0 then pure (g, [], lc)
  else do
    let c ← comments g nr fuel 1
    let (g, _) ← dataReadRawStart z g nr
    let (g, s, lc, b) ← bRows o si.name si.dim.toNat si.typ (subType si.typ sx.userInfo).1 fuel g true lc
    let (g, _) ← dataReadDone g
    pure (g, c ++ s ++ sEnd ++ (badLine b).dropLast, lc)

/-- gdxdump.cpp:1467-1469: `k` symbols from number `n` on -/
def allBas (o : GOpt) (z : Cz) (fuel : Nat) : Nat → Gx → Nat → Int → Res (Gx × Str × Nat)
  | 0, g, lc, _ => .ok (g, [], lc)
  | k + 1, g, lc, n => do
    let (g, t, lc) ← writeBas o z fuel g lc n
    let (g, r, lc) ← allBas o z fuel k g lc (n + 1)
    pure (g, t ++ r, lc)

/-- gdxdump.cpp:1409-1411 and 1457-1474: acronyms and all symbols -/
def dumpBas (o : GOpt) (z : Cz) (fuel : Nat) (g : Gx) : Res (Gx × Str) := do
  let acr ← writeAcronyms g
  let (g, t, lc) ← allBas o z fuel (systemInfo g).1.toNat g 0 1
  pure (g, acr ++ sOnEmpty ++ t ++ sOffEmpty ++ (if lc > 6 then sOnListing else []))

/-- gdxdump.cpp:1409-1411, 1442-1456 and 1472-1474: acronyms and the symbol with number `nr` (option Symb) -/
def dumpBasOne (o : GOpt) (z : Cz) (fuel : Nat) (g : Gx) (nr : Int) : Res (Gx × Str) := do
  let acr ← writeAcronyms g
  let (g, t, lc) ← writeBas o z fuel g 0 nr
  pure (g, acr ++ t ++ [10] ++ (if lc > 6 then sOnListing else []))

end Gdx.Dump
