import Verif.Model.DumpGams

/-!
gdxdump, src/tools/gdxdump/gdxdump.cpp: all symbols of a file (main 1358-1480 without Symb and with Format=normal).
-/

namespace Gdx.Dump
open Gdx

/-- gdxdump.cpp:1467-1469: `k` symbols from number `n` on -/
def allSymbols (o : GOpt) (z : Cz) (fuel : Nat) : Nat → Gx → Int → Res (Gx × Str)
  | 0, g, _ => .ok (g, [])
  | k + 1, g, n => do
    let (g, t) ← writeSymbol o z fuel g n
    let (g, r) ← allSymbols o z fuel k g (n + 1)
    pure (g, t ++ r)

/-- `$onEmpty`, `$offEolCom` and `$eolCom !!`, `$offEmpty`, `$gdxIn ` -/
def sOnEmpty : Str := [36, 111, 110, 69, 109, 112, 116, 121, 10]
def sEolCom : Str := [36, 111, 102, 102, 69, 111, 108, 67, 111, 109, 10, 36, 101, 111, 108, 67, 111, 109, 32, 33, 33, 10]
def sOffEmpty : Str := [10, 36, 111, 102, 102, 69, 109, 112, 116, 121, 10]
def sGdxIn : Str := [10, 36, 103, 100, 120, 73, 110, 32]

/-- gdxdump.cpp:1406-1411 and 1457-1471: the acronyms and all symbols. `input` is the name of the file. -/
def dumpAll (o : GOpt) (z : Cz) (fuel : Nat) (input : Str) (g : Gx) : Res (Gx × Str) := do
  let acr ← writeAcronyms g
  let (g, t) ← allSymbols o z fuel (systemInfo g).1.toNat g 1
  pure (g, (if o.data = true then [] else sGdxIn ++ input ++ [10]) ++ acr ++ sOnEmpty ++ (if o.data = true then [] else sEolCom) ++ t ++ sOffEmpty)

end Gdx.Dump
