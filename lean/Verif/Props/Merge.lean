import Verif.Model.Merge
import Verif.Props.DiffSelf

/-!
C61: gdxmerge puts every record of every input file into the output file, or reports an error. C62: the option BIG does not change
what is in the output file. Here are programs for which the code does not do so, and examples in which it does; the general
theorem is in MergeAll.
-/

namespace Gdx.Props
open Gdx.Merge

/-! ### reading the result -/

/-- lexicographic order of keys -/
def leKey : List Int → List Int → Bool
  | [], _ => true
  | _ :: _, [] => false
  | a :: l, b :: m => decide (a < b) || (decide (a = b) && leKey l m)

def insRec (r : MRec) : List MRec → List MRec
  | [] => [r]
  | x :: xs => if leKey r.1 x.1 then r :: x :: xs else x :: insRec r xs

/-- the input files written by these programs, with their identifiers -/
def inputs : List (Str × List Call) → Res (List InFile)
  | [] => .ok []
  | (i, cs) :: l => do
    let f ← fileOf cs
    let r ← inputs l
    pure (⟨i, [], .content f⟩ :: r)

/-- all records of the symbol that is being read, with labels -/
def readAllStr : Nat → Gx → Res (List (List Str × List Dbl))
  | 0, _ => .ub
  | n + 1, g => do
    let (g, o) ← dataReadStr g
    match o with
    | none => pure []
    | some r => do
      let rs ← readAllStr n g
      pure ((r.key, r.vals) :: rs)

/-- all records of a symbol of a file -/
def readSym (f : List UInt8) (nr : Int) : Res (List (List Str × List Dbl)) := do
  let (g, _) ← openReadXX Cz.id Gx.new (.content f) 0
  let (g, _) ← dataReadStrStart Cz.id g nr
  readAllStr 100 g

/-- the names of the symbols of a file, with dimension and type -/
def readNames (f : List UInt8) : Res (List (Str × Int × Int)) := do
  let (g, _) ← openReadXX Cz.id Gx.new (.content f) 0
  pure ((upTo (systemInfo g).1).map fun n => ((symbolInfo g n).name, (symbolInfo g n).dim, (symbolInfo g n).typ))

/-- the labels of a file -/
def readLabels (f : List UInt8) : Res (List Str) := do
  let (g, _) ← openReadXX Cz.id Gx.new (.content f) 0
  (upTo (systemInfo g).2).mapM fun n => do
    let (_, s, _) ← umUelGet g n
    pure s

def mergeOf (o : Merge.Opt) (l : List (Str × List Call)) : Res (List UInt8 × Nat) := do
  let fs ← inputs l
  merge o ⟨[]⟩ Cz.id (fun l => l.foldr insRec []) fs

/-- the records of symbol `nr` of the output file, and the number of errors -/
def mergedSym (o : Merge.Opt) (l : List (Str × List Call)) (nr : Int) : Res (List (List Str × List Dbl) × Nat) := do
  let (f, e) ← mergeOf o l
  let r ← readSym f nr
  pure (r, e)

/-- the symbols of the output file, and the number of errors -/
def mergedNames (o : Merge.Opt) (l : List (Str × List Call)) : Res (List (Str × Int × Int) × Nat) := do
  let (f, e) ← mergeOf o l
  let r ← readNames f
  pure (r, e)

/-! ### examples -/

/-- a parameter `p` with one record -/
def exPar (v : Dbl) : List Call :=
  [.openWrite false 0 [65] 0, .strStart [112] [] 1 1 0, .writeStr [[97]] [v], .writeDone]

/-- a variable `p` with one record -/
def exVar (v w : Dbl) : List Call :=
  [.openWrite false 0 [65] 0, .strStart [112] [] 1 2 3, .writeStr [[97]] [v, w, v, w, v], .writeDone]

/-- Files `f1` and `f2`: both records are there -/
example : mergedSym {} [([102, 49], exDiff dbl03), ([102, 50], exDiff dblSum)] 2 =
    .ok ([([[102, 49], [98]], [dbl03]), ([[102, 50], [98]], [dblSum])], 0) := by decide +kernel

/-- the symbols have one more index; the list of the files comes last -/
example : mergedNames {} [([102, 49], exDiff dbl03), ([102, 50], exDiff dblSum)] =
    .ok ([([105], 2, 0), ([112], 2, 1), ([120], 1, 2), (mergedSet ++ [49], 1, 0)], 0) := by decide +kernel

/-- different types: an error, and the second file is left out -/
example : mergedSym {} [([102, 49], exPar dbl03), ([102, 50], exVar dblSum dbl03)] 1 =
    .ok ([([[102, 49], [97]], [dbl03])], 1) := by decide +kernel

/-! ### C61 is violated -/

/-- Files of the same name (`d1/f.gdx d2/f.gdx`): the record of the second file is lost, and no error is reported. -/
theorem C61_same_name : mergedSym {} [([102], exPar dbl03), ([102], exPar dblSum)] 1 = .ok ([([[102], [97]], [dbl03])], 0) := by
  decide +kernel

/-- so do names that differ in case only -/
theorem C61_same_name_case : mergedSym {} [([102], exPar dbl03), ([70], exPar dblSum)] 1 = .ok ([([[102], [97]], [dbl03])], 0) := by
  decide +kernel

/-- The option ID=P: the symbol `p` is left out (and no error is reported), although identifiers are the same in upper and lower case. -/
theorem C61_id_case : mergedNames { incl := [[80]] } [([102], exPar dbl03)] = .ok ([(mergedSet ++ [49], 1, 0)], 0) := by
  decide +kernel

/-- a file with an acronym `p` and a scalar with this value -/
def exAcr : List Call :=
  [.openWrite false 0 [65] 0, .acronymAdd [112] [] 1, .strStart [113] [] 0 1 0, .writeStr [] [Dbl.acr], .writeDone]

/-- The second file has a symbol with the name of an acronym of the first: it is lost, and no error is reported. -/
theorem C61_acronym : mergedNames {} [([102], exAcr), ([103], exPar dbl03)] =
    .ok ([([113], 1, 1), (mergedSet ++ [49], 1, 0)], 0) := by
  decide +kernel

/-! ### C62 is violated -/

/-- a scalar `q` -/
def exSc (v : Dbl) : List Call :=
  [.openWrite false 0 [65] 0, .strStart [113] [] 0 1 0, .writeStr [] [v], .writeDone]

/-- A scalar with BIG=1: undefined (IndxSPtrs[-1] is read). -/
theorem C62_scalar : mergeOf { big := some 1 } [([102], exSc dbl03)] = .ub ∧
    mergedSym {} [([102], exSc dbl03)] 1 = .ok ([([[102]], [dbl03])], 0) := by decide +kernel

/-- With BIG=1 the empty string becomes a label of the output file … -/
theorem C62_empty_label : (do
      let (f, _) ← mergeOf { big := some 1 } [([102], exPar dbl03)]
      readLabels f) = .ok [[102], [97], []] ∧ (do
      let (f, _) ← mergeOf {} [([102], exPar dbl03)]
      readLabels f) = .ok [[102], [97]] := by decide +kernel

/-- … and the types of the symbols are not compared: the record of the variable of the second file is cut to its level, and no error is
    reported (compare the example above). -/
theorem C62_types : mergedSym { big := some 1 } [([102, 49], exPar dbl03), ([102, 50], exVar dblSum dbl03)] 1 =
    .ok ([([[102, 49], [97]], [dbl03]), ([[102, 50], [97]], [dblSum])], 0) := by decide +kernel

/-- one record with 18 indices -/
def exWide : List Call :=
  [.openWrite false 0 [65] 0, .strStart [112] [] 18 1 0, .writeStr (List.replicate 18 [97]) [dbl03], .writeDone]

/-- 18 indices: with BIG=1 the arrays of the program are left. -/
theorem C62_wide : mergeOf { big := some 1 } [([102], exWide)] = .ub ∧
    mergedSym {} [([102], exWide)] 1 = .ok ([([102] :: List.replicate 18 [97], [dbl03])], 0) := by decide +kernel

/-- a parameter `p` with the explanatory text `t` -/
def exText : List Call :=
  [.openWrite false 0 [65] 0, .strStart [112] [116] 1 1 0, .writeStr [[97]] [dbl03], .writeDone]

/-- the explanatory text of symbol `nr` of the output file -/
def mergedText (o : Merge.Opt) (l : List (Str × List Call)) (nr : Int) : Res Str := do
  let (f, _) ← mergeOf o l
  let (g, _) ← openReadXX Cz.id Gx.new (.content f) 0
  pure (symbolInfoX g nr).expl

/-- With BIG=1 the explanatory text is lost: CollectBigOne (gdxmerge.cpp:297-361) does not set it. -/
theorem C62_text : mergedText { big := some 1 } [([102], exText)] 1 = .ok [] ∧ mergedText {} [([102], exText)] 1 = .ok [116] := by decide +kernel

#print axioms C61_same_name
#print axioms C61_acronym
#print axioms C62_scalar
#print axioms C62_types
#print axioms C62_text

end Gdx.Props
