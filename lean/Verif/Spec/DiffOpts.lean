import Verif.Spec.CmdLine
import Verif.Model.DiffOpts

/-! What the parameters of gdxdiff mean, from the text of Usage (gdxdiff.cpp:699-719) -/

namespace Gdx.DiffOpts
open Gdx CmdLine Spec

/-- the names of the options, as the text of Usage and the numbers of gdxdiff.hpp:49-65 have them (10000 is added for a parameter with a
    value); `I`, `Input`, `O`, `Output` for the files and `IDE` are not in the text -/
def documented : List (Text × Int) :=
  let value := [("Eps", 1), ("RelEps", 2), ("Field", 4), ("SetDesc", 5), ("ID", 7), ("SkipID", 14)]
  let word := [("FldOnly", 8), ("DiffOnly", 9), ("CmpDefaults", 10), ("CmpDomains", 11), ("MatrixFile", 12), ("IgnoreOrder", 13)]
  let more := [("I", 0), ("Input", 0), ("O", 3), ("Output", 3), ("IDE", 6)]
  (value ++ more).map (fun x => (str x.1, x.2 + 10000)) ++ word.map fun x => (str x.1, x.2)

/-- the last value given for a parameter -/
def Last (l : List (Int × Text)) (v : Int) (s : Text) : Prop := ∃ l₁ l₂, l = l₁ ++ (v, s) :: l₂ ∧ ∀ p ∈ l₂, p.1 ≠ v

/-- the parameter, or the keyword, is given -/
def Given (l : List (Int × Text)) (v : Int) : Prop := ∃ s, (v, s) ∈ l

/-- the name has an extension -/
def Extended (f : Text) : Prop := ∃ a b, f = a ++ 46 :: b ∧ 46 ∉ b ∧ 47 ∉ b

/-- ".gdx" is the extension of a file that is not there without it -/
def InName (ex : Text → Bool) (f n : Text) : Prop :=
  ((ex f = true ∨ Extended f) ∧ n = f) ∨ (¬ (ex f = true ∨ Extended f) ∧ n = f ++ str ".gdx")

/-- the name of the difference file, without its extension: the last one given, or the third word; "diffile" if there is none -/
def OutWord (l : List (Int × Text)) (d : Text) : Prop :=
  (∃ s, Last l 3 s ∧ d = if s = [] then str "diffile" else s) ∨
  (¬ Given l 3 ∧ ∃ s, l[2]? = some (-2, s) ∧ d = if s = [] then str "diffile" else s) ∨
  (¬ Given l 3 ∧ (∀ s, l[2]? ≠ some (-2, s)) ∧ d = str "diffile")

/-- the field with that name -/
inductive FieldName : Text → Nat → Prop
  | level {s} : SameNoCase s (str "L") → FieldName s 0
  | marginal {s} : SameNoCase s (str "M") → FieldName s 1
  | lower {s} : SameNoCase s (str "Lo") → FieldName s 2
  | upper {s} : SameNoCase s (str "Up") → FieldName s 3
  | prior {s} : SameNoCase s (str "Prior") → FieldName s 4
  | scale {s} : SameNoCase s (str "Scale") → FieldName s 4

/-- a number as the value of a parameter -/
def Number (num : Text → Option Dbl) (l : List (Int × Text)) (v : Int) (d : Dbl) : Prop :=
  (¬ Given l v ∧ d = Dbl.zero) ∨ ∃ s, Last l v s ∧ num s = some d

def White (c : UInt8) : Prop := c = 32 ∨ c = 9 ∨ c = 10 ∨ c = 13

/-- `x` is `m` without the white space around it -/
def Trimmed (m x : Text) : Prop :=
  ∃ u w, m = u ++ x ++ w ∧ (∀ c ∈ u, White c) ∧ (∀ c ∈ w, White c) ∧ (∀ c, x.head? = some c → ¬ White c) ∧ (∀ c, x.getLast? = some c → ¬ White c)

/-- one of the identifiers, separated by commas or blanks, in one of the values of the parameter -/
def IdIn (l : List (Int × Text)) (v : Int) (x : Text) : Prop :=
  ∃ s m, (v, s) ∈ l ∧ m ∈ s.splitOnP (fun c => c == 44 || c == 32) ∧ Trimmed m x ∧ x ≠ []

/-- the list of the identifiers, each one once -/
def IdSet (l : List (Int × Text)) (v : Int) (o : Option (List Text)) : Prop :=
  (¬ Given l v ∧ o = none) ∨
  ∃ ids, o = some ids ∧ Given l v ∧ (∀ x ∈ ids, IdIn l v x) ∧ (∀ x, IdIn l v x → ∃ y ∈ ids, SameNoCase y x) ∧ ids.Pairwise fun a b => ¬ SameNoCase a b

def noText : List Text := [str "0", str "N", str "n", str "F", str "f"]
def yesText : List Text := [[], str "1", str "Y", str "y", str "T", str "t"]

/-- parameters that are not accepted -/
inductive Bad (num : Text → Option Dbl) (l : List (Int × Text)) : Prop
  | files : (¬ ∃ f₁ f₂ t, l = (0, f₁) :: (-2, f₂) :: t ∧ f₁ ≠ [] ∧ f₂ ≠ []) → Bad num l
  | eps {s} : Last l 1 s → num s = none → Bad num l
  | rel {s} : Last l 2 s → num s = none → Bad num l
  | field {s} : Last l 4 s → ¬ SameNoCase s (str "All") → (∀ f, ¬ FieldName s f) → Bad num l
  | single : Given l 8 → (¬ ∃ s f, Last l 4 s ∧ FieldName s f) → Bad num l
  | both : Given l 8 → Given l 9 → Bad num l
  | text {s} : Last l 5 s → s ∉ noText → s ∉ yesText → Bad num l

/-- the program works with the parameters -/
structure Takes (num : Text → Option Dbl) (ex : Text → Bool) (l : List (Int × Text)) (c : Conf) : Prop where
  files : ∃ f₁ f₂ t, l = (0, f₁) :: (-2, f₂) :: t ∧ InName ex f₁ c.file1 ∧ InName ex f₂ c.file2
  diff : ∃ d, OutWord l d ∧ InName (fun _ => false) d c.diff
  eps : Number num l 1 c.opt.eps
  rel : Number num l 2 c.opt.rel
  field : (c.opt.active = [0, 1, 2, 3, 4] ∧ (¬ Given l 4 ∨ ∃ s, Last l 4 s ∧ SameNoCase s (str "All"))) ∨ ∃ s f, Last l 4 s ∧ FieldName s f ∧ c.opt.active = [f]
  fldOnly : (¬ Given l 8 ∧ c.opt.fldOnly = none) ∨ (Given l 8 ∧ ∃ s f, Last l 4 s ∧ FieldName s f ∧ c.opt.fldOnly = some f)
  diffOnly : c.opt.diffOnly = true ↔ Given l 9
  text : c.opt.compText = false ↔ ∃ s, Last l 5 s ∧ s ∈ noText
  matrix : c.opt.matrix = true ↔ Given l 12
  order : c.opt.ignoreOrder = true ↔ Given l 13
  showDef : c.opt.showDef = true ↔ Given l 10
  domains : c.opt.compDom = true ↔ Given l 11
  ids : IdSet l 7 c.opt.ids
  skip : IdSet l 14 c.opt.skip
  ide : c.ide = true ↔ ∃ s t, Last l 6 s ∧ (s = 89 :: t ∨ s = 121 :: t ∨ s = 49 :: t)

end Gdx.DiffOpts
