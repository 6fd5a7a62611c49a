import Verif.Model.MergeOpts
import Verif.Spec.DiffOpts
import Verif.Spec.ValInt

/-! What the arguments of gdxmerge mean, from its usage text (gdxmerge.cpp:694-708). A list of parameters is given by numbers and values: 0 and -2 are the words that are no
options. -/

namespace Gdx.MergeOpts
open CmdLine Spec
open DiffOpts (str Given Last IdIn InName)

/-- the options of the usage text, and the short name `o` -/
def documented : List (Text × Int) :=
  [("id", 1), ("exclude", 2), ("big", 3), ("output", 5), ("strict", 4), ("o", 5)].map fun x => (str x.1, x.2 + 10000)

/-- the patterns for input files -/
def words (l : List (Int × Text)) : List Text := l.filterMap fun p => if p.1 = 0 ∨ p.1 = -2 then some p.2 else none

/-- the name of the output file -/
def OutIs (l : List (Int × Text)) (n : Text) : Prop :=
  (¬ Given l 5 ∧ n = str "merged.gdx") ∨ ∃ s, (5, s) ∈ l ∧ InName (fun _ => false) s n

/-- strict mode -/
def StrictIs (l : List (Int × Text)) : Prop := ∃ s, Last l 4 s ∧ SameNoCase s (str "true")

/-- the directory of a pattern -/
def Dir (p d : Text) : Prop := ∃ b, p = d ++ b ∧ 47 ∉ b ∧ (d = [] ∨ d.getLast? = some 47)

/-- the name of a file without its extension -/
def Stem (b s : Text) : Prop := (∃ e, b = s ++ 46 :: e ∧ 46 ∉ e) ∨ (46 ∉ b ∧ s = b)

/-- The names of the input files: for each pattern the names that match it, with the directory of the pattern. The entries for directories and the output file are left
    out. -/
inductive Files (sys : Sys) (out : Text) : List Text → List Text → Prop
  | nil : Files sys out [] []
  | cons {p d : Text} {ps fs : List Text} : Dir p d → Files sys out ps fs →
      Files sys out (p :: ps) (((sys.find p).filter fun x => x ≠ str "." ∧ x ≠ str ".." ∧ d ++ x ≠ out).map (d ++ ·) ++ fs)

/-- can be a label, and is not only blank -/
def Usable (s : Text) : Prop :=
  s.length < 64 ∧ (∀ c ∈ s, 32 ≤ c) ∧ ¬ (39 ∈ s ∧ 34 ∈ s) ∧ ∃ c ∈ s, ¬ DiffOpts.White c

/-- a decimal number -/
def Decimal (s : Text) (n : Nat) : Prop := ValInt.Numeral 10 s n ∧ (s.head? = some 48 → s = [48])

/-- the label for the file with the number `n` (from 0) -/
def IdIs (n : Nat) (name id : Text) : Prop :=
  ∃ d s b, name = d ++ b ∧ 47 ∉ b ∧ (d = [] ∨ d.getLast? = some 47) ∧ Stem b s ∧
    ((Usable s ∧ id = s) ∨ (¬ Usable s ∧ ∃ t, Decimal t (n + 1) ∧ id = str "File_" ++ t))

/-- the program works with these options -/
structure Takes (l : List (Int × Text)) (c : Conf) : Prop where
  incl : ∀ x, x ∈ c.incl ↔ IdIn l 1 x
  excl : ∀ x, x ∈ c.excl ↔ IdIn l 2 x
  big : (¬ Given l 3 ∧ c.big = none) ∨ ∃ s v, Last l 3 s ∧ ValInt.IntText s v ∧ c.big = some v
  strict : c.strict = true ↔ StrictIs l
  out : OutIs l c.out
  pats : c.pats = words l

/-- the program works with these files -/
structure Uses (sys : Sys) (c : Conf) (fs : List Found) : Prop where
  names : Files sys c.out c.pats (fs.map Found.name)
  ids : ∀ n f, fs[n]? = some f → IdIs n f.name f.id
  infos : ∀ f ∈ fs, f.info = sys.date f.name ++ str "  " ++ f.name

/-- what is an error -/
inductive Bad (sys : Sys) (l : List (Int × Text)) : Prop
  | output {a b c s t} : l = a ++ (5, s) :: b ++ (5, t) :: c → Bad sys l
  | both {x y} : IdIn l 1 x → IdIn l 2 y → Bad sys l
  | exist {n} : StrictIs l → OutIs l n → sys.isFile n = true → Bad sys l
  | write {n} : OutIs l n → sys.writable n = false → Bad sys l
  | missing {p} : StrictIs l → p ∈ words l → sys.find p = [] → Bad sys l
  | self {p d x n} : StrictIs l → OutIs l n → p ∈ words l → Dir p d → x ∈ sys.find p → n = d ++ x → x ≠ str "." → x ≠ str ".." → Bad sys l

end Gdx.MergeOpts
