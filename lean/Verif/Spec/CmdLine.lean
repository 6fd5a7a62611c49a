import Verif.Spec.Names
import Mathlib.Data.List.Basic

/-! What a command line means, from the description of the tools: words, keywords, parameters with a value, and parameter files. -/

namespace Gdx.CmdLine

open Spec

abbrev Text := List UInt8

/-- a word that can be an argument: nothing in it is taken for an assignment, a quote, or a file; without a blank, it starts with a printable ASCII character, and has no tab -/
structure Word (w : Text) : Prop where
  eq : 61 ∉ w
  quote : 34 ∉ w
  at' : 64 ∉ w
  shape : 32 ∈ w ∨ (9 ∉ w ∧ ∃ c t, w = c :: t ∧ 32 < c ∧ c < 128)

/-- a keyword, or the name of a parameter: `(name, number)`, with numbers from 10000 on for parameters -/
def Names (ks : List (Text × Int)) : Prop :=
  (∀ k ∈ ks, 0 ≤ k.2) ∧ ks.Pairwise fun a b => ¬ SameNoCase a.1 b.1

/-- the value written as `w`: single quotes around it are not part of it -/
def Value (w v : Text) : Prop :=
  Word w ∧ (w = 39 :: (v ++ [39]) ∨ (w = v ∧ ¬ ∃ u, w = 39 :: (u ++ [39])))

/-- a parameter `p` and its value `w`, as arguments: `p=w`, `p w`, `p = w`, `p= w`, `p =w` -/
inductive Assign (p w : Text) : List Text → Prop
  | one : Assign p w [p ++ 61 :: w]
  | two : Assign p w [p, w]
  | three : Assign p w [p, [61], w]
  | left : Assign p w [p ++ [61], w]
  | right : Assign p w [p, 61 :: w]

/-- the parameters given by the arguments: a word that is no keyword has the number -2 -/
inductive Means (ks : List (Text × Int)) : List Text → List (Int × Text) → Prop
  | nil : Means ks [] []
  | other {w a r} : Word w → (∀ k ∈ ks, ¬ SameNoCase k.1 w) → Means ks a r → Means ks (w :: a) ((-2, w) :: r)
  | keyword {p a r k v} : Word p → 32 ∉ p → (k, v) ∈ ks → SameNoCase k p → v < 10000 → Means ks a r → Means ks (p :: a) ((v, []) :: r)
  | param {p w x l a r k v} : Word p → 32 ∉ p → (k, v) ∈ ks → SameNoCase k p → 10000 ≤ v → Value w x → Assign p w l → Means ks a r →
      Means ks (l ++ a) ((v - 10000, x) :: r)

/-- the name of a parameter file: `.txt` is added if there is no extension -/
def FileName (f n : Text) : Prop :=
  (n = f ∧ ∃ a b, f = a ++ 46 :: b ∧ 46 ∉ b ∧ 47 ∉ b) ∨ (n = f ++ [46, 116, 120, 116] ∧ ¬ ∃ a b, f = a ++ 46 :: b ∧ 46 ∉ b ∧ 47 ∉ b)

/-- the words in the lines of a parameter file, separated by one blank; a line that starts with `*` is a comment -/
inductive Lines : List Text → List Text → Prop
  | nil : Lines [] []
  | blank {ls ws} : Lines ls ws → Lines ([] :: ls) ws
  | comment {l ls ws} : Lines ls ws → Lines ((42 :: l) :: ls) ws
  | words {l ls w ws us} : (∀ x ∈ w :: us, x ≠ [] ∧ 32 ∉ x ∧ 64 ∉ x ∧ x.length < 255) → w.head? ≠ some 42 → l = w ++ us.flatMap (fun u => 32 :: u) → Lines ls ws →
      Lines (l :: ls) (w :: us ++ ws)

/-- the arguments, with the words of the parameter files for their names -/
inductive Expand (fs : Text → Option (List Text)) : List Text → List Text → Prop
  | nil : Expand fs [] []
  | empty {a b} : Expand fs a b → Expand fs ([] :: a) b
  | plain {w a b} : w ≠ [] → 64 ∉ w → Expand fs a b → Expand fs (w :: a) (w :: b)
  | file {f n ls ws a b} : f ≠ [] → 34 ∉ f → (32 ∈ f → 61 ∉ f) → FileName f n → fs n = some ls → Lines ls ws → Expand fs a b → Expand fs ((64 :: f) :: a) (ws ++ b)

/-- the first parameter is the input (number 0) if it is no keyword, and if no input is given -/
inductive Input : List (Int × Text) → List (Int × Text) → Prop
  | first {s t} : (∀ p ∈ t, p.1 ≠ 0) → Input ((-2, s) :: t) ((0, s) :: t)
  | given {r s} : (0, s) ∈ r → Input r r
  | other {r} : (∀ s t, r ≠ (-2, s) :: t) → Input r r

end Gdx.CmdLine
