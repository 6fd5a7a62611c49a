import Verif.Spec.Records
import Verif.Spec.Values

/-! What a reader of a symbol must report, independent of the reader. -/

namespace Gdx.Spec

/-- `i` is the first position, counted from 1, in which the keys differ -/
def FirstDiff (p k : List Int) (i : Nat) : Prop :=
  1 ≤ i ∧ (∃ a b, p[i - 1]? = some a ∧ k[i - 1]? = some b ∧ a ≠ b) ∧ ∀ j, 1 ≤ j → j < i → p[j - 1]? = k[j - 1]?

/-- The first changed positions reported for a sequence of keys: 0 for scalars, 1 for the first record, otherwise the first position
    in which the key differs from the one before. -/
def FirstsOk (dim : Nat) (l : List (List Int × Nat)) : Prop :=
  ∀ i k f, l[i]? = some (k, f) →
    if dim = 0 then f = 0
    else match i with
      | 0 => f = 1
      | j + 1 => ∃ p, l[j]? = some p ∧ FirstDiff p.1 k f

/-- a bound of a variable or equation -/
inductive Bound where
  | zero | one | pinf | minf
  deriving DecidableEq, Repr

/-- a bound in the special values of the reader -/
def Bound.dbl (r : SVTab) : Bound → Dbl
  | .zero => Dbl.zero
  | .one => Dbl.one
  | .pinf => r.pin
  | .minf => r.min

/-- Lower and upper bound of the variable types: unknown, binary, integer, positive, negative, free, sos1, sos2, semi-continuous,
    semi-integer -/
def varBounds : List (Bound × Bound) :=
  [(.zero, .zero), (.zero, .one), (.zero, .pinf), (.zero, .pinf), (.minf, .zero), (.minf, .pinf), (.zero, .pinf), (.zero, .pinf),
   (.one, .pinf), (.one, .pinf)]

/-- Lower and upper bound of the equation types, numbered from 53 on: =e=, =g=, =l=, =n=, =x=, =c=, =b= -/
def equBounds : List (Bound × Bound) :=
  [(.zero, .zero), (.zero, .pinf), (.minf, .zero), (.minf, .pinf), (.zero, .zero), (.zero, .pinf), (.zero, .zero)]

/-- the bounds of a type of a table; the first entry stands for unknown numbers -/
def boundsOf (l : List (Bound × Bound)) (n : Int) : Bound × Bound :=
  ((if 0 ≤ n then l[n.toNat]? else none).getD (.zero, .zero))

/-- The values of a scalar that was never written. `typ`: 0 set, 1 parameter, 2 variable, 3 equation. -/
def defaults (r : SVTab) (typ : Nat) (ui : Int) : List Dbl :=
  match typ with
  | 2 => let b := boundsOf varBounds ui; [Dbl.zero, Dbl.zero, b.1.dbl r, b.2.dbl r, Dbl.one]
  | 3 => let b := boundsOf equBounds (ui - 53); [Dbl.zero, Dbl.zero, b.1.dbl r, b.2.dbl r, Dbl.one]
  | _ => [Dbl.zero]

end Gdx.Spec
