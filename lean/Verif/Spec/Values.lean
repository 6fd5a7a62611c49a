import Verif.Model.Val

/-! What values mean, independent of how they are stored. -/

namespace Gdx.Spec

/-- The five kinds of special values a user can choose a double for. -/
inductive Kind where
  | undef | na | pinf | minf | eps
  deriving DecidableEq, Repr

/-- The user's double for a kind. -/
def val (t : SVTab) : Kind → Dbl
  | .undef => t.und
  | .na => t.na
  | .pinf => t.pin
  | .minf => t.min
  | .eps => t.eps

/-- The table is unambiguous. -/
def Distinct (t : SVTab) : Prop := ∀ a b, val t a = val t b → a = b

/-- IEEE 754: magnitude bits of a double. -/
def mag (x : Dbl) : Nat := x.toNat % 2 ^ 63
/-- IEEE 754: sign bit set. -/
def isNeg (x : Dbl) : Prop := 2 ^ 63 ≤ x.toNat
/-- IEEE 754: infinity has exponent all ones and mantissa 0. -/
def infMag : Nat := 2047 * 2 ^ 52
def IsNaN (x : Dbl) : Prop := infMag < mag x
def IsFinite (x : Dbl) : Prop := mag x < infMag
instance (x : Dbl) : Decidable (isNeg x) := by unfold isNeg; infer_instance
instance (x : Dbl) : Decidable (IsNaN x) := by unfold IsNaN; infer_instance
instance (x : Dbl) : Decidable (IsFinite x) := by unfold IsFinite; infer_instance
/-- smaller than 1e301 as a real number (finite x): negative, or smaller magnitude -/
def BelowAcr (x : Dbl) : Prop := isNeg x ∨ mag x < 0x7e6ddd4baa009303

/-- `x` is not one of the user's special values. -/
def Ordinary (t : SVTab) (x : Dbl) : Prop := ∀ k, x ≠ val t k

/-- What a reader with special values `r` must get for a value that was written with special values `w`; `acr` is what the
    reader gets for numbers from 1e301 on (acronyms). -/
inductive ReadsAs (w r : SVTab) (acr : Dbl → Dbl) : Dbl → Dbl → Prop
  | special (k : Kind) : ReadsAs w r acr (val w k) (val r k)
  | nan {x : Dbl} (h : Ordinary w x) (hx : IsNaN x) : ReadsAs w r acr x r.na
  | pinf (h : Ordinary w Dbl.posInf) : ReadsAs w r acr Dbl.posInf r.pin
  | minf (h : Ordinary w Dbl.negInf) : ReadsAs w r acr Dbl.negInf r.min
  | negZero (h : Ordinary w Dbl.negZero) : ReadsAs w r acr Dbl.negZero Dbl.zero
  | same {x : Dbl} (h : Ordinary w x) (hf : IsFinite x) (hb : BelowAcr x) (hz : x ≠ Dbl.negZero) : ReadsAs w r acr x x
  | acronym {x : Dbl} (h : Ordinary w x) (hf : IsFinite x) (hb : ¬ BelowAcr x) : ReadsAs w r acr x (acr x)

end Gdx.Spec
