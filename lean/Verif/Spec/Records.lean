import Verif.Model.Rec

/-! Specification of record sequences, independent of how records are coded.
    Keys are compared with Lean's own lexicographic order on `List Int`. -/

namespace Gdx.Spec

/-- Element numbers for which the writer's arithmetic stays in the int range. -/
def KeyOk (k : Int) : Prop := 0 ≤ k ∧ k ≤ 2147483391

/-- First position (counted from 1) in which two keys of the same length differ. -/
def firstChange (prev key : List Int) : Nat :=
  (List.zipWith (fun a b => decide (a ≠ b)) prev key).findIdx id + 1

/-- What a record reader reports as first changed position: 0 for scalars, 1 for the first record, else the first
    position where the key differs from the previous key. -/
def dimFrst (dim : Nat) : Option (List Int) → List Int → Nat
  | none, _ => if dim = 0 then 0 else 1
  | some prev, key => if dim = 0 then 0 else firstChange prev key

/-- Records together with what the reader must report. -/
def annotate (dim : Nat) : Option (List Int) → List Rec → List (Nat × Rec)
  | _, [] => []
  | prev, r :: rs => (dimFrst dim prev r.key, r) :: annotate dim (some r.key) rs

/-- The records a sequential writer accepts: a record is accepted iff its key is greater than the last accepted one
    (dimension ≥ 1). -/
def accepted : Option (List Int) → List Rec → List Rec
  | _, [] => []
  | none, r :: rs => r :: accepted (some r.key) rs
  | some l, r :: rs => if l < r.key then r :: accepted (some r.key) rs else accepted (some l) rs

/-- The refused records with the reason. -/
def refused : Option (List Int) → List Rec → List (RecErr × Rec)
  | _, [] => []
  | none, r :: rs => refused (some r.key) rs
  | some l, r :: rs =>
    if l < r.key then refused (some r.key) rs
    else (if r.key = l then .dup else .unsorted, r) :: refused (some l) rs

end Gdx.Spec
