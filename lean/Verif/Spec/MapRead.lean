import Mathlib.Data.List.Basic

/-! What mapped and filtered reading means, independent of the implementation. -/

namespace Gdx.Spec

/-- the user's numbers of the elements (negative = none) and the highest number in use -/
structure Users where
  num : Int → Int
  hi : Int

/-- what is to be done in one position -/
inductive Act where
  | keep                      -- deliver the element number
  | only (p : Int → Bool)     -- deliver the user's number, if it is admitted
  | mapped                    -- deliver the user's number, if there is one
  | grow                      -- deliver the user's number, invent one if there is none

/-- may the element stand there? -/
def Act.admits (us : Users) : Act → Int → Bool
  | .keep, _ => true
  | .only p, e => p (us.num e)
  | .mapped, e => decide (0 ≤ us.num e)
  | .grow, _ => true

/-- an element without number gets the next one -/
def Users.give (us : Users) (e : Int) : Users :=
  if us.num e < 0 then ⟨fun x => if x = e then us.hi + 1 else us.num x, us.hi + 1⟩ else us

/-- the same for all elements of a record that are in a position where this is allowed, from left to right -/
def giveAll : List Act → List Int → Users → Users
  | .grow :: as, e :: es, us => giveAll as es (us.give e)
  | _ :: as, _ :: es, us => giveAll as es us
  | _, _, us => us

/-- what is delivered in a position -/
def Act.key (us : Users) : Act → Int → Int
  | .keep, e => e
  | _, e => us.num e

/-- every element of the record is admitted -/
def allAdmit (us : Users) : List Act → List Int → Bool
  | a :: as, e :: es => a.admits us e && allAdmit us as es
  | _, _ => true

/-- the record as delivered -/
def mapKeys (us : Users) (acts : List Act) (key : List Int) : List Int := List.zipWith (Act.key us) acts key

/-- All records, one after the other: those that are not admitted are left out, numbers are given for the others. -/
def mapAll {α : Type} (acts : List Act) : Users → List (List Int × α) → Users × List (List Int × α)
  | us, [] => (us, [])
  | us, (key, x) :: rs =>
    if allAdmit us acts key then
      let us := giveAll acts key us
      let r := mapAll acts us rs
      (r.1, (mapKeys us acts key, x) :: r.2)
    else mapAll acts us rs

end Gdx.Spec
