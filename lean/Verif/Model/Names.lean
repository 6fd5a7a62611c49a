import Verif.Model.StrHash

/-!
Name tables as lists. `Model/StrHash` models the hash table itself, `Props/Names` (C15) proves that looking up does not
depend on it, and `C15_list_view` in `Props/NameView` proves that the result is `lookup` below when no two entries have the
same name. The models of the API use this list view. Tables with two equal names arise only from reading a damaged file;
`lookup` then takes the last entry, as the hash table does (new entries are put in front of their chain) as long as no
entry of such a table has been renamed.
-/

namespace Gdx

/-- number (from 0) of the last entry that is the same text as `s` -/
def lookup (cs : Bool) (s : Str) : List Str → Option Nat
  | [] => none
  | x :: xs => match lookup cs s xs with
    | some n => some (n + 1)
    | none => if sameText cs x s then some 0 else none

/-- IndexOf of a 1-based list: the number from 1, or -1 (strhash.hpp:347-364) -/
def indexOf1 (cs : Bool) (s : Str) (l : List Str) : Int :=
  match lookup cs s l with
  | some n => n + 1
  | none => -1

/-- IndexOf of a 0-based list -/
def indexOf0 (cs : Bool) (s : Str) (l : List Str) : Int :=
  match lookup cs s l with
  | some n => n
  | none => -1

/-- the `n`-th entry counted from 1; outside of the table: undefined -/
def at1 {α : Type} (l : List α) (n : Int) : Res α :=
  if 1 ≤ n then
    match l[(n - 1).toNat]? with
    | some a => .ok a
    | none => .ub
  else .ub

/-- the `n`-th entry counted from 0; outside of the table: undefined -/
def at0 {α : Type} (l : List α) (n : Int) : Res α :=
  if 0 ≤ n then
    match l[n.toNat]? with
    | some a => .ok a
    | none => .ub
  else .ub

/-- a pointer that must not be null -/
def need {α : Type} : Option α → Res α
  | some a => .ok a
  | none => .ub

end Gdx
