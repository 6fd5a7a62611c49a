/-!
Specification of name tables, independent of hashing: a list searched linearly.
-/

namespace Gdx.Spec

/-- lower case of ASCII letters -/
def lower (c : UInt8) : UInt8 := if 65 ≤ c ∧ c ≤ 90 then c + 32 else c

/-- the two strings are equal up to ASCII case -/
def SameNoCase (a b : List UInt8) : Prop := a.map lower = b.map lower
instance (a b : List UInt8) : Decidable (SameNoCase a b) := by unfold SameNoCase; infer_instance

/-- equality used by a table: exact, or up to ASCII case -/
def SameName (cs : Bool) (a b : List UInt8) : Prop := if cs = true then a = b else SameNoCase a b
instance (cs : Bool) (a b : List UInt8) : Decidable (SameName cs a b) := by unfold SameName; infer_instance

/-- abstract name table: strings with attached data, and whether an index for sorted access exists -/
structure Table (α : Type) where
  ents : List (List UInt8 × α)
  sortMap : Bool

/-- abstract effect of the operations; `none` = not allowed -/
inductive TOp (α : Type) where
  | add (s : List UInt8) (a : α)
  | store (s : List UInt8) (a : α)
  | rename (n : Nat) (s : List UInt8)
  | lookup (s : List UInt8)
  | sort
  | clear

def Table.step {α : Type} (cs : Bool) (t : Table α) : TOp α → Option (Table α)
  | .add s a =>
    if ∃ e ∈ t.ents, SameName cs e.1 s then some t
    else if t.sortMap then none
    else some { t with ents := t.ents ++ [(s, a)] }
  | .store s a => if t.sortMap then none else some { t with ents := t.ents ++ [(s, a)] }
  | .rename n s => match t.ents[n]? with
    | none => none
    | some e => some { ents := t.ents.set n (s, e.2), sortMap := false }
  | .lookup _ => some t
  | .sort => some { t with sortMap := true }
  | .clear => some { ents := [], sortMap := false }

def Table.run {α : Type} (cs : Bool) (t : Table α) : List (TOp α) → Option (Table α)
  | [] => some t
  | o :: os => (t.step cs o).bind fun t => t.run cs os

end Gdx.Spec
