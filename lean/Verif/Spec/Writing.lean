import Verif.Model.Val

/-! What happens to records that are written one after the other, independent of the writer. -/

namespace Gdx.Spec

/-- The domain of an index position: `none` admits every element. -/
abbrev Dom := Option (Int → Bool)

/-- Which indices are outside of their domains? Positions without an entry in the list of domains are free. -/
def outsides : List Dom → List Int → List Bool
  | _, [] => []
  | [], _ :: ks => false :: outsides [] ks
  | none :: ds, _ :: ks => false :: outsides ds ks
  | some f :: ds, k :: ks => (!f k) :: outsides ds ks

/-- the key with the offending positions negated -/
def mark (doms : List Dom) (key : List Int) : List Int :=
  List.zipWith (fun b k => if b then -k else k) (outsides doms key) key

/-- stored, or refused for one of three reasons -/
inductive Verdict where
  | stored | outside | duplicate | unsorted
  deriving DecidableEq, Repr

/-- the error code of a refusal, gxfile.hpp -/
def Verdict.code : Verdict → Int
  | .stored => 0
  | .outside => -100058
  | .duplicate => -100009
  | .unsorted => -100025

/-- A record against the domains and the last stored key. Keys are compared with Lean's lexicographic order on `List Int`. The
    records of a scalar are all stored. -/
def verdict (doms : List Dom) (dim : Nat) (last : Option (List Int)) (key : List Int) : Verdict :=
  if true ∈ outsides doms key then .outside
  else if dim = 0 then .stored
  else match last with
    | none => .stored
    | some l => if l < key then .stored else if key = l then .duplicate else .unsorted

/-- the records of a list, one after the other -/
def verdicts {α : Type} (doms : List Dom) (dim : Nat) : Option (List Int) → List (List Int × α) → List Verdict
  | _, [] => []
  | last, (k, _) :: l =>
    verdict doms dim last k :: verdicts doms dim (if verdict doms dim last k = .stored then some k else last) l

/-- the records that are stored -/
def storedOf {α : Type} (doms : List Dom) (dim : Nat) : Option (List Int) → List (List Int × α) → List (List Int × α)
  | _, [] => []
  | last, (k, v) :: l =>
    if verdict doms dim last k = .stored then (k, v) :: storedOf doms dim (some k) l else storedOf doms dim last l

/-- the records that are refused, with the reasons -/
def refusals {α : Type} (doms : List Dom) (dim : Nat) : Option (List Int) → List (List Int × α) → List (Verdict × (List Int × α))
  | _, [] => []
  | last, (k, v) :: l =>
    if verdict doms dim last k = .stored then refusals doms dim (some k) l
    else (verdict doms dim last k, (k, v)) :: refusals doms dim last l

/-- the records that are refused -/
def refusedOf {α : Type} (doms : List Dom) (dim : Nat) (last : Option (List Int)) (l : List (List Int × α)) : List (List Int × α) :=
  (refusals doms dim last l).map Prod.snd

/-- Does a marked key have a mark that no record of the list has? -/
def NewMark {α : Type} (l : List (List Int × α)) (key : List Int) : Prop :=
  ∃ (d : Nat) (k : Int), key[d]? = some k ∧ k < 0 ∧ ∀ r ∈ l, r.1[d]? ≠ some k

/-- How the error list grows by a refused record: it never has more than eleven records; a domain violation is noted with the
    offending positions negated, and only if it has a new mark. -/
inductive NoteOne {α : Type} (doms : List Dom) : List (List Int × α) → Verdict × (List Int × α) → List (List Int × α) → Prop
  | full {l v x} (h : 11 ≤ l.length) : NoteOne doms l (v, x) l
  | plain {l v x} (h : l.length < 11) (hv : v ≠ .outside) : NoteOne doms l (v, x) (l ++ [x])
  | domain {l k v} (h : l.length < 11) (hn : NewMark l (mark doms k)) : NoteOne doms l (.outside, (k, v)) (l ++ [(mark doms k, v)])
  | known {l k v} (h : l.length < 11) (hn : ¬ NewMark l (mark doms k)) : NoteOne doms l (.outside, (k, v)) l

/-- the error list after a sequence of refusals -/
inductive NoteAll {α : Type} (doms : List Dom) : List (List Int × α) → List (Verdict × (List Int × α)) → List (List Int × α) → Prop
  | nil (l) : NoteAll doms l [] l
  | cons {l l1 l2 r rs} (h : NoteOne doms l r l1) (ht : NoteAll doms l1 rs l2) : NoteAll doms l (r :: rs) l2

/-- Are all indices within their domains? -/
def inside (doms : List Dom) (key : List Int) : Bool := decide (true ∉ outsides doms key)

/-- `b` has, in strictly increasing order of the keys, for each key that is in `a` the first record of `a` with it, and nothing else. -/
structure FirstOfEach {α : Type} (a b : List (List Int × α)) : Prop where
  sorted : (b.map Prod.fst).Pairwise (· < ·)
  first : ∀ k, b.find? (fun x => decide (x.1 = k)) = a.find? fun x => decide (x.1 = k)

end Gdx.Spec
