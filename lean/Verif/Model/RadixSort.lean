import Verif.Model.Prim

/-!
The record list used for sorting, `/repo/src/gdlib/datastorage.hpp` class TLinkedData.

The singly linked chain FHead → RecNext → … → null is a `List`; a bucket (Head[k], Tail[k] and the chain between them) is
a `List` too. During one pass the code only relinks nodes it has already visited, so the chain behind the visited node is
still intact; lists therefore describe the pointer program. The payload (values) is an arbitrary type.
-/

namespace Gdx

/-- One node: the keys RecKeys[0..FDimension-1] and the values. -/
structure LItem (α : Type) where
  key : List Int
  val : α
  deriving DecidableEq, Repr

/-- datastorage.hpp:66-78 the members of TLinkedData. `tail` tells whether FTail is a valid pointer to the last node. -/
structure LData (α : Type) where
  minKey : Int
  maxKey : Int
  items : List (LItem α)
  tail : Bool
  deriving DecidableEq, Repr

/-- datastorage.hpp:105-111 constructor: FMinKey = INT_MAX, FMaxKey = 0 -/
def LData.empty {α : Type} : LData α := { minKey := intMax, maxKey := 0, items := [], tail := true }

/-- datastorage.hpp:177-181: bounds over the keys of an added record -/
def boundsKey : List Int → Int × Int → Int × Int
  | [], b => b
  | k :: ks, (mn, mx) => boundsKey ks (if k < mn then k else mn, if k > mx then k else mx)

/-- datastorage.hpp:157-184 AddItem. Adding to a non-empty list whose FTail was reset to null by Sort dereferences a null
    pointer. -/
def LData.add {α : Type} (s : LData α) (it : LItem α) : Res (LData α) :=
  if s.items ≠ [] ∧ s.tail = false then .ub
  else
    let b := boundsKey it.key (s.minKey, s.maxKey)
    .ok { minKey := b.1, maxKey := b.2, items := s.items ++ [it], tail := true }

def LData.addAll {α : Type} : LData α → List (LItem α) → Res (LData α)
  | s, [] => .ok s
  | s, it :: its => do
    let s ← s.add it
    s.addAll its

/-- datastorage.hpp:93-97: the first non-zero difference of two keys, 0 if there is none; overflow is undefined. -/
def keyDiff : List Int → List Int → Res Int
  | k :: ks, l :: ls =>
    if I32 (k - l) then (if k - l ≠ 0 then .ok (k - l) else keyDiff ks ls) else .ub
  | _, _ => .ok 0

/-- datastorage.hpp:84-102 IsSorted, loop over the rest of the chain with PrevKey -/
def isSortedFrom {α : Type} (prev : List Int) : List (LItem α) → Res Bool
  | [] => .ok true
  | r :: rs => do
    let kd ← keyDiff r.key prev
    if kd < 0 then pure false else isSortedFrom r.key rs

/-- datastorage.hpp:84-102 IsSorted (called only for a non-empty chain) -/
def isSorted {α : Type} : List (LItem α) → Res Bool
  | [] => .ub
  | r :: rs => isSortedFrom r.key rs

/-- datastorage.hpp:204-212: distribute the chain over the buckets; a bucket index outside of the arrays Head/Tail of
    `n` entries, and a record with too few keys, are undefined. -/
def distribute {α : Type} (n : Nat) (base : Int) (d : Nat) :
    List (LItem α) → (Nat → List (LItem α)) → Res (Nat → List (LItem α))
  | [], bk => .ok bk
  | r :: rs, bk =>
    match r.key[d]? with
    | none => .ub
    | some k =>
      if 0 ≤ k - base ∧ k - base < n then
        distribute n base d rs (fun i => if i = (k - base).toNat then bk i ++ [r] else bk i)
      else .ub

/-- datastorage.hpp:213-222: concatenate the buckets from the highest index downwards; `n` = number of buckets still to
    be treated, `acc` = R. -/
def collect {α : Type} (bk : Nat → List (LItem α)) : Nat → List (LItem α) → List (LItem α)
  | 0, acc => acc
  | n + 1, acc => collect bk n (bk n ++ acc)

/-- datastorage.hpp:202-224: the passes for D = d-1, …, 0 -/
def radixPasses {α : Type} (n : Nat) (base : Int) : Nat → List (LItem α) → Res (List (LItem α))
  | 0, l => .ok l
  | d + 1, l => do
    let bk ← distribute n base d l (fun _ => [])
    radixPasses n base d (collect bk n [])

/-- datastorage.hpp:186-233 Sort without index map (no caller passes one). FMaxKey - FMinKey + 1 outside of the int range
    is undefined. -/
def LData.sort {α : Type} (dim : Nat) (s : LData α) : Res (LData α) :=
  if s.items = [] then .ok s
  else do
    if ← isSorted s.items then pure s
    else
      if I32 (s.maxKey - s.minKey) ∧ I32 (s.maxKey - s.minKey + 1) then do
        let l ← radixPasses (s.maxKey - s.minKey + 1).toNat s.minKey dim s.items
        pure { s with items := l, tail := false }
      else .ub

/-- datastorage.hpp:235-240 StartRead followed by GetNextRecord (242-253) until the end: the records in chain order -/
def LData.readAll {α : Type} (dim : Nat) (s : LData α) : Res (List (LItem α)) :=
  if s.items.length = 0 then .ok []
  else do
    let s ← s.sort dim
    pure s.items

end Gdx
