import Verif.Model.Prim

/-!
`/repo/src/gdlib/strhash.hpp` classes TXStrHashList (case insensitive) and TXCSStrHashList (case sensitive).

A bucket is the pair of string and object in `ents`, in insertion order (vector Buckets). A chain of the hash table
(PHashTable[h], NextBucket, …, null) is the list of the entry numbers StrNr. Entry numbers are 0-based here; the C++
functions add or subtract 1 when OneBased is set.
-/

namespace Gdx

/-- `/repo/src/gdlib/utils.hpp` 198-201 toupper: ASCII letters only (`c ^ 32` for a lower case letter) -/
def upC (c : UInt8) : UInt8 := if 97 ≤ c ∧ c ≤ 122 then c ^^^ 32 else c
/-- `/repo/src/gdlib/utils.hpp` 203-206 tolower -/
def loC (c : UInt8) : UInt8 := if 65 ≤ c ∧ c ≤ 90 then c ^^^ 32 else c

/-- utils.hpp:475-486 sameTextPChar: strcasecmp in the C locale, or strcmp -/
def sameText (cs : Bool) (a b : Str) : Bool :=
  if cs then a == b else a.map loC == b.map loC

/-- a `char` is signed: its value as an unsigned 32-bit summand -/
def charVal (c : UInt8) : Nat := if c.toNat < 128 then c.toNat else 4294967296 - 256 + c.toNat

/-- strhash.hpp:108-115 (433-440 case sensitive) Hash, in unsigned 32-bit arithmetic -/
def hashStr (cs : Bool) (size : Nat) (s : Str) : Nat :=
  (s.foldl (fun r c => (211 * r + charVal (if cs then c else upC c)) % 4294967296) 0) % 2147483648 % size

/-- strhash.hpp:64-106 HashTableReset: table size and next re-hash count -/
def hashSizes (cnt : Nat) : Nat × Nat :=
  if cnt ≥ 15000000 then (99999989, 2147483647)
  else if cnt ≥ 1500000 then (9999991, 15000000)
  else if cnt ≥ 150000 then (999979, 1500000)
  else if cnt ≥ 15000 then (99991, 150000)
  else if cnt ≥ 1500 then (9973, 15000)
  else (997, 1500)

/-- the hash table: size, ReHashCnt and the chains -/
structure HTab where
  size : Nat
  reHash : Nat
  chain : Nat → List Nat

/-- `tab = none`: PHashTable is null, HashTableSize = ReHashCnt = 0. `sortMap`: SortMap exists (and FSorted is set, the
    two go together as long as nothing is added). -/
structure HList (α : Type) where
  ents : List (Str × α)
  tab : Option HTab
  sortMap : Bool

variable {α : Type}

def HList.empty : HList α := { ents := [], tab := none, sortMap := false }

/-- put entry number `n` in front of chain `h` -/
def HTab.push (t : HTab) (h n : Nat) : HTab :=
  { t with chain := fun i => if i = h then n :: t.chain i else t.chain i }

/-- take entry number `n` out of chain `h` (strhash.hpp:407-413) -/
def HTab.remove (t : HTab) (h n : Nat) : HTab :=
  { t with chain := fun i => if i = h then (t.chain i).erase n else t.chain i }

/-- strhash.hpp:127-139 HashAll: new table, all entries inserted at the head of their chain in order -/
def HList.hashAll (cs : Bool) (l : HList α) : HTab :=
  let sz := hashSizes l.ents.length
  (l.ents.zipIdx).foldl (fun t e => t.push (hashStr cs t.size e.1.1) e.2)
    { size := sz.1, reHash := sz.2, chain := fun _ => [] }

/-- strhash.hpp:297-304 / 341-347: walk along a chain -/
def HList.walk (cs : Bool) (l : HList α) (s : Str) : List Nat → Res (Option Nat)
  | [] => .ok none
  | n :: ns =>
    match l.ents[n]? with
    | none => .ub
    | some e => if sameText cs e.1 s then .ok (some n) else l.walk cs s ns

/-- strhash.hpp:339: the table IndexOf works with -/
def HList.lookupTab (cs : Bool) (l : HList α) : HTab :=
  match l.tab with
  | some t => t
  | none => l.hashAll cs

/-- strhash.hpp:337-349 IndexOf; `none` = -1 -/
def HList.indexOf (cs : Bool) (l : HList α) (s : Str) : Res (HList α × Option Nat) := do
  let t := l.lookupTab cs
  let r ← l.walk cs s (t.chain (hashStr cs t.size s))
  pure ({ l with tab := some t }, r)

/-- strhash.hpp:295: the table AddObject works with (ReHashCnt is 0 when there is no table) -/
def HList.addTab (cs : Bool) (l : HList α) : HTab :=
  match l.tab with
  | some t => if l.ents.length ≥ t.reHash then l.hashAll cs else t
  | none => l.hashAll cs

/-- strhash.hpp:292-326 AddObject. Writing SortMap[FCount] with an existing map of FCount entries is outside of the
    vector. -/
def HList.addObject (cs : Bool) (l : HList α) (s : Str) (a : α) : Res (HList α × Nat) := do
  let t := l.addTab cs
  let h := hashStr cs t.size s
  match ← l.walk cs s (t.chain h) with
  | some n => pure ({ l with tab := some t }, n)
  | none =>
    if l.sortMap then .ub
    else pure ({ l with ents := l.ents ++ [(s, a)], tab := some (t.push h l.ents.length) }, l.ents.length)

/-- strhash.hpp:264-290 StoreObject: the hash table is dropped, no check for an equal string -/
def HList.storeObject (l : HList α) (s : Str) (a : α) : Res (HList α × Nat) :=
  if l.sortMap then .ub
  else .ok ({ l with ents := l.ents ++ [(s, a)], tab := none }, l.ents.length)

/-- strhash.hpp:394-419 RenameEntry and 448-459 SetString; `n` is the 0-based number (the argument minus 1 when OneBased).
    The string of entry `n` is fetched and replaced by `GetString(N + 1)`, `SetString(N + 1, …)`: that is entry `n` only
    when OneBased is set. Not finding the entry in its chain runs into a null pointer. -/
def HList.rename (cs oneBased : Bool) (l : HList α) (n : Nat) (s : Str) : Res (HList α) :=
  let j := if oneBased then n else n + 1
  match l.ents[j]? with
  | none => .ub
  | some e =>
    let set (t : Option HTab) : HList α := { ents := l.ents.set j (s, e.2), tab := t, sortMap := false }
    match l.tab with
    | none => .ok (set none)
    | some t =>
      let h0 := hashStr cs t.size e.1
      let h1 := hashStr cs t.size s
      if h0 = h1 then .ok (set (some t))
      else if n ∈ t.chain h0 then .ok (set (some ((t.remove h0 n).push h1 n)))
      else .ub

/-- strhash.hpp:242-258 Clear -/
def HList.clear (_ : HList α) : HList α := HList.empty

/-- strhash.hpp:209-234 Sort: builds the sort map; entries and hash table are not touched -/
def HList.sort (l : HList α) : HList α := { l with sortMap := true }

/-- operations for histories -/
inductive HOp (α : Type) where
  | add (s : Str) (a : α)
  | store (s : Str) (a : α)
  | rename (n : Nat) (s : Str)
  | lookup (s : Str)
  | sort
  | clear

def HList.step (cs oneBased : Bool) (l : HList α) : HOp α → Res (HList α)
  | .add s a => do pure (← l.addObject cs s a).1
  | .store s a => do pure (← l.storeObject s a).1
  | .rename n s => l.rename cs oneBased n s
  | .lookup s => do pure (← l.indexOf cs s).1
  | .sort => .ok l.sort
  | .clear => .ok l.clear

def HList.run (cs oneBased : Bool) (l : HList α) : List (HOp α) → Res (HList α)
  | [] => .ok l
  | o :: os => do
    let l ← l.step cs oneBased o
    l.run cs oneBased os

end Gdx
