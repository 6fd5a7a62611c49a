import Verif.Model.StrHash

/-!
`/repo/src/gdlib/gmsobj.hpp`, gmsobj.cpp: the containers of the tools.

TXHashedStringList and TXStrPool (symbol list and texts of gdxmerge), TQuickSortClass, TXSortedStringList. Lists hold the strings (the
objects go along with them and are left out). All indices are 0-based (OneBased is false for these lists; setting it shifts the indices
of all functions by one). Memory is always available; the lists hold at most INT_MAX strings, then the assertion in Grow fails.
-/

namespace Gdx.StrList

/-! ### TXHashedStringList -/

/-- gmsobj.cpp:78-79 schashSizes -/
def scSizes : List Nat := [10007, 77317, 598363, 4631287, 35846143, 277449127, 357913951]

/-- gmsobj.cpp:81-89 getSCHashSize: the loop goes down from 5 to 0, and the last assignment counts -/
def scHashSize (itemCount : Nat) : Nat :=
  [5, 4, 3, 2, 1, 0].foldl (fun res i => if itemCount / 6 ≥ scSizes.getD i 0 then scSizes.getD (i + 1) 0 else res) 10007

/-- gmsobj.hpp:723-725: six characters in unsigned 32-bit arithmetic, the first is the start value -/
def six (s : Str) : Nat := s.foldl (fun t c => (31 * t + charVal (upC c)) % 4294967296) 0

/-- gmsobj.hpp:716-731 hashValue. The value r is an int64; it stays below hashCount, so nothing overflows. -/
def hashValue (hashCount : Nat) : Nat → Str → Nat
  | r, c1 :: c2 :: c3 :: c4 :: c5 :: c6 :: s => hashValue hashCount ((887503681 * r + six [c1, c2, c3, c4, c5, c6]) % hashCount) s
  | r, s => s.foldl (fun r c => (31 * r + charVal (upC c)) % hashCount) r

/-- `tab` is null before the first string: number of chains, trigger, chains of the indices -/
structure NTable where
  hashCount : Nat
  trigger : Int
  chain : Nat → List Nat

structure NList where
  ents : List Str
  tab : Option NTable

def NList.empty : NList := ⟨[], none⟩

def NTable.push (t : NTable) (h n : Nat) : NTable := { t with chain := fun i => if i = h then n :: t.chain i else t.chain i }

/-- gmsobj.hpp:691-714 SetHashSize( FCount ): null in `tab` goes with trigger = -1 and hashCount = 0. With hashCount = 0 the computation
    of a hash value would divide by zero; malloc of the new table (the old one is leaked). -/
def setHashSize (l : NList) : Res NList :=
  let count := (l.tab.map NTable.hashCount).getD 0
  let trigger := (l.tab.map NTable.trigger).getD (-1)
  let newSiz := if (l.ents.length : Int) ≥ trigger then scHashSize l.ents.length else 0
  if newSiz = count then .ok l
  else if (newSiz * 13 : Int) > 2147483647 then .ub
  else if newSiz = 0 ∧ l.ents ≠ [] then .ub
  else .ok { l with tab := some ((l.ents.zipIdx).foldl (fun t e => t.push (hashValue t.hashCount 0 e.1) e.2) ⟨newSiz, newSiz * 13, fun _ => []⟩) }

/-- gmsobj.hpp:751: along the chain; compareEntry compares exactly -/
def walk (ents : List Str) (s : Str) : List Nat → Res (Option Nat)
  | [] => .ok none
  | n :: ns =>
    match ents[n]? with
    | none => .ub
    | some e => if s = e then .ok (some n) else walk ents s ns

/-- gmsobj.hpp:747 -/
def NList.ready (l : NList) : Res NList :=
  match l.tab with
  | none => setHashSize l
  | some t => if (l.ents.length : Int) > t.trigger then setHashSize l else .ok l

/-- gmsobj.hpp:745-762 AddObject: the new list and the index -/
def NList.add (l : NList) (s : Str) : Res (NList × Nat) := do
  let l ← l.ready
  match l.tab with
  | none => .ub
  | some t =>
    if t.hashCount = 0 then .ub
    else do
      let h := hashValue t.hashCount 0 s
      match ← walk l.ents s (t.chain h) with
      | some n => pure (l, n)
      | none =>
        if l.ents.length ≥ 2147483647 then .ub
        else pure (⟨l.ents ++ [s], some (t.push h l.ents.length)⟩, l.ents.length)

/-- gmsobj.hpp:739-743 Clear -/
def NList.clear (_ : NList) : NList := .empty

/-- histories -/
inductive NOp where
  | add (s : Str)
  | clear

def NList.step (l : NList) : NOp → Res (NList × Option Nat)
  | .add s => do let (l, n) ← l.add s; pure (l, some n)
  | .clear => .ok (l.clear, none)

def NList.run (l : NList) : List NOp → Res (NList × List (Option Nat))
  | [] => .ok (l, [])
  | o :: os => do
    let (l, r) ← l.step o
    let (l, rs) ← l.run os
    pure (l, r :: rs)

/-! ### TQuickSortClass -/

/-- the element with this index -/
def nth {α : Type} (a : List α) (k : Int) : Option α := if 0 ≤ k then a[k.toNat]? else none

def at0 {α : Type} (a : List α) (k : Int) : Res α :=
  match nth a k with
  | some x => .ok x
  | none => .ub

/-- gmsobj.hpp:585-595 Exchange -/
def exch {α : Type} (a : List α) (i j : Int) : Res (List α) := do
  let x ← at0 a i
  let y ← at0 a j
  pure ((a.set i.toNat y).set j.toNat x)

/-- gmsobj.cpp:45 `while( Compare( i, p ) < 0 ) i++` -/
def scanUp {α : Type} (cmp : α → α → Int) (a : List α) (p : Int) : Nat → Int → Res Int
  | 0, _ => .ub
  | n + 1, i => do
    let x ← at0 a i
    let y ← at0 a p
    if cmp x y < 0 then scanUp cmp a p n (i + 1) else pure i

/-- gmsobj.cpp:46 `while( Compare( j, p ) > 0 ) j--` -/
def scanDown {α : Type} (cmp : α → α → Int) (a : List α) (p : Int) : Nat → Int → Res Int
  | 0, _ => .ub
  | n + 1, j => do
    let x ← at0 a j
    let y ← at0 a p
    if cmp x y > 0 then scanDown cmp a p n (j - 1) else pure j

/-- gmsobj.cpp:47-60: one exchange; list, i, j, p -/
def swapStep {α : Type} (a : List α) (i j p : Int) : Res (List α × Int × Int × Int) :=
  if i < j then do
    let a ← exch a i j
    pure (a, i + 1, j - 1, if p = i then j else if p = j then i else p)
  else if i = j then .ok (a, i + 1, j - 1, p)
  else .ok (a, i, j, p)

/-- gmsobj.cpp:44-61 the do loop -/
def part {α : Type} (cmp : α → α → Int) : Nat → List α → Int → Int → Int → Res (List α × Int × Int)
  | 0, _, _, _, _ => .ub
  | n + 1, a, i, j, p => do
    let i ← scanUp cmp a p (a.length + 1) i
    let j ← scanDown cmp a p (a.length + 1) j
    let (a, i, j, p) ← swapStep a i j p
    if i ≤ j then part cmp n a i j p else pure (a, i, j)

/-- gmsobj.cpp:38-76 QuickSort (i = L at the head of the outer loop; a turn of the loop is a call here) -/
def quick {α : Type} (cmp : α → α → Int) : Nat → List α → Int → Int → Res (List α)
  | 0, _, _, _ => .ub
  | n + 1, a, L, R =>
    if L < R then
      if L + R > 2147483647 then .ub
      else do
        let (a, i, j) ← part cmp (a.length + 1) a L R ((L + R) / 2)
        if j - L > R - i then do
          let a ← (if i < R then quick cmp n a i R else pure a)
          quick cmp n a L j
        else do
          let a ← (if L < j then quick cmp n a L j else pure a)
          quick cmp n a i R
    else .ok a

/-- gmsobj.cpp:32-36 SortN -/
def sortN {α : Type} (cmp : α → α → Int) (a : List α) : Res (List α) :=
  if a.length > 1 then quick cmp (a.length + 1) a 0 ((a.length : Int) - 1) else .ok a

/-! ### TXSortedStringList -/

/-- a `char` is signed -/
def sgn (c : UInt8) : Int := if c.toNat < 128 then c.toNat else (c.toNat : Int) - 256

/-- strutilx.cpp:1025-1035 StrUCmp -/
def strUCmp : Str → Str → Int
  | [], t => -(t.length : Int)
  | s, [] => s.length
  | c :: s, d :: t => if sgn (upC c) - sgn (upC d) ≠ 0 then sgn (upC c) - sgn (upC d) else strUCmp s t

/-- strutilx.cpp:1020-1023 PStrUCmp -/
def pStrUCmp (s t : Str) : Int :=
  if s ≠ [] ∧ t ≠ [] then strUCmp s t else (if s ≠ [] then 1 else 0) - (if t ≠ [] then 1 else 0)

/-- gmsobj.hpp:806-822 the loop of Find: found so far, L, H -/
def findLoop (a : List Str) (s : Str) : Nat → Bool → Int → Int → Res (Bool × Int)
  | 0, _, _, _ => .ub
  | n + 1, res, L, H =>
    if L ≤ H then
      if L + H > 2147483647 then .ub
      else do
        let I := (L + H) / 2
        let x ← at0 a I
        let c := pStrUCmp s x
        if c > 0 then findLoop a s n res (I + 1) H
        else if c = 0 then findLoop a s n true I (I - 1)
        else findLoop a s n res L (I - 1)
    else .ok (res, L)

/-- TXSortedStringList: FList, FUpdateCount, FSorted -/
structure SList where
  ents : List Str
  upd : Int
  sorted : Bool

def SList.empty : SList := ⟨[], 0, true⟩

/-- gmsobj.hpp:804-825 Find -/
def SList.find (l : SList) (s : Str) : Res (Bool × Int) := findLoop l.ents s (l.ents.length + 1) false 0 ((l.ents.length : Int) - 1)

/-- gmsobj.hpp:508-518 InsertItem -/
def insertItem (a : List Str) (k : Int) (s : Str) : Res (List Str) :=
  if a.length ≥ 2147483647 then .ub
  else if 0 ≤ k ∧ k ≤ a.length then .ok (a.take k.toNat ++ s :: a.drop k.toNat)
  else .ub

/-- gmsobj.hpp:832-844 AddObject -/
def SList.add (l : SList) (s : Str) : Res (SList × Int) :=
  if l.upd ≠ 0 ∨ l.ents = [] then do
    let a ← insertItem l.ents l.ents.length s
    pure ({ l with ents := a, sorted := false }, l.ents.length)
  else do
    let (_, k) ← l.find s
    let a ← insertItem l.ents k s
    pure ({ l with ents := a }, k)

/-- gmsobj.hpp:525-532 Delete -/
def SList.delete (l : SList) (k : Int) : Res SList :=
  if 0 ≤ k ∧ k < l.ents.length then .ok { l with ents := l.ents.eraseIdx k.toNat } else .ub

/-- gmsobj.hpp:846-850 IndexOf: a list that is not marked as sorted calls the function itself again, for ever -/
def SList.indexOf (l : SList) (s : Str) : Res Int :=
  if ¬ l.sorted then .ub
  else do
    let (b, k) ← l.find s
    pure (if b then k else -1)

/-- gmsobj.hpp:866-874 SetSorted -/
def SList.setSorted (l : SList) (v : Bool) : Res SList :=
  if l.sorted ≠ v then do
    let a ← (if v then sortN pStrUCmp l.ents else pure l.ents)
    pure { l with ents := a, sorted := v }
  else .ok l

/-- gmsobj.hpp:852-855 BeginUpdate -/
def SList.beginUpdate (l : SList) : Res SList := if l.upd ≥ 2147483647 then .ub else .ok { l with upd := l.upd + 1 }

/-- gmsobj.hpp:857-862 EndUpdate -/
def SList.endUpdate (l : SList) : Res SList :=
  if l.upd ≤ -2147483648 then .ub
  else
    let l := { l with upd := l.upd - 1 }
    if l.upd = 0 then l.setSorted true else .ok l

/-- histories -/
inductive SOp where
  | add (s : Str)
  | delete (k : Int)
  | beginUpdate
  | endUpdate
  | setSorted (v : Bool)

def SList.step (l : SList) : SOp → Res SList
  | .add s => do pure (← l.add s).1
  | .delete k => l.delete k
  | .beginUpdate => l.beginUpdate
  | .endUpdate => l.endUpdate
  | .setSorted v => l.setSorted v

def SList.run (l : SList) : List SOp → Res SList
  | [] => .ok l
  | o :: os => do
    let l ← l.step o
    l.run os

end Gdx.StrList
