import Verif.Model.Prim

/-!
`/repo/src/gdlib/gmsobj.hpp` 41-256: TXList, a list of pointers (acronyms, filters, comments, file names).

`mem` is FList: the allocated places, `none` = never written. FreeItem does nothing in TXList (in TXStrings it frees the string).
Memory is always available.
-/

namespace Gdx

structure XList (α : Type) where
  mem : List (Option α)
  count : Int
  oneBased : Bool

namespace XList

variable {α : Type}

def empty (oneBased : Bool) : XList α := ⟨[], 0, oneBased⟩

/-- `OneBased ? 1 : 0` -/
def base (x : XList α) : Int := if x.oneBased then 1 else 0

/-- reading FList[k] -/
def load (x : XList α) (k : Int) : Res α :=
  if 0 ≤ k then
    match x.mem[k.toNat]? with
    | some (some a) => .ok a
    | _ => .ub
  else .ub

/-- writing FList[k] -/
def store (x : XList α) (k : Int) (a : α) : Res (XList α) :=
  if 0 ≤ k ∧ k < x.mem.length then .ok { x with mem := x.mem.set k.toNat (some a) } else .ub

/-- memmove( &FList[dst], &FList[src], n * sizeof( T * ) ) -/
def move (x : XList α) (dst src n : Int) : Res (XList α) :=
  if 0 ≤ dst ∧ 0 ≤ src ∧ 0 ≤ n ∧ dst + n ≤ x.mem.length ∧ src + n ≤ x.mem.length then
    .ok { x with mem := x.mem.take dst.toNat ++ ((x.mem.drop src.toNat).take n.toNat ++ x.mem.drop (dst + n).toNat) }
  else .ub

/-- gmsobj.hpp:192-216 SetCapacity: the places in front are kept -/
def setCapacity (x : XList α) (n : Int) : XList α :=
  let n := if n < x.count then x.count else n
  { x with mem := x.mem.take n.toNat ++ List.replicate (n.toNat - x.mem.length) none }

/-- gmsobj.hpp:74-87 Grow -/
def grow (x : XList α) : Res (XList α) :=
  let cap : Int := x.mem.length
  let delta := if cap ≥ 1048576 then cap / 4 else if cap = 0 then 16 else 7 * cap
  if cap + delta ≤ 2147483647 then .ok (x.setCapacity (cap + delta))
  else if cap < 2147483647 then .ok (x.setCapacity 2147483647)
  else .ub

/-- gmsobj.hpp:110-120 Add -/
def add (x : XList α) (a : α) : Res (XList α × Int) := do
  let res := x.count
  let x ← (if res = x.mem.length then x.grow else .ok x)
  let x ← x.store res a
  pure ({ x with count := x.count + 1 }, res + x.base)

/-- gmsobj.hpp:122-127 Clear -/
def clear (x : XList α) : XList α := ({ x with count := 0 } : XList α).setCapacity 0

/-- gmsobj.hpp:129-139 Delete -/
def delete (x : XList α) (k : Int) : Res (XList α) :=
  let x := { x with count := x.count - 1 }
  if k < x.count then
    let k := k - x.base
    x.move k (k + 1) (x.count - k)
  else .ok x

/-- gmsobj.hpp:157-163 IndexOf: the first place from `n` on -/
def indexFrom [DecidableEq α] (x : XList α) (a : α) : Nat → Int → Res Int
  | 0, _ => .ub
  | f + 1, n =>
    if n < x.count then do
      let b ← x.load n
      if b = a then pure (n + x.base) else x.indexFrom a f (n + 1)
    else .ok (-1)

def indexOf [DecidableEq α] (x : XList α) (a : α) : Res Int := x.indexFrom a (x.count.toNat + 1) 0

/-- gmsobj.hpp:141-155 Extract -/
def extract [DecidableEq α] (x : XList α) (a : α) : Res (XList α × Option α) := do
  let i ← x.indexOf a
  let i := i - x.base
  if i ≥ 0 then
    let x := { x with count := x.count - 1 }
    let x ← (if i < x.count then x.move i (i + 1) (x.count - i) else .ok x)
    pure (x, some a)
  else pure (x, none)

/-- gmsobj.hpp:165-177 Insert -/
def insert (x : XList α) (k : Int) (a : α) : Res (XList α) := do
  let x ← (if x.count = x.mem.length then x.grow else .ok x)
  let k := k - x.base
  let x ← (if k < x.count then x.move (k + 1) k (x.count - k) else .ok x)
  let x ← x.store k a
  pure { x with count := x.count + 1 }

/-- gmsobj.hpp:181-182: the last place up to `res` -/
def lastFrom [DecidableEq α] (x : XList α) (a : α) : Nat → Int → Res Int
  | 0, _ => .ub
  | f + 1, res =>
    if res ≥ 0 then do
      let b ← x.load res
      if b ≠ a then x.lastFrom a f (res - 1) else pure res
    else .ok res

/-- gmsobj.hpp:179-185 Remove -/
def remove [DecidableEq α] (x : XList α) (a : α) : Res (XList α × Int) := do
  let res ← x.lastFrom a (x.count.toNat + 1) (x.count - 1)
  let x ← (if res ≥ x.base then x.delete res else .ok x)
  pure (x, res)

/-- gmsobj.hpp:47-50, 238-241 operator[] -/
def get (x : XList α) (k : Int) : Res α := x.load (k - x.base)

/-- gmsobj.hpp:243-246 GetLast -/
def getLast (x : XList α) : Res (Option α) := if x.count ≤ 0 then .ok none else do pure (some (← x.load (x.count - 1)))

end XList

end Gdx
