import Verif.Model.Prim

/-!
`/repo/src/gdlib/gmsobj.hpp` 318-404 class TBooleanBitArray: bits in a growing byte array.
-/

namespace Gdx

/-- `data` = the allocated bytes PData[0..FAllocated-1] -/
structure BitArr where
  data : List UInt8
  high : Int
  deriving DecidableEq, Repr

/-- gmsobj.hpp:330-332 -/
def BitArr.empty : BitArr := { data := [], high := -1 }

/-- gmsobj.hpp:323-327 GetBitMask: byte number and mask (for V ≥ 0) -/
def bitMask (v : Nat) : Nat × UInt8 := (v / 8, (1 : UInt8) <<< UInt8.ofNat (v % 8))

/-- gmsobj.hpp:340-347 GetBit -/
def BitArr.get (a : BitArr) (n : Int) : Bool :=
  if n < 0 ∨ n > a.high then false
  else match a.data[(bitMask n.toNat).1]? with
    | some b => (b &&& (bitMask n.toNat).2) != 0
    | none => false

/-- gmsobj.hpp:356-361: increment of Delta in the allocation loop -/
def bitDelta (alloc : Nat) : Nat :=
  if alloc = 0 then 256 else if alloc < 32 * 256 then alloc else alloc / 4

theorem bitDelta_pos (alloc : Nat) : 0 < bitDelta alloc := by
  unfold bitDelta
  split <;> (try split) <;> omega

/-- gmsobj.hpp:355-362: the rest of the loop `do … while (NewMemSize >= FAllocated + Delta)`, result Delta -/
def bitGrow (alloc need delta : Nat) : Nat :=
  if need ≥ alloc + delta then bitGrow alloc need (delta + bitDelta alloc) else delta
termination_by need + 1 - (alloc + delta)
decreasing_by
  have := bitDelta_pos alloc
  omega

/-- gmsobj.hpp:349-375 SetHighIndex; `V + 8` outside of the int range is undefined -/
def BitArr.setHighIndex (a : BitArr) (v : Nat) : Res BitArr :=
  if (v : Int) > a.high then
    if v + 8 > 2147483647 then .ub
    else if (v + 8) / 8 > a.data.length then
      .ok { data := a.data ++ List.replicate (bitGrow a.data.length ((v + 8) / 8) (bitDelta a.data.length)) 0,
            high := v }
    else .ok { a with high := v }
  else .ok a

/-- gmsobj.hpp:383-399 SetBit. Clearing is `PData[P] &= !M` with the logical not (0 for a non-zero mask, else 1). -/
def BitArr.set (a : BitArr) (n : Int) (v : Bool) : Res BitArr :=
  if n < 0 then .ok a
  else if n > a.high ∧ v = false then .ok a
  else do
    let a ← a.setHighIndex n.toNat
    let (p, m) := bitMask n.toNat
    match a.data[p]? with
    | none => .ub
    | some b => .ok { a with data := a.data.set p (if v then b ||| m else b &&& (if m = 0 then 1 else 0)) }

/-- a sequence of SetBit calls -/
def BitArr.setAll : BitArr → List (Int × Bool) → Res BitArr
  | a, [] => .ok a
  | a, (n, v) :: r => do
    let a ← a.set n v
    a.setAll r

end Gdx
