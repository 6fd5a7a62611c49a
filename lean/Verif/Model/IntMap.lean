import Verif.Model.Prim

/-!
`/repo/src/gxfile.cpp` 4043-4116 class TIntegerMapping: a growing array of int, default -1.
Memory exhaustion is not modelled.
-/

namespace Gdx

/-- `map` is the memory block PMap[0..FCapacity-1] (gxfile.hpp:216-235). -/
structure IntMap where
  map : List Int
  highest : Int
  deriving DecidableEq, Repr

def IntMap.empty : IntMap := { map := [], highest := 0 }

/-- FMAXCAPACITY = INT_MAX + 1 -/
def maxCapacity : Nat := 2147483648

/-- gxfile.cpp:4047-4056, body of the growth loop -/
def growStep (cap : Nat) : Nat :=
  let delta := if cap ≥ 1024 * 1024 then cap / 2 else if cap = 0 then 1024 else cap
  if cap + delta > maxCapacity then maxCapacity else cap + delta

/-- gxfile.cpp:4047-4056, the growth loop, for an index that is an int -/
def growCap (f : Nat) (hf : f < maxCapacity) (cap : Nat) : Nat :=
  if h : f ≥ cap then growCap f hf (growStep cap) else cap
termination_by f + 1 - cap
decreasing_by
  simp only [maxCapacity, growStep] at *
  split <;> split <;> (try split) <;> omega

/-- gxfile.cpp:4043-4069 growMapping: new entries are -1 (memset with -1) -/
def IntMap.grow (m : IntMap) (f : Nat) (hf : f < maxCapacity) : IntMap :=
  { m with map := m.map ++ List.replicate (growCap f hf m.map.length - m.map.length) (-1) }

/-- gxfile.cpp:4086-4089 GetMapping -/
def IntMap.get (m : IntMap) (f : Int) : Int :=
  if 0 ≤ f ∧ f < m.map.length then
    match m.map[f.toNat]? with
    | some x => x
    | none => -1
  else -1

/-- gxfile.cpp:4091-4096 SetMapping. A negative index writes in front of the block. -/
def IntMap.set (m : IntMap) (f t : Int) : Res IntMap :=
  if h : 0 ≤ f ∧ f < maxCapacity then
    let m := if f ≥ m.map.length then m.grow f.toNat (by omega) else m
    .ok { map := m.map.set f.toNat t, highest := if f > m.highest then f else m.highest }
  else .ub

/-- a sequence of SetMapping calls -/
def IntMap.setAll : IntMap → List (Int × Int) → Res IntMap
  | m, [] => .ok m
  | m, (f, t) :: r => do
    let m ← m.set f t
    m.setAll r

end Gdx
