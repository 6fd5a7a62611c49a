import Verif.Model.Names
import Verif.Model.IntMap

/-!
The element (UEL) table with its user mapping: `/repo/src/gxfile.cpp` 3739-3895, class TUELTable, on top of the list view
of TXStrHashList (`Model/Names`) and of TIntegerMapping (`Model/IntMap`).
-/

namespace Gdx

/-- gxfile.hpp:237-244 TUELUserMapStatus without map_unknown -/
inductive MapStat where
  | unsorted | sorted | sortgrow | sortfull
  deriving DecidableEq, Repr

/-- `ents`: strings with their user map (the object of the hash list); `usr`: UsrUel2Ent; `stat`: FMapToUserStatus with
    `none` = map_unknown. Element numbers are 1-based. -/
structure Uel where
  ents : List (Str × Int)
  usr : IntMap
  stat : Option MapStat
  deriving DecidableEq, Repr

namespace Uel

/-- gxfile.cpp:3814-3818 constructor -/
def empty : Uel := { ents := [], usr := IntMap.empty, stat := none }

def strs (u : Uel) : List Str := u.ents.map Prod.fst

/-- gxfile.cpp:3739-3742 size -/
def size (u : Uel) : Int := u.ents.length

/-- gxfile.cpp:3820-3823 IndexOf: 1-based number or -1 -/
def indexOf (u : Uel) (s : Str) : Int := indexOf1 false s u.strs

/-- gxfile.cpp:3835-3838 operator[] -/
def str (u : Uel) (n : Int) : Res Str := do
  let e ← at1 u.ents n
  pure e.1

/-- gxfile.cpp:3750-3753 GetUserMap -/
def userMap (u : Uel) (n : Int) : Res Int := do
  let e ← at1 u.ents n
  pure e.2

/-- `*GetObject( EN ) = v`, gxfile.cpp:3755-3758 SetUserMap; EN is a number obtained from the table -/
def setMap (u : Uel) (en : Nat) (v : Int) : Uel :=
  { u with ents := u.ents.modify (en - 1) fun e => (e.1, v) }

/-- gxfile.cpp:3825-3828 AddObject with object -1: the number of the entry -/
def addObject (u : Uel) (s : Str) : Uel × Nat :=
  match lookup false s u.strs with
  | some n => (u, n + 1)
  | none => ({ u with ents := u.ents ++ [(s, -1)] }, u.ents.length + 1)

/-- gxfile.cpp:3830-3833 StoreObject with object -1 (no check for duplicates) -/
def storeObject (u : Uel) (s : Str) : Uel := { u with ents := u.ents ++ [(s, -1)] }

/-- gxfile.cpp:3762-3768 = 3777-3783: give entry EN the next user number -/
def newUsr (u : Uel) (en : Nat) : Res (Uel × Int) := do
  let r := u.usr.highest + 1
  let m ← u.usr.set r en
  pure ({ u.setMap en r with usr := m, stat := none }, r)

/-- gxfile.cpp:3760-3771 NewUsrUel -/
def newUsrUel (u : Uel) (en : Int) : Res (Uel × Int) := do
  let v ← u.userMap en
  if v < 0 then u.newUsr en.toNat
  else pure ({ u with stat := none }, v)

/-- gxfile.cpp:3773-3785 AddUsrNew -/
def addUsrNew (u : Uel) (s : Str) : Res (Uel × Int) := do
  let (u, en) := u.addObject s
  u.newUsrUel en

/-- gxfile.cpp:3787-3803 AddUsrIndxNew -/
def addUsrIndxNew (u : Uel) (s : Str) (uelNr : Int) : Res (Uel × Int) := do
  let (u, en) := u.addObject s
  let v ← u.userMap en
  if v < 0 then do
    let m ← u.usr.set uelNr en
    pure ({ u.setMap en uelNr with usr := m, stat := none }, uelNr)
  else if v ≠ uelNr then pure ({ u with stat := none }, -1)
  else pure ({ u with stat := none }, v)

/-- gxfile.cpp:3805-3812 GetMaxUELLength -/
def maxLen (u : Uel) : Int := u.strs.foldl (fun m s => max (s.length : Int) m) 0

/-- gxfile.cpp:3840-3843 RenameEntry for a number of the table -/
def rename (u : Uel) (n : Nat) (s : Str) : Uel :=
  { u with ents := u.ents.modify (n - 1) fun e => (s, e.2) }

/-- gxfile.cpp:3864-3887: the loop of GetMapToUserStatus over the user maps; `c` = no unmapped entry seen, `st` = the status
    so far -/
def statLoop : List Int → Int → Bool → MapStat → MapStat × Bool
  | [], _, c, st => (st, c)
  | v :: vs, lv, c, st =>
    if v < 0 then statLoop vs lv false st
    else if v > lv then statLoop vs v c (if c then st else .sorted)
    else (.unsorted, c)

/-- gxfile.cpp:3864-3887 GetMapToUserStatus: the status computed from scratch -/
def calcStat (u : Uel) : MapStat :=
  match statLoop (u.ents.map Prod.snd) (-1) true .sortgrow with
  | (.sortgrow, true) => .sortfull
  | (st, _) => st

/-- gxfile.cpp:3860-3890 GetMapToUserStatus: the cached status if there is one -/
def mapStat (u : Uel) : Uel × MapStat :=
  match u.stat with
  | some st => (u, st)
  | none => ({ u with stat := some u.calcStat }, u.calcStat)

end Uel
end Gdx
