import Verif.Spec.GamsProg

/-!
A reader for GAMS programs that consist of assignments to fields of variables and equations, `x.L ('a','b') = 1.5 ;`. It does not know how gdxdump writes. The labels are quoted or words, separated by commas or dots.
-/

namespace Gdx.Gams

/-- An assignment: name of the symbol, field, labels, value -/
structure Assign where
  name : Str
  field : Str
  labels : List Str
  value : Str
  deriving DecidableEq, Repr

/-- labels up to the closing parenthesis -/
def indices : Nat → Str → Option (List Str × Str)
  | 0, _ => none
  | f + 1, s => do
    let (w, r) ← label (skip s)
    match skip r with
    | 44 :: r => do
      let (ws, r) ← indices f r
      some (w :: ws, r)
    | 46 :: r => do
      let (ws, r) ← indices f r
      some (w :: ws, r)
    | 41 :: r => some ([w], r)
    | _ => none

/-- the labels in parentheses, if there are any -/
def optIndices (s : Str) : Option (List Str × Str) :=
  match s with
  | 40 :: r => indices (r.length + 1) r
  | _ => some ([], s)

/-- an assignment, up to the semicolon -/
def assign (s : Str) : Option (Assign × Str) := do
  let (n, r) ← name s
  match r with
  | 46 :: r => do
    let (f, r) ← name r
    let (ls, r) ← optIndices (skip r)
    match skip r with
    | 61 :: r => do
      let (v, r) ← token endsVal (skip r)
      match skip r with
      | 59 :: r => some (⟨n, f, ls, v⟩, r)
      | _ => none
    | _ => none
  | _ => none

/-- `$offListing`, `$onListing` -/
def wOffListing : Str := [36, 111, 102, 102, 76, 105, 115, 116, 105, 110, 103]
def wOnListing : Str := [36, 111, 110, 76, 105, 115, 116, 105, 110, 103]

/-- the assignments up to the end, and whether the listing is on there. `start`: at the start of a line. A line that starts with a dollar must be one of four. An empty statement is nothing. -/
def assigns : Nat → Bool → Bool → Str → Option (List Assign × Bool)
  | 0, _, _, _ => none
  | f + 1, start, on, s =>
    match skipL start s with
    | (_, []) => some ([], on)
    | (start, c :: s) =>
      if c = 59 then assigns f false on s
      else if c = 36 then
        if start = false then none
        else if (c :: s).takeWhile (· != 10) = wOnEmpty ∨ (c :: s).takeWhile (· != 10) = wOffEmpty then assigns f false on ((c :: s).dropWhile (· != 10))
        else if (c :: s).takeWhile (· != 10) = wOffListing then assigns f false false ((c :: s).dropWhile (· != 10))
        else if (c :: s).takeWhile (· != 10) = wOnListing then assigns f false true ((c :: s).dropWhile (· != 10))
        else none
      else do
        let (a, r) ← assign (c :: s)
        let (l, on) ← assigns f false on r
        some (a :: l, on)

/-- the assignments of a program, and whether the listing is on at its end -/
def basis (t : Str) : Option (List Assign × Bool) := assigns (t.length + 1) true true (uncomment true false t)

end Gdx.Gams
