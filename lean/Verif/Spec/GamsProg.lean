import Verif.Spec.Gams

/-!
A reader for GAMS programs, as far as gdxdump writes them: declarations with data, aliases, acronyms, `$onEmpty` and `$offEmpty`. It does not know how gdxdump writes.
-/

namespace Gdx.Gams

/-- A statement -/
inductive Stmt
  | decl (d : Decl)
  | alias (a b : Str)
  | acronym (a : Str)
  deriving DecidableEq, Repr

/-- `Alias`, `Acronym`, `$onEmpty`, `$offEmpty` -/
def wAlias : Str := [65, 108, 105, 97, 115]
def wAcronym : Str := [65, 99, 114, 111, 110, 121, 109]
def wOnEmpty : Str := [36, 111, 110, 69, 109, 112, 116, 121]
def wOffEmpty : Str := [36, 111, 102, 102, 69, 109, 112, 116, 121]

/-- the rest of an alias: `(a, b);`; one of them may be the universe -/
def aliasOf (s : Str) : Option ((Str × Str) × Str) :=
  match skip s with
  | 40 :: r => do
    let (a, r) ← domain (skip r)
    match skip r with
    | 44 :: r => do
      let (b, r) ← domain (skip r)
      match skip r with
      | 41 :: r =>
        match skip r with
        | 59 :: r => some ((a, b), r)
        | _ => none
      | _ => none
    | _ => none
  | _ => none

/-- the rest of an acronym: its name and perhaps a text -/
def acronymOf (s : Str) : Option (Str × Str) := do
  let (a, r) ← name (skip s)
  let (_, r) ← optText (skip r)
  match skip r with
  | 59 :: r => some (a, r)
  | _ => none

/-- blanks and newlines are passed over: is what follows at the start of a line? -/
def skipL : Bool → Str → Bool × Str
  | b, [] => (b, [])
  | b, c :: s => if isBlank c then skipL (c == 10) s else (b, c :: s)

/-- the statements up to the end, of which there are less than `f`. `start`: at the start of a line; `empty`: declarations may have no data. A line that starts with
    a dollar must be one of the two. -/
def stmts : Nat → Bool → Bool → Str → Option (List Stmt)
  | 0, _, _, _ => none
  | f + 1, start, empty, s =>
    match skipL start s with
    | (_, []) => some []
    | (start, c :: s) =>
      if c = 36 then
        if start = true ∧ (c :: s).takeWhile (· != 10) = wOnEmpty then stmts f false true ((c :: s).dropWhile (· != 10))
        else if start = true ∧ (c :: s).takeWhile (· != 10) = wOffEmpty then stmts f false false ((c :: s).dropWhile (· != 10))
        else none
      else do
        let (w, r) ← name (c :: s)
        if w = wAlias then do
          let ((a, b), r) ← aliasOf r
          let l ← stmts f false empty r
          some (.alias a b :: l)
        else if w = wAcronym then do
          let (a, r) ← acronymOf r
          let l ← stmts f false empty r
          some (.acronym a :: l)
        else do
          let (d, r) ← decl (c :: s)
          if d.data = [] ∧ empty = false then none
          else do
            let l ← stmts f false empty r
            some (.decl d :: l)

/-- the statements of a program -/
def program (t : Str) : Option (List Stmt) := stmts (t.length + 1) true false (uncomment true false t)

end Gdx.Gams
