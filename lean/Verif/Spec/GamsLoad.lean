import Verif.Spec.GamsProg

/-!
A reader for GAMS programs that declare symbols without data and load the data from a GDX file, as far as gdxdump writes them: declarations, aliases, acronyms, `$gdxIn`, `$loadDC`, `$onEmpty` and
`$offEmpty`, comments at the ends of lines. It does not know how gdxdump writes.
-/

namespace Gdx.Gams

/-- a declaration without data, up to the semicolon -/
def bareDecl (s : Str) : Option (Decl × Str) := do
  let (ks, r) ← kindWords 2 s
  let (nm, r) ← name (skip r)
  let (ds, r) ← optDomains (skip r)
  let (tx, r) ← optText (skip r)
  match skip r with
  | 59 :: r => some (⟨ks, nm, ds, tx, []⟩, r)
  | _ => none

/-- A statement: a declaration (its data is empty), an alias, an acronym, the choice of the GDX file, the loading of a symbol -/
inductive LStmt
  | decl (d : Decl)
  | alias (a b : Str)
  | acronym (a : Str)
  | gdxIn (file : Str)
  | load (name : Str)
  deriving DecidableEq, Repr

/-- `$offEolCom`, `$eolCom !!`, `$gdxIn`, `$loadDC` -/
def wOffEolCom : Str := [36, 111, 102, 102, 69, 111, 108, 67, 111, 109]
def wEolCom : Str := [36, 101, 111, 108, 67, 111, 109, 32, 33, 33]
def wGdxIn : Str := [36, 103, 100, 120, 73, 110]
def wLoadDC : Str := [36, 108, 111, 97, 100, 68, 67]

/-- from `!!` to the end of the line everything is a comment (also within quotes); `inside`: within one -/
def noEol : Bool → Str → Str
  | _, [] => []
  | true, c :: s => if c = 10 then 10 :: noEol false s else noEol true s
  | false, c :: s => if c = 33 ∧ s.head? = some 33 then noEol true s else c :: noEol false s

/-- the one word after `k` on the line `l`; names with blanks are not read -/
def dollar (k l : Str) : Option Str :=
  if (k ++ [32]).isPrefixOf l = true then
    let r := (l.drop (k.length + 1)).dropWhile (· == 32)
    if r.takeWhile (· != 32) = [] ∨ (r.dropWhile (· != 32)).any (· != 32) = true then none else some (r.takeWhile (· != 32))
  else none

/-- the statements up to the end, of which there are less than `f`. `start`: at the start of a line; `eol`: after `$eolCom !!`. -/
def loads : Nat → Bool → Bool → Str → Option (List LStmt)
  | 0, _, _, _ => none
  | f + 1, start, eol, s =>
    match skipL start s with
    | (_, []) => some []
    | (start, c :: s) =>
      if c = 36 then
        let l := (c :: s).takeWhile (· != 10)
        let r := (c :: s).dropWhile (· != 10)
        if start = false then none
        else if l = wOnEmpty ∨ l = wOffEmpty then loads f false eol r
        else if l = wOffEolCom ∧ eol = false then loads f false eol r
        else if l = wEolCom ∧ eol = false then loads f false true (noEol false r)
        else match dollar wGdxIn l with
          | some w => (loads f false eol r).map (.gdxIn w :: ·)
          | none =>
            match dollar wLoadDC l with
            | some w => (loads f false eol r).map (.load w :: ·)
            | none => none
      else do
        let (w, r) ← name (c :: s)
        if w = wAlias then do
          let ((a, b), r) ← aliasOf r
          let l ← loads f false eol r
          some (.alias a b :: l)
        else if w = wAcronym then do
          let (a, r) ← acronymOf r
          let l ← loads f false eol r
          some (.acronym a :: l)
        else do
          let (d, r) ← bareDecl (c :: s)
          let l ← loads f false eol r
          some (.decl d :: l)

/-- the statements of a program -/
def loadProgram (t : Str) : Option (List LStmt) := loads (t.length + 1) true false (uncomment true false t)

end Gdx.Gams
