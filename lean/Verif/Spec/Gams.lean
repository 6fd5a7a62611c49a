import Verif.Model.Prim

/-!
A reader for the declarations of GAMS, as far as gdxdump writes them: declarations of sets, parameters, variables and equations with a list of data,
lists of data, and declarations of acronyms. It does not know how gdxdump writes.

Blanks and newlines separate words. A label is a quoted string (up to the next quote of the same kind) or a word. The labels of an element are joined by dots,
with or without blanks around them. After the labels there may be a value or a text: quoted, or a word (which may contain dots). Entries are separated by commas, the list is enclosed in
slashes.
-/

namespace Gdx.Gams

/-- blank or newline -/
def isBlank (c : UInt8) : Bool := c == 32 || c == 10

def skip (s : Str) : Str := s.dropWhile isBlank

/-- the rest of a quoted string: content, and what follows -/
def quoted (q : UInt8) (s : Str) : Option (Str × Str) :=
  match s.dropWhile (· != q) with
  | [] => none
  | _ :: r => some (s.takeWhile (· != q), r)

/-- blanks, `,` `/` `;` end a value -/
def endsVal (c : UInt8) : Bool := isBlank c || c == 44 || c == 47 || c == 59

/-- a label that is not quoted ends at a dot as well -/
def endsWord (c : UInt8) : Bool := endsVal c || c == 46

/-- a quoted string, or the characters up to one of those that end the word -/
def token (ends : UInt8 → Bool) (s : Str) : Option (Str × Str) :=
  match s with
  | [] => none
  | c :: r => if c = 39 ∨ c = 34 then quoted c r else some (s.takeWhile fun d => !ends d, s.dropWhile fun d => !ends d)

/-- a label; without quotes it is not empty -/
def label (s : Str) : Option (Str × Str) :=
  match s with
  | [] => none
  | c :: _ => if endsWord c = true then none else token endsWord s

/-- `n` labels joined by dots -/
def labels : Nat → Str → Option (List Str × Str)
  | 0, s => some ([], s)
  | 1, s => do
    let (w, r) ← label s
    some ([w], r)
  | n + 2, s => do
    let (w, r) ← label s
    match skip r with
    | 46 :: r => do
      let (ws, r) ← labels (n + 1) (skip r)
      some (w :: ws, r)
    | _ => none

/-- a dot that is not the start of a number -/
def moreLabel (s : Str) : Bool :=
  match s with
  | 46 :: c :: _ => !(48 ≤ c && c ≤ 57)
  | [46] => true
  | _ => false

/-- an entry with `n` labels: labels, value or text (empty if there is none); one more dot would mean one more label -/
def entry (n : Nat) (s : Str) : Option ((List Str × Str) × Str) := do
  let (ws, r) ← labels n s
  let r := skip r
  if n ≠ 0 ∧ moreLabel r = true then none
  else do
    let (b, r) ← token endsVal r
    some ((ws, b), skip r)

/-- entries up to the slash -/
def entries (n : Nat) : Nat → Str → Option (List (List Str × Str) × Str)
  | 0, _ => none
  | f + 1, s =>
    match entry n s with
    | some (e, 44 :: r) => do
      let (es, r) ← entries n f (skip r)
      some (e :: es, r)
    | some (e, 47 :: r) => some ([e], r)
    | _ => none

/-- the data between slashes, the first of which is already read -/
def dataList (n : Nat) (s : Str) : Option (List (List Str × Str) × Str) :=
  match skip s with
  | 47 :: r => some ([], r)
  | s => entries n (s.length + 1) s

/-! ### comments -/

/-- comment lines (with `*` at the start) are removed; `start`: at the start of a line -/
def uncomment : Bool → Bool → Str → Str
  | _, _, [] => []
  | start, inside, c :: s =>
    if inside || (start && c == 42) then uncomment (c == 10) (c != 10) s
    else c :: uncomment (c == 10) false s

/-! ### declarations -/

/-- letters, digits, underscore -/
def isName (c : UInt8) : Bool := (65 ≤ c && c ≤ 90) || (97 ≤ c && c ≤ 122) || (48 ≤ c && c ≤ 57) || c == 95

def name (s : Str) : Option (Str × Str) := if (s.takeWhile isName) = [] then none else some (s.takeWhile isName, s.dropWhile isName)

/-- a name or a star -/
def domain (s : Str) : Option (Str × Str) :=
  match s with
  | 42 :: r => some ([42], r)
  | _ => name s

/-- domains up to the closing parenthesis -/
def domains : Nat → Str → Option (List Str × Str)
  | 0, _ => none
  | f + 1, s => do
    let (d, r) ← domain (skip s)
    match skip r with
    | 44 :: r => do
      let (ds, r) ← domains f r
      some (d :: ds, r)
    | 41 :: r => some ([d], r)
    | _ => none

/-- the text of a declaration: quoted, or everything up to `/` or `;` without the blanks at the end -/
def text (s : Str) : Option (Str × Str) :=
  match s with
  | [] => none
  | c :: r =>
    if c = 39 ∨ c = 34 then quoted c r
    else
      let t := s.takeWhile fun d => !(d == 47 || d == 59)
      some ((t.reverse.dropWhile isBlank).reverse, s.dropWhile fun d => !(d == 47 || d == 59))

/-- A declaration: the words before the name, the name, domains, text, data -/
structure Decl where
  kind : List Str
  name : Str
  doms : List Str
  text : Str
  data : List (List Str × Str)
  deriving DecidableEq, Repr

/-- `Set`, `Parameter`, `Scalar`, `Variable`, `Equation` -/
def kinds : List Str := [[83, 101, 116], [80, 97, 114, 97, 109, 101, 116, 101, 114], [83, 99, 97, 108, 97, 114], [86, 97, 114, 105, 97, 98, 108, 101],
  [69, 113, 117, 97, 116, 105, 111, 110]]

/-- the words up to one of the kinds -/
def kindWords : Nat → Str → Option (List Str × Str)
  | 0, _ => none
  | f + 1, s => do
    let (w, r) ← name (skip s)
    if w ∈ kinds then some ([w], r)
    else do
      let (ws, r) ← kindWords f r
      some (w :: ws, r)

/-- how many labels an entry has: one for each index, and the field for variables and equations -/
def labelCount (kind : List Str) (dim : Nat) : Nat :=
  if kind.getLast? = some [86, 97, 114, 105, 97, 98, 108, 101] ∨ kind.getLast? = some [69, 113, 117, 97, 116, 105, 111, 110] then dim + 1 else dim

/-- the domains in parentheses, if there are any -/
def optDomains (s : Str) : Option (List Str × Str) :=
  match s with
  | 40 :: r => domains (r.length + 1) r
  | _ => some ([], s)

/-- the text, if there is one -/
def optText (s : Str) : Option (Str × Str) :=
  match s with
  | 47 :: _ => some ([], s)
  | 59 :: _ => some ([], s)
  | _ => text s

/-- a declaration with data, up to the semicolon -/
def decl (s : Str) : Option (Decl × Str) := do
  let (ks, r) ← kindWords 2 s
  let (nm, r) ← name (skip r)
  let (ds, r) ← optDomains (skip r)
  let (tx, r) ← optText (skip r)
  match skip r with
  | 47 :: r => do
    let (es, r) ← dataList (labelCount ks ds.length) r
    match skip r with
    | 59 :: r => some (⟨ks, nm, ds, tx, es⟩, r)
    | _ => none
  | _ => none

end Gdx.Gams
