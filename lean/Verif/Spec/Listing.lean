import Verif.Model.Prim

/-! Lists for people: lines, words between blanks, the order of names. -/

namespace Gdx.Listing

/-- the text consists of these lines -/
def IsLines (t : Str) (ls : List Str) : Prop := t = (ls.map (· ++ [10])).flatten ∧ ∀ l ∈ ls, (10 : UInt8) ∉ l

/-- the first `n` words of a line, and what follows the last of them -/
def words : Nat → Str → Option (List Str × Str)
  | 0, s => some ([], s)
  | n + 1, s =>
    if (s.dropWhile (· == 32)) = [] then none
    else do
      let (ws, r) ← words n ((s.dropWhile (· == 32)).dropWhile (· != 32))
      some ((s.dropWhile (· == 32)).takeWhile (· != 32) :: ws, r)

/-- the order of names by their bytes -/
inductive Before : Str → Str → Prop
  | nil {c : UInt8} {s : Str} : Before [] (c :: s)
  | less {a b : UInt8} {s t : Str} (h : a < b) : Before (a :: s) (b :: t)
  | same {a : UInt8} {s t : Str} (h : Before s t) : Before (a :: s) (a :: t)

/-- names with a comma and a blank in between -/
def commas : List Str → Str
  | [] => []
  | s :: l => s ++ (l.map ([44, 32] ++ ·)).flatten

example : words 2 [32, 32, 97, 98, 32, 99, 32, 32, 100] = some ([[97, 98], [99]], [32, 32, 100]) := rfl
example : words 2 [97, 98, 32] = none := rfl
example : commas [[97], [98], [99]] = [97, 44, 32, 98, 44, 32, 99] := rfl

end Gdx.Listing
