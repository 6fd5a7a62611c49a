import Verif.Spec.ValInt

/-! Numbers as texts: decimal numbers without needless zeros, groups of three digits, names of columns in a spreadsheet. -/

namespace Gdx.IntText
open Gdx.ValInt

/-- the decimal digits of `n`, no zero in front of another digit -/
def Decimal (s : Text) (n : Nat) : Prop := Numeral 10 s n ∧ (s.head? = some 48 → s = [48])

/-- the integer with a sign if it is negative -/
def IsIntStr (s : Text) (n : Int) : Prop := (0 ≤ n ∧ Decimal s n.toNat) ∨ (n < 0 ∧ ∃ t, s = 45 :: t ∧ Decimal t (-n).toNat)

/-- a comma after every third character, if something follows -/
def group3 : Text → Text
  | a :: b :: c :: d :: r => a :: b :: c :: 44 :: group3 (d :: r)
  | r => r

/-- commas from the right -/
def thousands (s : Text) : Text := (group3 s.reverse).reverse

/-- the letter number `l`, counted from 0 -/
def Letter (c : UInt8) (l : Nat) : Prop := l < 26 ∧ (c = UInt8.ofNat (65 + l) ∨ c = UInt8.ofNat (97 + l))

/-- the number of the column with these letters: A = 1, .., Z = 26, AA = 27, AB = 28, .. -/
def colNumber (ls : List Nat) : Nat := ls.foldl (fun v l : Nat => 26 * v + (l + 1)) 0

end Gdx.IntText
