import Mathlib.Data.Nat.Digits.Defs

/-! What an integer looks like, from the comment before P3_Val_i (p3io.cpp:268-271): `[+|-][0x|$]d+`, blanks before it, hexadecimal digits after 0x and $. -/

namespace Gdx.ValInt

abbrev Text := List UInt8

/-- the digit `c` has the value `n` -/
inductive Digit : UInt8 → Nat → Prop
  | dec (n : Nat) : n < 10 → Digit (UInt8.ofNat (48 + n)) n
  | upper (n : Nat) : n < 6 → Digit (UInt8.ofNat (65 + n)) (10 + n)
  | lower (n : Nat) : n < 6 → Digit (UInt8.ofNat (97 + n)) (10 + n)

/-- a number with base `b`, most significant digit first -/
def Numeral (b : Nat) (s : Text) (n : Nat) : Prop :=
  s ≠ [] ∧ ∃ ds, List.Forall₂ Digit s ds ∧ (∀ d ∈ ds, d < b) ∧ n = Nat.ofDigits b ds.reverse

/-- what is behind the sign -/
inductive Body : Text → Nat → Prop
  | dec {s n} : Numeral 10 s n → Body s n
  | hex {s n} (x : UInt8) : x = 120 ∨ x = 88 → Numeral 16 s n → Body (48 :: x :: s) n
  | dollar {s n} : Numeral 16 s n → Body (36 :: s) n

inductive Signed : Text → Int → Prop
  | none {s n} : Body s n → Signed s n
  | plus {s n} : Body s n → Signed (43 :: s) n
  | minus {s n} : Body s n → Signed (45 :: s) (-n)

/-- the text of the integer `v` -/
def IntText (s : Text) (v : Int) : Prop := ∃ k t, s = List.replicate k 32 ++ t ∧ Signed t v

end Gdx.ValInt
