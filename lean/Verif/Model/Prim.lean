import Mathlib.Tactic.Ring
import Mathlib.Tactic.Linarith
import Mathlib.Tactic.NormNum

/-!
Bytes, strings, integers and the stream primitives (`/repo/src/gdlib/gmsstrm.cpp` class TXStream).

Conventions
* a C string is the list of its bytes without the terminating 0;
* a C++ `int` is an `Int`; the range is made explicit where the code relies on it;
* a double is its 64-bit pattern (`UInt64`);
* a reader takes the bytes from the current position on and returns the value and the bytes behind it,
  `none` = the C++ code read past the end of the file (its result is then unspecified).
-/

namespace Gdx

abbrev Str := List UInt8

/-- Outcome of a modelled function: a value, or undefined behaviour of the C++ program
    (null pointer, index outside of a table, signed overflow, buffer overrun). -/
inductive Res (α : Type) where
  | ok (a : α)
  | ub
  deriving DecidableEq, Repr

namespace Res
def bind {α β : Type} : Res α → (α → Res β) → Res β
  | ok a, f => f a
  | ub, _ => ub
instance : Monad Res where
  pure := ok
  bind := bind
@[simp] theorem bind_ok {α β : Type} (a : α) (f : α → Res β) : (Res.ok a >>= f) = f a := rfl
@[simp] theorem bind_ub {α β : Type} (f : α → Res β) : ((Res.ub : Res α) >>= f) = Res.ub := rfl
@[simp] theorem pure_eq {α : Type} (a : α) : (pure a : Res α) = Res.ok a := rfl
end Res

/-- `int` range (INT_MIN .. INT_MAX of a 32-bit int). -/
def I32 (x : Int) : Prop := -2147483648 ≤ x ∧ x ≤ 2147483647
instance (x : Int) : Decidable (I32 x) := by unfold I32; infer_instance
def I64 (x : Int) : Prop := -9223372036854775808 ≤ x ∧ x ≤ 9223372036854775807
instance (x : Int) : Decidable (I64 x) := by unfold I64; infer_instance

def intMax : Int := 2147483647

/-! ### little-endian bytes -/

/-- The `n` low bytes of `x`, least significant first: what `Write(&v, sizeof v)` puts into the file on a
    little-endian machine (gmsstrm.hpp:123-128 WriteValue). -/
def encLE : Nat → Nat → List UInt8
  | 0, _ => []
  | n + 1, x => UInt8.ofNat (x % 256) :: encLE n (x / 256)

def decLE : List UInt8 → Nat
  | [] => 0
  | b :: bs => b.toNat + 256 * decLE bs

/-! ### readers -/

abbrev Rd (α : Type) := List UInt8 → Option (α × List UInt8)

/-- take exactly `n` bytes (TXStream::Read with the full count available). -/
def rdBytes (n : Nat) : Rd (List UInt8) := fun l =>
  if n ≤ l.length then some (l.take n, l.drop n) else none

/-- gmsstrm.cpp:382-385 ReadByte -/
def rdByte : Rd UInt8
  | [] => none
  | b :: r => some (b, r)

/-- gmsstrm.cpp:387-390 ReadWord (byte order of the machine) -/
def rdWord : Rd Nat := fun l => do
  let (bs, r) ← rdBytes 2 l
  some (decLE bs, r)

/-- two's complement view of an unsigned 32-bit number -/
def toI32 (n : Nat) : Int := if n < 2147483648 then (n : Int) else (n : Int) - 4294967296
/-- two's complement view of an unsigned 64-bit number -/
def toI64 (n : Nat) : Int :=
  if n < 9223372036854775808 then (n : Int) else (n : Int) - 18446744073709551616

/-- gmsstrm.cpp:377-380 ReadInteger -/
def rdInt : Rd Int := fun l => do
  let (bs, r) ← rdBytes 4 l
  some (toI32 (decLE bs), r)

/-- gmsstrm.cpp:392-395 ReadInt64 -/
def rdInt64 : Rd Int := fun l => do
  let (bs, r) ← rdBytes 8 l
  some (toI64 (decLE bs), r)

/-- gmsstrm.cpp:372-375 ReadDouble: the bit pattern -/
def rdDouble : Rd UInt64 := fun l => do
  let (bs, r) ← rdBytes 8 l
  some (UInt64.ofNat (decLE bs), r)

/-- gmsstrm.cpp:347-370 ReadString / ReadSString: length byte, then the bytes. -/
def rdString : Rd Str := fun l => do
  let (n, r) ← rdByte l
  rdBytes n.toNat r

/-! ### writers -/

/-- gmsstrm.cpp:292-302 WriteByte -/
def wrByte (b : UInt8) : List UInt8 := [b]
/-- gmsstrm.cpp:304-314 WriteWord of a `uint16_t` -/
def wrWord (w : Nat) : List UInt8 := encLE 2 w
/-- gmsstrm.cpp:268-278 WriteInteger: two's complement -/
def wrInt (x : Int) : List UInt8 := encLE 4 (x % 4294967296).toNat
/-- gmsstrm.cpp:280-290 WriteInt64 -/
def wrInt64 (x : Int) : List UInt8 := encLE 8 (x % 18446744073709551616).toNat
/-- gmsstrm.cpp:256-266 WriteDouble of a bit pattern -/
def wrDouble (d : UInt64) : List UInt8 := encLE 8 d.toNat

/-- gmsstrm.cpp:241-254 WriteString with utils.cpp:253-266 strConvCppToDelphi. Up to 255 bytes: length byte and
    bytes. For a longer string the static 256-byte buffer receives an error text, but `length+1 > 256` bytes
    are written from it: reading outside of the buffer, undefined behaviour. -/
def wrString (s : Str) : Res (List UInt8) :=
  if s.length ≤ 255 then .ok (UInt8.ofNat s.length :: s) else .ub

/-- The normal case of `wrString`. -/
def encStr (s : Str) : List UInt8 := UInt8.ofNat s.length :: s

end Gdx
