import Verif.Model.Prim

/-! Round trips of the stream primitives. -/

namespace Gdx

@[simp] theorem encLE_length (n x : Nat) : (encLE n x).length = n := by
  induction n generalizing x with
  | zero => rfl
  | succ n ih => simp [encLE, ih]

theorem decLE_encLE (n x : Nat) : decLE (encLE n x) = x % 256 ^ n := by
  induction n generalizing x with
  | zero => simp [encLE, decLE, Nat.mod_one]
  | succ n ih =>
    simp only [encLE, decLE, ih]
    have h1 : (UInt8.ofNat (x % 256)).toNat = x % 256 := by
      simp
    rw [h1, pow_succ, mul_comm (256 ^ n) 256, Nat.mod_mul]

theorem decLE_lt (l : List UInt8) : decLE l < 256 ^ l.length := by
  induction l with
  | nil => simp [decLE]
  | cons b bs ih =>
    have hb := b.toNat_lt
    simp only [decLE, List.length_cons, pow_succ]
    have : (256:Nat) ^ bs.length ≥ decLE bs + 1 := ih
    have hb' : b.toNat < 256 := hb
    nlinarith

theorem encLE_decLE (l : List UInt8) : encLE l.length (decLE l) = l := by
  induction l with
  | nil => rfl
  | cons b bs ih =>
    have hb : b.toNat < 256 := b.toNat_lt
    simp only [List.length_cons, encLE, decLE]
    have h1 : (b.toNat + 256 * decLE bs) % 256 = b.toNat := by omega
    have h2 : (b.toNat + 256 * decLE bs) / 256 = decLE bs := by omega
    rw [h1, h2, ih]
    congr 1
    simp

theorem rdBytes_append (l r : List UInt8) : rdBytes l.length (l ++ r) = some (l, r) := by
  simp [rdBytes]

theorem rdBytes_append' {n : Nat} {l r : List UInt8} (h : l.length = n) :
    rdBytes n (l ++ r) = some (l, r) := by
  subst h; exact rdBytes_append l r

@[simp] theorem rdByte_cons (b : UInt8) (r : List UInt8) : rdByte (b :: r) = some (b, r) := rfl

theorem rdByte_wrByte (b : UInt8) (r : List UInt8) : rdByte (wrByte b ++ r) = some (b, r) := rfl

theorem rdWord_wrWord (w : Nat) (h : w < 65536) (r : List UInt8) :
    rdWord (wrWord w ++ r) = some (w, r) := by
  unfold rdWord wrWord
  rw [rdBytes_append' (encLE_length 2 w)]
  simp [decLE_encLE]
  omega

theorem toI32_mod (x : Int) (h : I32 x) : toI32 ((x % 4294967296).toNat) = x := by
  unfold I32 at h
  unfold toI32
  split <;> omega

theorem toI64_mod (x : Int) (h : I64 x) : toI64 ((x % 18446744073709551616).toNat) = x := by
  unfold I64 at h
  unfold toI64
  split <;> omega

theorem rdInt_wrInt (x : Int) (h : I32 x) (r : List UInt8) :
    rdInt (wrInt x ++ r) = some (x, r) := by
  unfold rdInt wrInt
  rw [rdBytes_append' (encLE_length 4 _)]
  simp only [Option.bind_eq_bind, Option.bind_some, decLE_encLE]
  have : (x % 4294967296).toNat % 256 ^ 4 = (x % 4294967296).toNat := by
    apply Nat.mod_eq_of_lt; omega
  rw [this, toI32_mod x h]

theorem rdInt64_wrInt64 (x : Int) (h : I64 x) (r : List UInt8) :
    rdInt64 (wrInt64 x ++ r) = some (x, r) := by
  unfold rdInt64 wrInt64
  rw [rdBytes_append' (encLE_length 8 _)]
  simp only [Option.bind_eq_bind, Option.bind_some, decLE_encLE]
  have : (x % 18446744073709551616).toNat % 256 ^ 8 = (x % 18446744073709551616).toNat := by
    apply Nat.mod_eq_of_lt; omega
  rw [this, toI64_mod x h]

theorem rdDouble_wrDouble (d : UInt64) (r : List UInt8) :
    rdDouble (wrDouble d ++ r) = some (d, r) := by
  unfold rdDouble wrDouble
  rw [rdBytes_append' (encLE_length 8 _)]
  simp only [Option.bind_eq_bind, Option.bind_some, decLE_encLE]
  have : d.toNat % 256 ^ 8 = d.toNat := by
    apply Nat.mod_eq_of_lt
    have := d.toNat_lt
    omega
  rw [this]
  simp

theorem rdString_encStr (s : Str) (h : s.length ≤ 255) (r : List UInt8) :
    rdString (encStr s ++ r) = some (s, r) := by
  unfold rdString encStr
  simp only [List.cons_append, rdByte_cons, Option.bind_eq_bind, Option.bind_some]
  have : (UInt8.ofNat s.length).toNat = s.length := by
    simp; omega
  rw [this, rdBytes_append]

theorem rdString_wrString (s : Str) (h : s.length ≤ 255) (r : List UInt8) :
    ∃ b, wrString s = .ok b ∧ rdString (b ++ r) = some (s, r) := by
  refine ⟨encStr s, ?_, rdString_encStr s h r⟩
  simp [wrString, encStr, h]

@[simp] theorem wrInt_length (x : Int) : (wrInt x).length = 4 := encLE_length _ _
@[simp] theorem wrInt64_length (x : Int) : (wrInt64 x).length = 8 := encLE_length _ _
@[simp] theorem wrDouble_length (x : UInt64) : (wrDouble x).length = 8 := encLE_length _ _
@[simp] theorem wrWord_length (x : Nat) : (wrWord x).length = 2 := encLE_length _ _

end Gdx
