import Verif.Model.GmsNum
import Verif.Proofs.Prim
import Verif.Proofs.Ieee

/-! C38: stream primitives round trip. -/

namespace Gdx.Props
open Gdx

/-! ### values of the primitive types and sequences of them -/

/-- one item written to a stream -/
inductive Item where
  | byte (b : UInt8) | bool (b : Bool) | char (c : UInt8) | word (w : Nat) | int (x : Int) | int64 (x : Int)
  | dbl (d : Dbl) | str (s : Str) | pchar (s : Str) | gmsInt (x : Int)
  deriving DecidableEq, Repr

/-- which reader function is called -/
inductive Kind where
  | byte | bool | char | word | int | int64 | dbl | str | pchar | gmsInt
  deriving DecidableEq, Repr

def Item.kind : Item → Kind
  | .byte _ => .byte | .bool _ => .bool | .char _ => .char | .word _ => .word | .int _ => .int | .int64 _ => .int64
  | .dbl _ => .dbl | .str _ => .str | .pchar _ => .pchar | .gmsInt _ => .gmsInt

/-- the item is a value of its C++ type (strings: at most 255 bytes; GmsInteger: any int except INT_MIN) -/
def Item.InRange : Item → Prop
  | .byte _ | .bool _ | .char _ | .dbl _ => True
  | .word w => w < 65536
  | .int x => I32 x
  | .int64 x => I64 x
  | .str s => s.length ≤ 255
  | .pchar s => s.length ≤ 2147483647
  | .gmsInt x => I32 x ∧ x ≠ -2147483648

def writeItem : Item → Res (List UInt8)
  | .byte b => .ok (wrByte b)
  | .bool b => .ok (wrBool b)
  | .char c => .ok (wrByte c)
  | .word w => .ok (wrWord w)
  | .int x => .ok (wrInt x)
  | .int64 x => .ok (wrInt64 x)
  | .dbl d => .ok (wrDouble d)
  | .str s => wrString s
  | .pchar s => .ok (wrPChar s)
  | .gmsInt x => wrGmsInt x

def readItem : Kind → Rd Item
  | .byte, l => (rdByte l).map fun (v, r) => (.byte v, r)
  | .bool, l => (rdBool l).map fun (v, r) => (.bool v, r)
  | .char, l => (rdByte l).map fun (v, r) => (.char v, r)
  | .word, l => (rdWord l).map fun (v, r) => (.word v, r)
  | .int, l => (rdInt l).map fun (v, r) => (.int v, r)
  | .int64, l => (rdInt64 l).map fun (v, r) => (.int64 v, r)
  | .dbl, l => (rdDouble l).map fun (v, r) => (.dbl v, r)
  | .str, l => (rdString l).map fun (v, r) => (.str v, r)
  | .pchar, l => (rdPChar l).map fun (v, r) => (.pchar v, r)
  | .gmsInt, l => (rdGmsInt l).map fun (v, r) => (.gmsInt v, r)

def writeItems : List Item → Res (List UInt8)
  | [] => .ok []
  | i :: is => do
    let a ← writeItem i
    let b ← writeItems is
    .ok (a ++ b)

def readItems : List Kind → Rd (List Item)
  | [], l => some ([], l)
  | k :: ks, l => do
    let (i, r) ← readItem k l
    let (is, r) ← readItems ks r
    some (i :: is, r)

theorem rdBool_wrBool (b : Bool) (r : List UInt8) : rdBool (wrBool b ++ r) = some (b, r) := by
  cases b <;> rfl

theorem rdPChar_wrPChar (s : Str) (h : s.length ≤ 2147483647) (r : List UInt8) :
    rdPChar (wrPChar s ++ r) = some (s, r) := by
  unfold rdPChar wrPChar
  rw [List.append_assoc, rdInt_wrInt _ (by unfold I32; omega)]
  simp only [Option.bind_eq_bind, Option.bind_some]
  split
  · have : s = [] := List.length_eq_zero_iff.mp (by omega)
    rw [this]; rfl
  · exact rdBytes_append s r

theorem gmsDigits_zero : gmsDigits 0 = [] := by rw [gmsDigits]; rfl

theorem decLE_gmsDigits (n : Nat) : decLE (gmsDigits n) = n := by
  induction n using Nat.strong_induction_on with
  | _ n ih =>
    rw [gmsDigits]
    split
    · rename_i h; rw [h]; rfl
    · rename_i h
      rw [decLE, ih (n / 256) (by omega)]
      have : (UInt8.ofNat (n % 256)).toNat = n % 256 := by simp
      omega

theorem gmsDigits_length (k n : Nat) (h : n < 256 ^ k) : (gmsDigits n).length ≤ k := by
  induction k generalizing n with
  | zero =>
    have : n = 0 := by simpa using h
    rw [this, gmsDigits_zero]; simp
  | succ k ih =>
    rw [gmsDigits]
    split
    · simp
    · simp only [List.length_cons]
      have := ih (n / 256) (by rw [pow_succ] at h; omega)
      omega

theorem gmsHead (s : Bool) (a : Fin 16) (c : Fin 5) :
    (UInt8.ofNat (((if s then 0 else 128) ||| a.val) ||| c.val * 16)).toNat = (if s then 0 else 128) + a.val + 16 * c.val := by
  revert s a c
  decide

theorem rdGmsInt_wrGmsInt (N : Int) (h : I32 N) (h2 : N ≠ -2147483648) (r : List UInt8) :
    ∃ b, wrGmsInt N = .ok b ∧ rdGmsInt (b ++ r) = some (N, r) := by
  unfold I32 at h
  unfold wrGmsInt
  rw [if_neg h2]
  refine ⟨_, rfl, ?_⟩
  have hl : (gmsDigits (N.natAbs / 16)).length ≤ 4 := gmsDigits_length 4 _ (by norm_num; omega)
  have hh := gmsHead (decide (N ≥ 0)) ⟨N.natAbs % 16, by omega⟩ ⟨(gmsDigits (N.natAbs / 16)).length, by omega⟩
  simp only [decide_eq_true_eq] at hh
  unfold rdGmsInt
  simp only [List.cons_append, rdByte_cons, Option.bind_eq_bind, Option.bind_some]
  rw [hh]
  have hC : ((if N ≥ 0 then 0 else 128) + N.natAbs % 16 + 16 * (gmsDigits (N.natAbs / 16)).length) / 16 % 8 =
      (gmsDigits (N.natAbs / 16)).length := by split <;> omega
  have hW : ((if N ≥ 0 then 0 else 128) + N.natAbs % 16 + 16 * (gmsDigits (N.natAbs / 16)).length) % 16 =
      N.natAbs % 16 := by split <;> omega
  rw [hC, hW, if_neg (by omega), rdBytes_append, Option.bind_some, decLE_gmsDigits]
  rw [if_pos (by omega)]
  congr 2
  by_cases hN : N ≥ 0
  · rw [if_pos hN, if_neg (by omega)]; omega
  · rw [if_neg hN, if_pos (by omega)]; omega

theorem item_roundtrip (i : Item) (h : i.InRange) (r : List UInt8) :
    ∃ b, writeItem i = .ok b ∧ readItem i.kind (b ++ r) = some (i, r) := by
  cases i with
  | byte b => exact ⟨_, rfl, rfl⟩
  | bool b => exact ⟨_, rfl, by simp only [Item.kind, readItem, rdBool_wrBool]; rfl⟩
  | char b => exact ⟨_, rfl, rfl⟩
  | word w => exact ⟨_, rfl, by simp only [Item.kind, readItem, rdWord_wrWord w h]; rfl⟩
  | int w => exact ⟨_, rfl, by simp only [Item.kind, readItem, rdInt_wrInt w h]; rfl⟩
  | int64 w => exact ⟨_, rfl, by simp only [Item.kind, readItem, rdInt64_wrInt64 w h]; rfl⟩
  | dbl w => exact ⟨_, rfl, by simp only [Item.kind, readItem, rdDouble_wrDouble]; rfl⟩
  | str s =>
    obtain ⟨b, h1, h2⟩ := rdString_wrString s h r
    exact ⟨b, h1, by simp only [Item.kind, readItem, h2]; rfl⟩
  | pchar s => exact ⟨_, rfl, by simp only [Item.kind, readItem, rdPChar_wrPChar s h]; rfl⟩
  | gmsInt x =>
    obtain ⟨b, h1, h2⟩ := rdGmsInt_wrGmsInt x h.1 h.2 r
    exact ⟨b, h1, by simp only [Item.kind, readItem, h2]; rfl⟩

/-- C38: any sequence of items is read back identical by the readers of the same types, and the position is exactly
    behind it (the following bytes `r` are untouched). -/
theorem C38_items (is : List Item) (h : ∀ i ∈ is, i.InRange) (r : List UInt8) :
    ∃ b, writeItems is = .ok b ∧ readItems (is.map Item.kind) (b ++ r) = some (is, r) := by
  induction is generalizing r with
  | nil => exact ⟨[], rfl, rfl⟩
  | cons i is ih =>
    obtain ⟨b2, h1, h2⟩ := ih (fun j hj => h j (by simp [hj])) r
    obtain ⟨b1, h3, h4⟩ := item_roundtrip i (h i (by simp)) (b2 ++ r)
    refine ⟨b1 ++ b2, ?_, ?_⟩
    · simp [writeItems, h3, h1]
    · simp only [List.map_cons, readItems, List.append_assoc, h4, Option.bind_eq_bind, Option.bind_some, h2]

/-- C38, the excluded cases: INT_MIN as GMS integer and a string above 255 bytes are undefined behaviour. -/
theorem C38_excluded : wrGmsInt (-2147483648) = .ub ∧ ∀ s : Str, 255 < s.length → wrString s = .ub := by
  refine ⟨rfl, fun s h => ?_⟩
  unfold wrString
  rw [if_neg (by omega)]

example : ∀ i ∈ [Item.str [97, 98], .gmsInt (-70000), .dbl Dbl.negZero, .word 65535, .pchar [], .int64 (-5)], i.InRange := by
  simp [Item.InRange, I32, I64]
example : wrGmsInt (-70000) = .ok [160, 23, 17] := by
  simp [wrGmsInt]
  rw [gmsDigits]; simp
  rw [gmsDigits]; simp
  rw [gmsDigits]; simp
  decide

/-! ### GMS doubles -/

theorem decLE_append_zeros (l : List UInt8) (k : Nat) : decLE (l ++ List.replicate k 0) = decLE l := by
  induction l with
  | nil =>
    induction k with
    | zero => rfl
    | succ k ih => simp [List.replicate_succ, decLE] at ih ⊢; exact ih
  | cons b bs ih => simp only [List.cons_append, decLE, ih]

theorem dropWhile_zeros (l : List UInt8) :
    l = List.replicate (l.length - (l.dropWhile (· == 0)).length) 0 ++ l.dropWhile (· == 0) := by
  induction l with
  | nil => rfl
  | cons b bs ih =>
    by_cases h : b = 0
    · subst h
      rw [List.dropWhile_cons_of_pos (by rfl)]
      have hl : (bs.dropWhile (· == 0)).length ≤ bs.length := (List.dropWhile_sublist _).length_le
      have : (0 :: bs).length - (bs.dropWhile (· == 0)).length = (bs.length - (bs.dropWhile (· == 0)).length) + 1 := by
        simp; omega
      rw [this, List.replicate_succ, List.cons_append, ← ih]
    · rw [List.dropWhile_cons_of_neg (by simpa using h)]
      simp

theorem gmsBytesHead (c : Fin 9) :
    ¬ (UInt8.ofNat (128 ||| c.val) < 128) ∧ (UInt8.ofNat (128 ||| c.val)).toNat % 128 = c.val := by
  revert c; decide

theorem rd_wrGmsBytes (d : Dbl) (r : List UInt8) : rdGmsDouble (wrGmsBytes d ++ r) = some (d, r) := by
  unfold wrGmsBytes
  simp only
  have hlen : (beBytes d).length = 8 := by simp [beBytes]
  have hz := dropWhile_zeros (beBytes d)
  have hl : ((beBytes d).dropWhile (· == 0)).length ≤ 8 := by
    rw [← hlen]; exact (List.dropWhile_sublist _).length_le
  generalize (beBytes d).dropWhile (· == 0) = rest at *
  obtain ⟨h1, h2⟩ := gmsBytesHead ⟨8 - rest.length, by omega⟩
  unfold rdGmsDouble
  simp only [List.cons_append, rdByte_cons, Option.bind_eq_bind, Option.bind_some]
  rw [if_neg h1, h2]
  unfold rdGmsBytes
  simp only
  rw [rdBytes_append' (by omega)]
  simp only [Option.bind_eq_bind, Option.bind_some, Option.some.injEq, Prod.mk.injEq, and_true]
  have hrev : encLE 8 d.toNat = rest.reverse ++ List.replicate (8 - rest.length) 0 := by
    have : (beBytes d).reverse = encLE 8 d.toNat := by simp [beBytes]
    rw [← this, hz, hlen]
    simp
  have hd : decLE (encLE 8 d.toNat) = d.toNat := by
    rw [decLE_encLE]
    apply Nat.mod_eq_of_lt
    exact d.toNat_lt
  rw [hrev, decLE_append_zeros] at hd
  rw [hd]
  simp

/-- C38, GMS doubles below 1e300 (all negative ones included) except negative zero: bit for bit. -/
theorem C38_gmsDouble_real (d : Dbl) (h : ltUnd d = true) (hz : d ≠ Dbl.negZero) (r : List UInt8) :
    ∃ b, wrGmsDouble d = .ok b ∧ rdGmsDouble (b ++ r) = some (d, r) := by
  have hk : gmsKind d = .ok .real := by unfold gmsKind; rw [if_pos h]
  unfold wrGmsDouble
  rw [hk]
  simp only
  split
  · rename_i h0
    rcases h0 with rfl | rfl
    · exact ⟨_, rfl, rfl⟩
    · exact absurd rfl hz
  · split
    · rename_i h1; subst h1; exact ⟨_, rfl, rfl⟩
    · split
      · rename_i h1; subst h1; exact ⟨_, rfl, rfl⟩
      · exact ⟨_, rfl, rd_wrGmsBytes d r⟩

/-- C38, acronym values as GMS doubles -/
theorem C38_gmsDouble_acronym (i : Int) (h : 1 ≤ i) (h2 : i ≤ 17976931) (r : List UInt8) :
    ∃ b, wrGmsDouble (acrValue i) = .ok b ∧ rdGmsDouble (b ++ r) = some (acrValue i, r) := by
  have hb := acrValue_ge i h h2
  have hg : geAcr (acrValue i) = true := (geAcr_iff _).mpr ⟨hb.1, hb.2.le⟩
  have hu : ltUnd (acrValue i) = false := by
    unfold ltUnd
    have : ¬ (acrValue i < Dbl.sv_und) := by
      rw [UInt64.lt_iff_toNat_lt]
      have : Dbl.sv_und.toNat ≤ 9110180938284831491 := by decide
      omega
    have h9 : ¬ (9223372036854775808 ≤ (acrValue i).toNat) := by omega
    simp [this, h9]
  have hk : gmsKind (acrValue i) = .ok .acr := by unfold gmsKind; rw [hu, hg]; rfl
  have hni : acrValue i ≠ Dbl.posInf := by
    intro e
    rw [e] at hb
    exact absurd hb.2 (by decide)
  have hdv : acrDiv (acrValue i) = .ok i := by
    unfold acrDiv
    rw [if_neg hni, index_of_value i h h2]
  obtain ⟨b, h3, h4⟩ := rdGmsInt_wrGmsInt i (by unfold I32; omega) (by omega) r
  refine ⟨6 :: b, ?_, ?_⟩
  · unfold wrGmsDouble
    rw [hk]
    simp [hdv, h3]
  · unfold rdGmsDouble
    simp only [List.cons_append, rdByte_cons, Option.bind_eq_bind, Option.bind_some]
    rw [if_pos (by decide)]
    simp only [if_true]
    rw [h4]
    simp only [Option.bind_some]
    unfold acrMul acrValue
    rw [if_neg (by omega), if_pos (by omega), if_neg (by omega)]

/-- C38, the five special values as GMS doubles -/
theorem C38_gmsDouble_special (d : Dbl)
    (h : d ∈ [Dbl.sv_und, Dbl.sv_na, Dbl.sv_pin, Dbl.sv_min, Dbl.sv_eps]) (r : List UInt8) :
    ∃ b, wrGmsDouble d = .ok b ∧ rdGmsDouble (b ++ r) = some (d, r) := by
  have k1 : wrGmsDouble Dbl.sv_und = .ok [1] := by decide +kernel
  have k2 : wrGmsDouble Dbl.sv_na = .ok [2] := by decide +kernel
  have k3 : wrGmsDouble Dbl.sv_pin = .ok [3] := by decide +kernel
  have k4 : wrGmsDouble Dbl.sv_min = .ok [4] := by decide +kernel
  have k5 : wrGmsDouble Dbl.sv_eps = .ok [5] := by decide +kernel
  simp only [List.mem_cons, List.not_mem_nil, or_false] at h
  rcases h with rfl | rfl | rfl | rfl | rfl
  · exact ⟨_, k1, rfl⟩
  · exact ⟨_, k2, rfl⟩
  · exact ⟨_, k3, rfl⟩
  · exact ⟨_, k4, rfl⟩
  · exact ⟨_, k5, rfl⟩

/-- C38 for GMS doubles: every double below 1e300 except negative zero, every special value and every acronym value of
    an index up to 17976931. Missing, because the code does not do it: negative zero, the other numbers between 1e300
    and 1e301, numbers from 1e301 on that are not acronym values, infinities and NaN (`C38_gmsDouble_lossy`). -/
theorem C38_gmsDouble_partial (d : Dbl)
    (h : (ltUnd d = true ∧ d ≠ Dbl.negZero) ∨ d ∈ [Dbl.sv_und, Dbl.sv_na, Dbl.sv_pin, Dbl.sv_min, Dbl.sv_eps] ∨
      ∃ i, 1 ≤ i ∧ i ≤ 17976931 ∧ d = acrValue i) (r : List UInt8) :
    ∃ b, wrGmsDouble d = .ok b ∧ rdGmsDouble (b ++ r) = some (d, r) := by
  rcases h with ⟨h1, h2⟩ | h | ⟨i, h1, h2, rfl⟩
  · exact C38_gmsDouble_real d h1 h2 r
  · exact C38_gmsDouble_special d h r
  · exact C38_gmsDouble_acronym i h1 h2 r

/-- what happens to the others: −0.0 becomes 0.0, 1.5e300 becomes undef, 1.5e301 becomes 2e301, NaN and +inf are
    undefined behaviour -/
theorem C38_gmsDouble_lossy :
    wrGmsDouble Dbl.negZero = .ok [7] ∧ rdGmsDouble [7] = some (Dbl.zero, []) ∧
    wrGmsDouble 0x7e41eb2d66005835 = .ok [1] ∧
    wrGmsDouble 0x7e7665f8bf806e42 = .ok [6, 2] ∧ acrValue 2 ≠ 0x7e7665f8bf806e42 ∧
    wrGmsDouble 0x7ff8000000000000 = .ub ∧ wrGmsDouble Dbl.posInf = .ub := by
  refine ⟨by decide +kernel, by decide +kernel, by decide +kernel, ?_, by decide +kernel, by decide +kernel,
    by decide +kernel⟩
  have h : acrDiv 0x7e7665f8bf806e42 = .ok 2 := by decide +kernel
  have hk : gmsKind 0x7e7665f8bf806e42 = .ok .acr := by decide +kernel
  unfold wrGmsDouble
  rw [hk]
  simp only [h, Res.bind_ok]
  have : gmsDigits 0 = [] := gmsDigits_zero
  simp [wrGmsInt, this]

example : ltUnd 0x400921fb54442d18 = true := by decide +kernel   -- 3.14159...

#print axioms C38_items
#print axioms C38_excluded
#print axioms C38_gmsDouble_partial
#print axioms C38_gmsDouble_lossy

end Gdx.Props
