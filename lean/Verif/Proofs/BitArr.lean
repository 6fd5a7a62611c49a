import Verif.Model.BitArr
import Verif.Spec.Maps
import Verif.Proofs.IntMap
import Mathlib.Data.List.Basic
import Mathlib.Data.Nat.Bitwise
import Mathlib.Tactic.IntervalCases

/-! Helper lemmas for C18. -/

namespace Gdx
open Gdx.Spec

theorem mask_toNat (j : Nat) (hj : j < 8) : ((1 : UInt8) <<< UInt8.ofNat j).toNat = 2 ^ j := by
  interval_cases j <;> rfl

theorem mask_ne_zero (j : Nat) (hj : j < 8) : ((1 : UInt8) <<< UInt8.ofNat j) ≠ 0 := by
  interval_cases j <;> decide

theorem bit_test (b : UInt8) (j : Nat) (hj : j < 8) :
    ((b &&& ((1 : UInt8) <<< UInt8.ofNat j)) != 0) = b.toNat.testBit j := by
  have h : (b &&& ((1 : UInt8) <<< UInt8.ofNat j)).toNat = (b.toNat.testBit j).toNat * 2 ^ j := by
    rw [UInt8.toNat_and, mask_toNat j hj, Nat.and_two_pow]
  cases hb : b.toNat.testBit j with
  | false =>
    rw [hb] at h
    have : (b &&& ((1 : UInt8) <<< UInt8.ofNat j)) = 0 := UInt8.toNat_inj.mp (by rw [h]; simp)
    simp [this]
  | true =>
    rw [hb] at h
    have : (b &&& ((1 : UInt8) <<< UInt8.ofNat j)) ≠ 0 := by
      intro e
      rw [e] at h
      have := Nat.two_pow_pos j
      simp at h
      omega
    simp [this]

theorem bit_or (b : UInt8) (j k : Nat) (hj : j < 8) :
    (b ||| ((1 : UInt8) <<< UInt8.ofNat j)).toNat.testBit k = (b.toNat.testBit k || decide (j = k)) := by
  rw [UInt8.toNat_or, mask_toNat j hj, Nat.testBit_or, Nat.testBit_two_pow]

/-- bit `i` of the memory block -/
def BitArr.bit (a : BitArr) (i : Nat) : Bool :=
  match a.data[i / 8]? with
  | some b => b.toNat.testBit (i % 8)
  | none => false

structure BitArr.Inv (a : BitArr) : Prop where
  low : -1 ≤ a.high
  size : a.high < 8 * a.data.length
  above : ∀ i : Nat, a.high < i → a.bit i = false

theorem BitArr.Inv.empty : BitArr.Inv BitArr.empty :=
  ⟨by decide, by decide, fun _ _ => rfl⟩

theorem BitArr.get_eq {a : BitArr} (h : a.Inv) (n : Int) :
    a.get n = if n < 0 then false else a.bit n.toNat := by
  unfold BitArr.get
  by_cases h0 : n < 0
  · simp [h0]
  · by_cases h1 : n > a.high
    · simp [h0, h1, h.above n.toNat (by omega)]
    · simp only [h0, h1, or_self, if_false, bitMask, BitArr.bit]
      cases a.data[n.toNat / 8]? with
      | none => rfl
      | some b => exact bit_test _ _ (by omega)

theorem bitGrow_spec (alloc need delta : Nat) : need < alloc + bitGrow alloc need delta := by
  induction delta using bitGrow.induct alloc need with
  | case1 d h ih => rw [bitGrow, if_pos h]; exact ih
  | case2 d h => rw [bitGrow, if_neg h]; omega

theorem BitArr.setHighIndex_spec {a : BitArr} (h : a.Inv) (v : Nat) (hv : v ≤ 2147483639 ∨ (v : Int) ≤ a.high) :
    ∃ a', a.setHighIndex v = .ok a' ∧ a'.Inv ∧ (∀ i, a'.bit i = a.bit i) ∧ (v : Int) ≤ a'.high := by
  unfold BitArr.setHighIndex
  by_cases h1 : (v : Int) > a.high
  · rw [if_pos h1, if_neg (by omega)]
    by_cases h2 : (v + 8) / 8 > a.data.length
    · have hg := bitGrow_spec a.data.length ((v + 8) / 8) (bitDelta a.data.length)
      have hbit : ∀ i, BitArr.bit ⟨a.data ++ List.replicate
          (bitGrow a.data.length ((v + 8) / 8) (bitDelta a.data.length)) 0, v⟩ i = a.bit i := by
        intro i
        unfold BitArr.bit
        rcases lt_or_ge (i / 8) a.data.length with hl | hl
        · simp only [List.getElem?_append_left hl]
        · simp only [List.getElem?_append_right hl, List.getElem?_replicate, List.getElem?_eq_none hl]
          by_cases hx : i / 8 - a.data.length < bitGrow a.data.length ((v + 8) / 8) (bitDelta a.data.length)
          · rw [if_pos hx]; simp
          · rw [if_neg hx]
      refine ⟨_, by rw [if_pos h2], ⟨?_, ?_, ?_⟩, hbit, le_refl _⟩
      · show (-1 : Int) ≤ (v : Int); omega
      · simp only [List.length_append, List.length_replicate]
        omega
      · intro i hi
        rw [hbit]
        simp only at hi
        exact h.above i (by omega)
    · refine ⟨⟨a.data, v⟩, by rw [if_neg h2], ⟨?_, ?_, ?_⟩, fun i => rfl, le_refl _⟩
      · show (-1 : Int) ≤ (v : Int); omega
      · show (v : Int) < 8 * a.data.length; omega
      · intro i hi
        simp only at hi
        exact h.above i (by omega)
  · exact ⟨a, by rw [if_neg h1], h, fun _ => rfl, by omega⟩

theorem BitArr.set_true_or {a : BitArr} (h : a.Inv) (n : Int) (hn : n ≤ 2147483639 ∨ n ≤ a.high) :
    ∃ a', a.set n true = .ok a' ∧ a'.Inv ∧ ∀ i, a'.get i = if i = n ∧ 0 ≤ n then true else a.get i := by
  by_cases h0 : n < 0
  · refine ⟨a, by simp [BitArr.set, h0], h, ?_⟩
    intro i
    rw [if_neg (by omega)]
  · obtain ⟨a1, e1, hi1, hb1, hh1⟩ := a.setHighIndex_spec h n.toNat (by omega)
    have hs := hi1.size
    have hp : n.toNat / 8 < a1.data.length := by omega
    have hset : a.set n true = .ok ⟨a1.data.set (n.toNat / 8)
        (a1.data[n.toNat / 8] ||| ((1 : UInt8) <<< UInt8.ofNat (n.toNat % 8))), a1.high⟩ := by
      unfold BitArr.set
      simp only [h0, if_false, e1, Res.bind_ok, bitMask, List.getElem?_eq_getElem hp]
      simp
    have hbit : ∀ i : Nat, BitArr.bit ⟨a1.data.set (n.toNat / 8)
        (a1.data[n.toNat / 8] ||| ((1 : UInt8) <<< UInt8.ofNat (n.toNat % 8))), a1.high⟩ i =
        (a1.bit i || decide (n.toNat = i)) := by
      intro i
      unfold BitArr.bit
      by_cases hx : n.toNat / 8 = i / 8
      · simp only [← hx, List.getElem?_set_self hp, List.getElem?_eq_getElem hp]
        rw [bit_or _ _ _ (by omega)]
        congr 2
        apply propext
        omega
      · simp only [List.getElem?_set_ne hx]
        have : ¬ n.toNat = i := by omega
        simp [this]
    have hinv : BitArr.Inv ⟨a1.data.set (n.toNat / 8)
        (a1.data[n.toNat / 8] ||| ((1 : UInt8) <<< UInt8.ofNat (n.toNat % 8))), a1.high⟩ := by
      refine ⟨hi1.low, by simpa using hi1.size, ?_⟩
      intro i hi
      rw [hbit]
      simp only at hi
      have : ¬ n.toNat = i := by omega
      simp [this, hi1.above i hi]
    refine ⟨_, hset, hinv, ?_⟩
    intro i
    rw [BitArr.get_eq hinv, BitArr.get_eq h]
    by_cases hi : i < 0
    · rw [if_pos hi, if_pos hi, if_neg (by omega)]
    · rw [if_neg hi, if_neg hi, hbit, hb1]
      by_cases hin : i = n
      · simp [hin]; omega
      · have : ¬ n.toNat = i.toNat := by omega
        simp [hin, this]

theorem BitArr.set_true_spec {a : BitArr} (h : a.Inv) (n : Int) (hn : n ≤ 2147483639) :
    ∃ a', a.set n true = .ok a' ∧ a'.Inv ∧ ∀ i, a'.get i = if i = n ∧ 0 ≤ n then true else a.get i :=
  a.set_true_or h n (Or.inl hn)

theorem BitArr.set_true_ok {a a' : BitArr} (h : a.Inv) {n : Int} (hs : a.set n true = .ok a') :
    a'.Inv ∧ ∀ i, a'.get i = if i = n ∧ 0 ≤ n then true else a.get i := by
  by_cases hn : n ≤ 2147483639 ∨ n ≤ a.high
  · obtain ⟨b, h1, h2, h3⟩ := a.set_true_or h n hn
    rw [h1] at hs
    cases hs
    exact ⟨h2, h3⟩
  · exfalso
    unfold BitArr.set BitArr.setHighIndex at hs
    rw [if_neg (by omega), if_neg (by simp), if_pos (by omega), if_pos (by omega)] at hs
    cases hs

theorem BitArr.setAll_append (m : BitArr) (a b : List (Int × Bool)) :
    m.setAll (a ++ b) = (m.setAll a >>= fun m => m.setAll b) := by
  induction a generalizing m with
  | nil => rfl
  | cons p a ih =>
    obtain ⟨f, t⟩ := p
    simp only [List.cons_append, BitArr.setAll]
    cases m.set f t with
    | ok m => simp [ih]
    | ub => rfl

theorem BitArr.setAll_spec (hist : List (Int × Bool)) (h : ∀ p ∈ hist, p.1 ≤ 2147483639) (ht : ∀ p ∈ hist, p.2 = true) :
    ∃ a, BitArr.empty.setAll hist = .ok a ∧ a.Inv ∧ (∀ i, 0 ≤ i → a.get i = lastStored false hist i) ∧
      ∀ i < 0, a.get i = false := by
  induction hist using List.reverseRecOn with
  | nil => exact ⟨BitArr.empty, rfl, .empty, fun i hi => by
      simp [BitArr.get, BitArr.empty, lastStored], fun i hi => by simp [BitArr.get, hi]⟩
  | append_singleton hist p ih =>
    obtain ⟨m, h1, hi, h2, h3⟩ := ih (fun q hq => h q (by simp [hq])) fun q hq => ht q (by simp [hq])
    obtain ⟨m', h4, h5, h6⟩ := m.set_true_spec hi p.1 (h p (by simp))
    refine ⟨m', ?_, h5, ?_, ?_⟩
    · rw [BitArr.setAll_append, h1]
      obtain ⟨f, t⟩ := p
      simp only [Res.bind_ok, BitArr.setAll]
      have : t = true := ht (f, t) (by simp)
      subst this
      simp only at h4
      rw [h4]
      rfl
    · intro i hi0
      rw [h6, lastStored_append, h2 i hi0, ht p (by simp)]
      by_cases hip : i = p.1
      · simp [hip]; omega
      · simp [hip]
    · intro i hi0
      rw [h6, h3 i hi0, if_neg (by omega)]

end Gdx
