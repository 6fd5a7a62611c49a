import Verif.Model.IntMap
import Verif.Spec.Maps
import Mathlib.Data.List.Basic
import Mathlib.Data.List.Induction

/-! Helper lemmas for C17. -/

namespace Gdx
open Gdx.Spec

theorem growCap_spec (f : Nat) (hf : f < maxCapacity) (cap : Nat) :
    f < growCap f hf cap ∧ cap ≤ growCap f hf cap := by
  induction cap using growCap.induct f hf with
  | case1 cap h ih =>
    rw [growCap, dif_pos h]
    refine ⟨ih.1, le_trans ?_ ih.2⟩
    have hf' : f < 2147483648 := hf
    simp only [growStep, show maxCapacity = 2147483648 from rfl]
    split <;> split <;> (try split) <;> omega
  | case2 cap h =>
    rw [growCap, dif_neg h]
    omega

theorem IntMap.get_eq (m : IntMap) (i : Int) (hi : 0 ≤ i) :
    m.get i = m.map.getD i.toNat (-1) := by
  unfold IntMap.get
  by_cases h : i < m.map.length
  · have h2 : i.toNat < m.map.length := by omega
    simp [hi, h, List.getElem?_eq_getElem h2]
  · have h2 : m.map.length ≤ i.toNat := by omega
    simp [h, List.getElem?_eq_none h2]

theorem IntMap.get_neg (m : IntMap) (i : Int) (hi : i < 0) : m.get i = -1 := by
  unfold IntMap.get
  simp [not_le.mpr hi]

theorem IntMap.set_spec (m : IntMap) (f t : Int) (h : 0 ≤ f ∧ f < maxCapacity) :
    ∃ m', m.set f t = .ok m' ∧ (∀ i, m'.get i = if i = f then t else m.get i) ∧
      m'.highest = max m.highest f := by
  have hd : m.set f t = .ok ⟨(if f ≥ m.map.length then m.grow f.toNat (by omega) else m).map.set f.toNat t,
      if f > m.highest then f else m.highest⟩ := by
    unfold IntMap.set
    rw [dif_pos h]
    split <;> rfl
  refine ⟨_, hd, ?_, ?_⟩
  · intro i
    rcases lt_or_ge i 0 with hi | hi
    · rw [IntMap.get_neg _ _ hi, IntMap.get_neg _ _ hi, if_neg (by omega)]
    · rw [IntMap.get_eq _ _ hi, IntMap.get_eq _ _ hi]
      by_cases hg : f ≥ m.map.length
      · obtain ⟨g1, g2⟩ := growCap_spec f.toNat (by omega) m.map.length
        simp only [if_pos hg, IntMap.grow]
        by_cases hif : i = f
        · subst hif
          rw [if_pos rfl, List.getD_eq_getElem?_getD, List.getElem?_set_self (by simp; omega)]
          rfl
        · rw [if_neg hif, List.getD_eq_getElem?_getD, List.getElem?_set_ne (by omega), List.getD_eq_getElem?_getD]
          rcases lt_or_ge i.toNat m.map.length with hl | hl
          · rw [List.getElem?_append_left hl]
          · rw [List.getElem?_append_right hl, List.getElem?_replicate, List.getElem?_eq_none hl]
            split <;> rfl
      · simp only [if_neg hg]
        by_cases hif : i = f
        · subst hif
          rw [if_pos rfl, List.getD_eq_getElem?_getD, List.getElem?_set_self (by omega)]
          rfl
        · rw [if_neg hif, List.getD_eq_getElem?_getD, List.getElem?_set_ne (by omega), List.getD_eq_getElem?_getD]
  · show (if f > m.highest then f else m.highest) = _
    split <;> omega

theorem lastStored_append {β : Type} (d : β) (h : List (Int × β)) (p : Int × β) (i : Int) :
    lastStored d (h ++ [p]) i = if i = p.1 then p.2 else lastStored d h i := by
  unfold lastStored
  by_cases hp : i = p.1
  · simp [hp]
  · have : ¬ p.1 = i := fun e => hp e.symm
    simp [hp, this]

theorem highestIndex_append {β : Type} (h : List (Int × β)) (p : Int × β) :
    highestIndex (h ++ [p]) = max (highestIndex h) p.1 := by
  simp [highestIndex]

theorem IntMap.setAll_append (m : IntMap) (a b : List (Int × Int)) :
    m.setAll (a ++ b) = (m.setAll a >>= fun m => m.setAll b) := by
  induction a generalizing m with
  | nil => rfl
  | cons p a ih =>
    obtain ⟨f, t⟩ := p
    simp only [List.cons_append, IntMap.setAll]
    cases m.set f t with
    | ok m => simp [ih]
    | ub => rfl

theorem IntMap.setAll_spec (hist : List (Int × Int)) (h : ∀ p ∈ hist, 0 ≤ p.1 ∧ p.1 < maxCapacity) :
    ∃ m, IntMap.empty.setAll hist = .ok m ∧ (∀ i, m.get i = lastStored (-1) hist i) ∧
      m.highest = highestIndex hist := by
  induction hist using List.reverseRecOn with
  | nil => exact ⟨IntMap.empty, rfl, fun i => by simp [IntMap.get, IntMap.empty, lastStored], rfl⟩
  | append_singleton hist p ih =>
    obtain ⟨m, h1, h2, h3⟩ := ih fun q hq => h q (by simp [hq])
    obtain ⟨m', h4, h5, h6⟩ := m.set_spec p.1 p.2 (h p (by simp))
    refine ⟨m', ?_, ?_, ?_⟩
    · rw [IntMap.setAll_append, h1]
      obtain ⟨f, t⟩ := p
      simp only [Res.bind_ok, IntMap.setAll]
      simp only at h4
      rw [h4]
      rfl
    · intro i
      rw [h5, lastStored_append, h2]
    · rw [h6, highestIndex_append, h3]

end Gdx
