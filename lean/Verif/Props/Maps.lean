import Verif.Proofs.BitArr

/-! C17 integer mapping, C18 bit sets. -/

namespace Gdx.Props
open Gdx Gdx.Spec

/-- C17: after any sequence of stores with indices that are non-negative ints, reading an index returns the last value
    stored for it or -1, and the highest index is the maximum of 0 and all stored indices. -/
theorem C17_mapping (hist : List (Int × Int)) (h : ∀ p ∈ hist, 0 ≤ p.1 ∧ p.1 ≤ 2147483647) :
    ∃ m, IntMap.empty.setAll hist = .ok m ∧ (∀ i, m.get i = lastStored (-1) hist i) ∧
      m.highest = highestIndex hist :=
  IntMap.setAll_spec hist fun p hp => ⟨(h p hp).1, by have := (h p hp).2; unfold maxCapacity; omega⟩

/-- C17: one store changes only that index, in any state (also when the table grows). -/
theorem C17_one (m : IntMap) (f t : Int) (h : 0 ≤ f ∧ f ≤ 2147483647) :
    ∃ m', m.set f t = .ok m' ∧ m'.get f = t ∧ (∀ i, i ≠ f → m'.get i = m.get i) ∧ m'.highest = max m.highest f := by
  obtain ⟨m', h1, h2, h3⟩ := m.set_spec f t ⟨h.1, by unfold maxCapacity; omega⟩
  exact ⟨m', h1, by rw [h2, if_pos rfl], fun i hi => by rw [h2, if_neg hi], h3⟩

example : ∀ p ∈ [((5 : Int), (7 : Int)), (2000000000, 8), (5, 9)], 0 ≤ p.1 ∧ p.1 ≤ 2147483647 := by decide
example : lastStored (-1) [((5 : Int), (7 : Int)), (2000000000, 8), (5, 9)] 5 = 9 ∧
    lastStored (-1) [((5 : Int), (7 : Int)), (2000000000, 8), (5, 9)] 6 = -1 ∧
    highestIndex [((5 : Int), (7 : Int)), (2000000000, 8), (5, 9)] = 2000000000 := by decide

/-- C17: the restriction to non-negative indices is needed; a negative index is an access outside of the table. -/
theorem C17_negative (m : IntMap) (f t : Int) (h : f < 0) : m.set f t = .ub := by
  unfold IntMap.set
  rw [dif_neg (by omega)]

/-- C18 does not hold as stated: clearing one bit also clears the other bits of its byte. -/
theorem C18_clear_clears_neighbour : ∃ a, BitArr.empty.setAll [(0, true), (1, true), (0, false)] = .ok a ∧
    a.get 1 = false ∧ lastStored false [((0 : Int), true), (1, true), (0, false)] 1 = true := by
  obtain ⟨a, h1, hi, h2, _⟩ := BitArr.setAll_spec [(0, true), (1, true)] (by decide) (by decide)
  have hs : BitArr.empty.setAll [(0, true), (1, true), (0, false)] = (a.set 0 false) := by
    have := BitArr.setAll_append BitArr.empty [(0, true), (1, true)] [(0, false)]
    simp only [List.cons_append, List.nil_append] at this
    rw [this, h1]
    simp only [Res.bind_ok, BitArr.setAll]
    cases a.set 0 false <;> rfl
  have h3 : a.get 1 = true := h2 1 (by decide)
  have hhigh : 1 ≤ a.high := by
    by_contra hc
    have : a.get 1 = false := by
      unfold BitArr.get
      rw [if_pos (Or.inr (by omega))]
    rw [this] at h3
    cases h3
  have hsz := hi.size
  have hp : 0 < a.data.length := by omega
  have hset : a.set 0 false = .ok ⟨a.data.set 0 (a.data[0] &&& 0), a.high⟩ := by
    unfold BitArr.set BitArr.setHighIndex
    have h0 : ¬ (0 > a.high) := by omega
    simp [h0, bitMask, List.getElem?_eq_getElem hp]
  refine ⟨_, by rw [hs, hset], ?_, by decide⟩
  unfold BitArr.get
  rw [if_neg (by simp; omega)]
  simp [bitMask, hp]

/-- C18, part that holds (and the only use made of bit sets in gxfile.cpp is of this kind): without clearing, after any
    history of setting bits membership is decided by the history of exactly that index; negative indices are never
    members. Missing: histories that clear bits, see `C18_clear_clears_neighbour`. -/
theorem C18_set_partial (hist : List (Int × Bool)) (h : ∀ p ∈ hist, p.1 ≤ 2147483639) (ht : ∀ p ∈ hist, p.2 = true) :
    ∃ a, BitArr.empty.setAll hist = .ok a ∧ (∀ i, 0 ≤ i → a.get i = lastStored false hist i) ∧
      ∀ i < 0, a.get i = false := by
  obtain ⟨a, h1, _, h2, h3⟩ := BitArr.setAll_spec hist h ht
  exact ⟨a, h1, h2, h3⟩

example : ∀ p ∈ [((5 : Int), true), (-3, true), (1000000, true)], p.1 ≤ 2147483639 ∧ p.2 = true := by decide

/-- C18: the limit on the index is needed (int overflow in the size computation). -/
theorem C18_limit : BitArr.empty.set 2147483640 true = .ub := by decide

#print axioms C17_mapping
#print axioms C17_one
#print axioms C17_negative
#print axioms C18_clear_clears_neighbour
#print axioms C18_set_partial
#print axioms C18_limit

end Gdx.Props
