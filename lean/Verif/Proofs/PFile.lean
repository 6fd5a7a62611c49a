import Verif.Model.PFile

namespace Gdx

theorem splice_nil (f : List UInt8) (p : Nat) : splice f p [] = f := by simp [splice]

theorem splice_of_le {f : List UInt8} {p : Nat} (h : p ≤ f.length) (bs : List UInt8) :
    splice f p bs = f.take p ++ bs ++ f.drop (p + bs.length) := by
  unfold splice
  split
  · rename_i h1; subst h1; simp
  · have : p - f.length = 0 := by omega
    rw [this]; simp

theorem splice_length (f : List UInt8) (p : Nat) (bs : List UInt8) :
    (splice f p bs).length = if bs = [] then f.length else max f.length (p + bs.length) := by
  unfold splice
  split
  · rfl
  · simp; omega

theorem splice_getElem? (f : List UInt8) (p : Nat) (bs : List UInt8) (i : Nat) :
    (splice f p bs)[i]? = if bs = [] then f[i]? else if i < p then (if i < f.length then f[i]? else some 0)
      else if i < p + bs.length then bs[i - p]? else f[i]? := by
  unfold splice
  split
  · rfl
  · rename_i hb
    have hl : ((f ++ List.replicate (p - f.length) 0).take p).length = p := by simp; omega
    by_cases h1 : i < p
    · rw [if_pos h1, List.getElem?_append_left (by simp; omega), List.getElem?_append_left (by simp; omega),
        List.getElem?_take_of_lt h1]
      split
      · rename_i h2
        rw [List.getElem?_append_left h2]
      · rename_i h2
        rw [List.getElem?_append_right (by omega), List.getElem?_replicate]
        rw [if_pos (by omega)]
    · rw [if_neg h1]
      by_cases h2 : i < p + bs.length
      · rw [if_pos h2, List.append_assoc, List.getElem?_append_right (by omega), hl, List.getElem?_append_left (by omega)]
      · rw [if_neg h2, List.append_assoc, List.getElem?_append_right (by omega), hl, List.getElem?_append_right (by omega)]
        rw [List.getElem?_drop]
        congr 1
        omega

/-- writing two pieces one after the other is writing them at once -/
theorem splice_splice (f : List UInt8) (p : Nat) (a b : List UInt8) :
    splice (splice f p a) (p + a.length) b = splice f p (a ++ b) := by
  by_cases ha : a = []
  · subst ha; simp [splice_nil]
  by_cases hb : b = []
  · subst hb; simp [splice_nil]
  apply List.ext_getElem?
  intro i
  have hab : ¬ (a ++ b = []) := by simp [ha]
  simp only [splice_getElem?, splice_length, if_neg ha, if_neg hb, if_neg hab, List.length_append]
  by_cases h1 : i < p
  · simp only [if_pos (show i < p + a.length by omega), if_pos h1]
    split
    · rfl
    · rename_i h
      omega
  · simp only [if_neg h1]
    by_cases h2 : i < p + a.length
    · rw [if_pos h2, if_pos (by omega), if_pos h2, if_pos (by omega), List.getElem?_append_left (by omega)]
    · rw [if_neg h2, if_neg h2]
      by_cases h3 : i < p + a.length + b.length
      · rw [if_pos h3, if_pos (by omega), List.getElem?_append_right (by omega)]
        congr 1
        omega
      · rw [if_neg h3, if_neg (by omega)]

end Gdx
