import Verif.Model.Val
import Verif.Proofs.Prim

/-! Values: reading what was written. -/

namespace Gdx

/-- values the writer emits: indicator byte 10 only together with a double -/
def SVal.Wf : SVal → Prop
  | .code c => c ≠ 10
  | .num _ => True

theorem rdSVal_encSVal (v : SVal) (h : v.Wf) (r : List UInt8) :
    rdSVal (encSVal v ++ r) = some (v, r) := by
  cases v with
  | code c =>
    have h' : c ≠ 10 := h
    simp [rdSVal, encSVal, h']
  | num d => simp [rdSVal, encSVal, rdDouble_wrDouble]

theorem rdSVals_encSVals (vs : List SVal) (h : ∀ v ∈ vs, v.Wf) (r : List UInt8) :
    rdSVals vs.length (encSVals vs ++ r) = some (vs, r) := by
  induction vs with
  | nil => simp [rdSVals, encSVals]
  | cons v vs ih =>
    have h1 := rdSVal_encSVal v (h v (by simp)) (encSVals vs ++ r)
    have h2 := ih (fun w hw => h w (by simp [hw]))
    simp only [encSVals, List.map_cons, List.flatten_cons, List.append_assoc, List.length_cons, rdSVals]
    unfold encSVals at h1 h2
    rw [h1]
    simp [h2]

theorem findIdxFrom_some {x : Dbl} {l : List Dbl} {i k : Nat} (h : findIdxFrom x l i = some k) :
    i ≤ k ∧ k < i + l.length ∧ l[k - i]? = some x ∧ ∀ j, j < k - i → l[j]? ≠ some x := by
  induction l generalizing i with
  | nil => simp [findIdxFrom] at h
  | cons y ys ih =>
    unfold findIdxFrom at h
    split at h
    · next hxy =>
      cases h
      subst hxy
      simp
    · next hxy =>
      obtain ⟨h1, h2, h3, h4⟩ := ih h
      have e : k - i = (k - (i + 1)) + 1 := by omega
      refine ⟨by omega, by simp; omega, ?_, ?_⟩
      · rw [e, List.getElem?_cons_succ]; exact h3
      · intro j hj
        rw [e] at hj
        cases j with
        | zero => simp; exact fun h => hxy h.symm
        | succ j => rw [List.getElem?_cons_succ]; exact h4 j (by omega)

theorem findIdxFrom_none {x : Dbl} {l : List Dbl} {i : Nat} : findIdxFrom x l i = none ↔ x ∉ l := by
  induction l generalizing i with
  | nil => simp [findIdxFrom]
  | cons y ys ih =>
    unfold findIdxFrom
    split
    · next h => simp [h]
    · next h => rw [ih]; simp [h]

theorem storeVal_wf (t : SVTab) (x : Dbl) : (storeVal t x).Wf := by
  unfold storeVal
  split
  · next k hk =>
    obtain ⟨_, h2, _⟩ := findIdxFrom_some hk
    have h2 : k < 10 := by simpa [SVTab.toList] using h2
    show UInt8.ofNat k ≠ 10
    intro hc
    have := congrArg UInt8.toNat hc
    simp at this
    omega
  · split
    · show (5 : UInt8) ≠ 10; decide
    · split
      · show (3 : UInt8) ≠ 10; decide
      · show (2 : UInt8) ≠ 10; decide
      · show (1 : UInt8) ≠ 10; decide
      · trivial

end Gdx
