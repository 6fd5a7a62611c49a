import Verif.Props.Elements
import Verif.Props.RawSession
import Verif.Proofs.DiffLabels
import Verif.Proofs.MergeNum

/-! Registering labels in an object in which numbers of users and numbers of elements are the same (for gdxmerge). -/

namespace Gdx.Merge
open Gdx Gdx.Spec

/-- the number the user has for an element is the number of the element -/
structure Numbered (u : Uel) : Prop where
  ents : ∀ (n : Nat) s k, u.ents[n]? = some (s, k) → k = (n : Int) + 1
  hi : u.usr.highest = u.ents.length
  good : UelGood u

theorem Numbered.empty : Numbered Uel.empty :=
  ⟨fun n s k h => (by cases h), rfl, ⟨List.Pairwise.nil, fun s h => (by cases h)⟩⟩

/-- `k` is the number of label `s`, up to case -/
def Label (L : List Str) (k : Int) (s : Str) : Prop := 1 ≤ k ∧ ∃ t, L[(k - 1).toNat]? = some t ∧ SameNoCase t s

theorem Label.mono {L M : List Str} {k : Int} {s : Str} (h : Label L k s) (hp : L <+: M) : Label M k s := by
  obtain ⟨h1, t, h2, h3⟩ := h
  exact ⟨h1, t, by
    obtain ⟨r, rfl⟩ := hp
    rw [List.getElem?_append_left (List.getElem?_eq_some_iff.mp h2).1]
    exact h2, h3⟩

theorem Label.same {L : List Str} {k : Int} {s t : Str} (h : Label L k s) (h' : Label L k t) : SameNoCase s t := by
  obtain ⟨_, a, h2, h3⟩ := h
  obtain ⟨_, b, h4, h5⟩ := h'
  rw [h2] at h4
  cases h4
  exact h3.symm.trans h5

theorem Label.le {L : List Str} {k : Int} {s : Str} (h : Label L k s) : k ≤ L.length := by
  obtain ⟨h1, t, h2, _⟩ := h
  have := (List.getElem?_eq_some_iff.mp h2).1
  omega

theorem modify_last {α : Type} (x : α) (f : α → α) : ∀ l : List α, (l ++ [x]).modify l.length f = l ++ [f x]
  | [] => rfl
  | a :: l => by
    rw [List.cons_append, List.length_cons, List.modify_succ_cons, modify_last x f l]
    rfl

/-- registering a label: the number is the one of the label in the table, which is extended if it does not have the label -/
theorem register {g : Gx} {u : Uel} {s : Str} (hm : g.mode = .strElem) (hu : g.uel = some u) (h : Numbered u) (hs : goodUEL s = true)
    (ht : trimRight s = s) (hc : u.ents.length + 1 < 2147483648) :
    ∃ u' n, uelRegisterStr g s = .ok ({ g with uel := some u' }, (true, n)) ∧ Numbered u' ∧ u.strs <+: u'.strs ∧
      (∀ x ∈ u'.strs, x ∈ u.strs ∨ x = s) ∧ Label u'.strs n s := by
  cases hl : lookup false s u.strs with
  | some n =>
    obtain ⟨hn, hx⟩ : ∃ x k, u.ents[n]? = some (x, k) ∧ SameNoCase x s := by
      obtain ⟨x, h1, h2⟩ := lookup_some hl
      unfold Uel.strs at h1
      rw [List.getElem?_map, Option.map_eq_some_iff] at h1
      obtain ⟨⟨a, k⟩, h3, rfl⟩ := h1
      exact ⟨a, k, h3, h2⟩
    obtain ⟨k, h1, h2⟩ := hx
    have hk := h.ents n _ k h1
    refine ⟨{ u with stat := none }, k, Props.C13_again g u s s _ n k hm hu h.good (Diff.trimR_of ht) hs (by omega) h1 h2, ⟨h.ents, h.hi, h.good.distinct, h.good.good⟩,
      List.prefix_refl _, fun x hx => Or.inl hx, by omega, _, ?_, h2⟩
    show u.strs[(k - 1).toNat]? = _
    rw [show (k - 1).toNat = n by omega]
    unfold Uel.strs
    rw [List.getElem?_map, h1]
    rfl
  | none =>
    obtain ⟨m, m1, m2, m3⟩ := IntMap.set_spec u.usr (u.usr.highest + 1) (u.ents.length + 1 : Nat)
      ⟨by rw [h.hi]; omega, by rw [h.hi]; unfold maxCapacity; omega⟩
    refine ⟨{ u with ents := u.ents ++ [(s, u.usr.highest + 1)], usr := m, stat := none }, u.usr.highest + 1, ?_, ⟨?_, ?_, ?_⟩, ?_, ?_, ?_⟩
    · unfold uelRegisterStr
      rw [show g.chk [.strElem] = (g, true) by unfold Gx.chk; rw [if_pos (by rw [hm]; decide)]]
      simp only [Bool.true_eq_false, if_false]
      rw [Diff.trimR_of ht]
      simp only [Res.bind_ok, hs, Bool.true_eq_false, if_false]
      rw [hu]
      simp only [need, Res.bind_ok]
      unfold Uel.addUsrNew Uel.newUsrUel Uel.addObject
      rw [hl]
      simp only
      unfold Uel.userMap
      rw [show ((u.ents.length + 1 : Nat) : Int) = (u.ents.length : Int) + 1 by omega,
        at1_nat (show (u.ents ++ [(s, (-1 : Int))])[u.ents.length]? = some (s, -1) by simp)]
      simp only [Res.bind_ok, Res.pure_eq]
      rw [if_pos (by omega)]
      unfold Uel.newUsr
      simp only
      rw [show ((u.ents.length : Int) + 1).toNat = u.ents.length + 1 by omega, m1]
      simp only [Res.bind_ok, Res.pure_eq, Uel.setMap]
      congr 4
      rw [show u.ents.length + 1 - 1 = u.ents.length by omega]
      rw [modify_last]
    · intro n x k hx
      simp only at hx
      by_cases hn : n < u.ents.length
      · rw [List.getElem?_append_left hn] at hx
        exact h.ents n x k hx
      · rw [List.getElem?_append_right (by omega)] at hx
        obtain ⟨h1, h2⟩ := List.getElem?_eq_some_iff.mp hx
        simp at h1
        have h3 : n = u.ents.length := by omega
        subst h3
        simp at h2
        rw [← h2.2, h.hi]
    · show m.highest = _
      rw [m3, h.hi]
      simp
    · refine ⟨?_, ?_⟩
      · show Distinct false (List.map _ _)
        rw [List.map_append]
        exact h.good.distinct.append hl
      · intro x hx
        have hx : x ∈ List.map Prod.fst (u.ents ++ [(s, u.usr.highest + 1)]) := hx
        rw [List.map_append] at hx
        rcases List.mem_append.mp hx with hx | hx
        · exact h.good.good x hx
        · simp at hx
          subst hx
          exact ⟨hs, ht⟩
    · refine ⟨[s], ?_⟩
      simp [Uel.strs]
    · intro x hx
      have hx : x ∈ List.map Prod.fst (u.ents ++ [(s, u.usr.highest + 1)]) := hx
      rw [List.map_append] at hx
      rcases List.mem_append.mp hx with hx | hx
      · exact Or.inl hx
      · simp at hx
        exact Or.inr hx
    · refine ⟨by rw [h.hi]; omega, s, ?_, rfl⟩
      rw [h.hi]
      simp [Uel.strs]

/-- a string that can be a label -/
def GoodLabel (s : Str) : Prop := goodUEL s = true ∧ trimRight s = s

/-- the labels are out of `A` -/
structure Labels (A : List Str) (u : Uel) : Prop where
  num : Numbered u
  sub : ∀ s ∈ u.strs, s ∈ A

theorem Labels.size {A : List Str} {u : Uel} (h : Labels A u) : u.ents.length ≤ A.length := by
  have hn : u.strs.Nodup := h.num.good.distinct.imp fun {a b} hab he => hab (by subst he; rfl)
  have := (hn.subperm h.sub).length_le
  simpa [Uel.strs] using this

theorem addUEL_ok (e : Env) (z : Cz) {A : List Str} {b : Gx} {u : Uel} (hm : b.mode = .strElem) (hA : A.length < 2147483647) (hl : Labels A u) {s : Str}
    (hs : GoodLabel s) (ha : s ∈ A) :
    ∃ u' n, addUEL { b with uel := some u } s = .ok ({ b with uel := some u' }, n) ∧ Labels A u' ∧ u.strs <+: u'.strs ∧ Label u'.strs n s ∧
      Props.StaysIn e z { b with uel := some u } { b with uel := some u' } := by
  obtain ⟨u', n, h1, h2, h3, h4, h5⟩ := register (g := { b with uel := some u }) hm rfl hl.num hs.1 hs.2 (by have := hl.size; omega)
  refine ⟨u', n, ?_, ⟨h2, fun x hx => ?_⟩, h3, h5, .one (c := .uelStr s) (zfree_goodUEL hs.1) rfl ?_⟩
  · unfold addUEL
    rw [h1]
    rfl
  · rcases h4 x hx with h | rfl
    · exact hl.sub x h
    · exact ha
  · show stateOf (uelRegisterStr _ s) = _
    rw [h1]
    rfl

theorem addUELs_ok (e : Env) (z : Cz) {A : List Str} {b : Gx} (hm : b.mode = .strElem) (hA : A.length < 2147483647) : ∀ (ss : List Str) {u : Uel},
    Labels A u → (∀ s ∈ ss, GoodLabel s ∧ s ∈ A) →
    ∃ u' ns, addUELs { b with uel := some u } ss = .ok ({ b with uel := some u' }, ns) ∧ Labels A u' ∧ u.strs <+: u'.strs ∧
      List.Forall₂ (Label u'.strs) ns ss ∧ Props.StaysIn e z { b with uel := some u } { b with uel := some u' }
  | [], u, h, _ => ⟨u, [], rfl, h, List.prefix_refl _, .nil, ⟨[], by simp, rfl⟩⟩
  | s :: ss, u, h, hs => by
    obtain ⟨u1, n, a1, a2, a3, a4, a5⟩ := addUEL_ok e z hm hA h (hs s (by simp)).1 (hs s (by simp)).2
    obtain ⟨u2, ns, b1, b2, b3, b4, b5⟩ := addUELs_ok e z hm hA ss a2 fun x hx => hs x (by simp [hx])
    refine ⟨u2, n :: ns, ?_, b2, a3.trans b3, .cons (a4.mono b3) b4, a5.trans b5⟩
    unfold addUELs
    rw [a1]
    simp only [Res.bind_ok]
    rw [b1]
    rfl

end Gdx.Merge
