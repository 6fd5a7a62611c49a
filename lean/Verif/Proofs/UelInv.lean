import Verif.Proofs.Hist
import Verif.Proofs.IntMap

/-!
Invariants of the element table.
-/

namespace Gdx

/-- no two equal strings, all of them legal -/
structure UelGood (u : Uel) : Prop where
  distinct : Distinct false u.strs
  good : ∀ s ∈ u.strs, goodUEL s = true ∧ trimRight s = s

theorem setMap_strs (u : Uel) (n : Nat) (v : Int) : (u.setMap n v).strs = u.strs := by
  unfold Uel.setMap Uel.strs
  apply List.ext_getElem?
  intro i
  rw [List.getElem?_map, List.getElem?_map, List.getElem?_modify]
  split <;> simp [Option.map_map, Function.comp_def]

theorem rename_strs (u : Uel) (n : Nat) (s : Str) (hn : n - 1 < u.ents.length) :
    (u.rename n s).strs = u.strs.set (n - 1) s := by
  unfold Uel.rename Uel.strs
  apply List.ext_getElem?
  intro i
  rw [List.getElem?_map, List.getElem?_modify, List.getElem?_set]
  by_cases h : n - 1 = i
  · subst h
    simp [hn]
  · simp [h]

theorem UelStep.good {lc : Lic} {a b : Uel} (h : UelStep lc a b) (hg : UelGood a) : UelGood b := by
  cases h with
  | add s h1 h2 h3 =>
    refine ⟨?_, ?_⟩
    · show Distinct false ((a.ents ++ [(s, -1)]).map Prod.fst)
      rw [List.map_append]
      exact hg.distinct.append h3
    · intro x hx
      have hx : x ∈ (a.ents ++ [(s, (-1 : Int))]).map Prod.fst := hx
      rw [List.map_append, List.mem_append] at hx
      rcases hx with hx | hx
      · exact hg.good x hx
      · simp only [List.map_cons, List.map_nil, List.mem_singleton] at hx
        subst hx
        exact ⟨h1, h2⟩
  | stat x h => exact ⟨hg.distinct, hg.good⟩
  | newUsr en s d m h hd hm =>
    have h0 : ({ a.setMap en (a.usr.highest + 1) with usr := m, stat := none } : Uel).strs = a.strs := setMap_strs a _ _
    exact ⟨by rw [h0]; exact hg.distinct, by rw [h0]; exact hg.good⟩
  | confirm hi s d h1 h hd => exact ⟨by rw [setMap_strs]; exact hg.distinct, by rw [setMap_strs]; exact hg.good⟩

theorem UelJump.good {a b : Uel} (h : UelJump a b) (hg : UelGood a) : UelGood b := by
  rcases h with ⟨en, s, d, k, m, h, hd, hm⟩ | ⟨n, s, h1, hn, hgd, ht, hl⟩
  · have h0 : ({ a.setMap en k with usr := m, stat := none } : Uel).strs = a.strs := setMap_strs a _ _
    exact ⟨by rw [h0]; exact hg.distinct, by rw [h0]; exact hg.good⟩
  · have h0 := rename_strs a n s (by omega)
    refine ⟨by rw [h0]; exact hg.distinct.set hl _, ?_⟩
    rw [h0]
    intro x hx
    rcases List.mem_or_eq_of_mem_set hx with hx | hx
    · exact hg.good x hx
    · subst hx
      exact ⟨hgd, ht⟩

theorem UelGood.empty : UelGood Uel.empty := ⟨List.Pairwise.nil, by intro s hs; cases hs⟩

/-- the table of an object, if it has one -/
def GoodElems (g : Gx) : Prop := ∀ u, g.uel = some u → UelGood u

theorem GoodElems.prim : ∀ a b, Prim .all a b → GoodElems a → GoodElems b := by
  intro a b h hg
  cases h with
  | ctrl h _ _ => intro u hu; exact hg u (by rw [← show b.uel = a.uel from congrArg Core.uel h]; exact hu)
  | uel u u' hu hs => intro v hv; cases hv; exact hs.good (hg u hu)
  | _ => exact hg

theorem GoodElems.jump : ∀ (g : Gx) u u', g.uel = some u → UelJump u u' → GoodElems g →
    GoodElems { g with uel := some u' } := by
  intro g u u' hu hj hg v hv
  cases hv
  exact hj.good (hg u hu)

theorem GoodElems.openWrite (e : Env) (g : Gx) (n : Bool) (i : Int) (p : Str) (c : Int) (hg : GoodElems g) :
    (openWriteEx e g n i p c).All fun x => GoodElems x.1 := by
  unfold openWriteEx
  split
  · exact hg
  split
  · exact hg
  split
  · exact hg
  refine Res.All.bind' ?_
  intro h _ u hu
  cases hu
  exact UelGood.empty

theorem GoodElems.new : GoodElems Gx.new := by intro u hu; cases hu

theorem GoodElems.run (e : Env) (z : Cz) (cs : List Call) (g : Gx) (hc : ∀ c ∈ cs, c.WF) (ha : Aft g) (h : GoodElems g)
    (ho : OpensOk GoodElems e z g cs) : (run e z g cs).All fun g' => Aft g' ∧ GoodElems g' :=
  run_inv GoodElems.prim (fun _ _ _ h => h) (fun _ _ u hu => by cases hu) GoodElems.jump (fun _ h => h)
    GoodElems.openWrite e z cs g hc ha h ho

/-! ### strings keep their numbers -/

/-- every string of `u` has the same number in `u'` -/
def KeepStrs (u u' : Uel) : Prop := ∃ t, u'.strs = u.strs ++ t

theorem UelStep.keep {lc : Lic} {a b : Uel} (h : UelStep lc a b) : KeepStrs a b := by
  cases h with
  | add s _ _ _ => exact ⟨[s], by simp [Uel.strs]⟩
  | stat x h => exact ⟨[], (List.append_nil _).symm⟩
  | newUsr en s d m h hd hm =>
    refine ⟨[], ?_⟩
    rw [List.append_nil]
    exact setMap_strs a _ _
  | confirm hi s d h1 h hd => exact ⟨[], by rw [List.append_nil, setMap_strs]⟩

theorem KeepStrs.trans {a b c : Uel} (h1 : KeepStrs a b) (h2 : KeepStrs b c) : KeepStrs a c := by
  obtain ⟨t, ht⟩ := h1
  obtain ⟨t', ht'⟩ := h2
  exact ⟨t ++ t', by rw [ht', ht, List.append_assoc]⟩

/-! ### user numbers -/

/-- user numbers and elements correspond -/
structure UsrOk (u : Uel) : Prop where
  fwd : ∀ k, u.usr.get k ≠ -1 → ∃ (n : Nat) (s : Str), u.usr.get k = (n : Int) + 1 ∧ u.ents[n]? = some (s, k)
  bwd : ∀ (n : Nat) (s : Str) (k : Int), u.ents[n]? = some (s, k) → k = -1 ∨ (0 ≤ k ∧ u.usr.get k = (n : Int) + 1)
  hi : ∀ k, u.usr.get k ≠ -1 → k ≤ u.usr.highest
  hi0 : 0 ≤ u.usr.highest

theorem IntMap.empty_get (k : Int) : IntMap.empty.get k = -1 := by
  unfold IntMap.get IntMap.empty
  simp only [List.length_nil, Nat.cast_zero]
  split
  · omega
  · rfl

theorem UsrOk.empty : UsrOk Uel.empty := by
  refine ⟨?_, ?_, ?_, ?_⟩
  · intro k hk; exact absurd (IntMap.empty_get k) hk
  · intro n s k h; simp [Uel.empty] at h
  · intro k hk; exact absurd (IntMap.empty_get k) hk
  · show (0 : Int) ≤ 0; omega

theorem IntMap.set_ok {m m' : IntMap} {f t : Int} (h : m.set f t = .ok m') :
    0 ≤ f ∧ f < maxCapacity ∧ (∀ i, m'.get i = if i = f then t else m.get i) ∧ m'.highest = max m.highest f := by
  by_cases hf : 0 ≤ f ∧ f < maxCapacity
  · obtain ⟨m1, h1, h2, h3⟩ := IntMap.set_spec m f t hf
    rw [h1] at h
    cases h
    exact ⟨hf.1, hf.2, h2, h3⟩
  · unfold IntMap.set at h
    rw [dif_neg hf] at h
    cases h

theorem setMap_get (u : Uel) (en : Nat) (v : Int) (i : Nat) :
    (u.setMap en v).ents[i]? = if en - 1 = i then (u.ents[i]?).map fun e => (e.1, v) else u.ents[i]? := by
  unfold Uel.setMap
  rw [List.getElem?_modify]
  split <;> simp

/-- a fresh user number for an element without one -/
theorem UsrOk.assign {u : Uel} (h : UsrOk u) {en : Nat} {s : Str} {d k : Int} {m : IntMap} (he : at1 u.ents en = .ok (s, d))
    (hd : d < 0) (hk : u.usr.get k = -1) (hm : u.usr.set k en = .ok m) (st : Option MapStat) :
    UsrOk { u.setMap en k with usr := m, stat := st } := by
  obtain ⟨hk0, hk1, hget, hhi⟩ := IntMap.set_ok hm
  obtain ⟨he1, he2, he3⟩ := at1_ok he
  have hen : ((en : Int) - 1).toNat = en - 1 := by omega
  rw [hen] at he3
  have hd1 : d = -1 := by
    rcases h.bwd _ _ _ he3 with h1 | ⟨h1, _⟩
    · exact h1
    · omega
  refine ⟨?_, ?_, ?_, ?_⟩
  · intro k' hk'
    have hk' : m.get k' ≠ -1 := hk'
    show ∃ (n : Nat) (s : Str), m.get k' = (n : Int) + 1 ∧ (u.setMap en k).ents[n]? = some (s, k')
    rw [hget] at hk' ⊢
    by_cases hkk : k' = k
    · refine ⟨en - 1, s, by rw [if_pos hkk]; omega, ?_⟩
      rw [setMap_get, if_pos rfl, he3, hkk]
      rfl
    · rw [if_neg hkk] at hk' ⊢
      obtain ⟨n, s', h1, h2⟩ := h.fwd k' hk'
      refine ⟨n, s', h1, ?_⟩
      rw [setMap_get]
      split
      · rename_i hn
        subst hn
        rw [he3] at h2
        cases h2
        have := h.bwd _ _ _ he3
        rw [hd1, IntMap.get_neg _ _ (by omega)] at h1
        omega
      · exact h2
  · intro n s' k' hn
    have hn : (u.setMap en k).ents[n]? = some (s', k') := hn
    show k' = -1 ∨ (0 ≤ k' ∧ m.get k' = (n : Int) + 1)
    rw [setMap_get] at hn
    split at hn
    · rename_i hnn
      subst hnn
      rw [he3] at hn
      cases hn
      refine Or.inr ⟨hk0, ?_⟩
      rw [hget, if_pos rfl]
      omega
    · rcases h.bwd _ _ _ hn with h1 | ⟨h1, h2⟩
      · exact Or.inl h1
      · refine Or.inr ⟨h1, ?_⟩
        rw [hget, if_neg ?_]
        · exact h2
        · rintro rfl
          omega
  · intro k' hk'
    have hk' : m.get k' ≠ -1 := hk'
    show k' ≤ m.highest
    rw [hget] at hk'
    rw [hhi]
    split at hk'
    · omega
    · have := h.hi k' hk'
      omega
  · show 0 ≤ m.highest
    have := h.hi0
    omega

theorem UelStep.usrOk {lc : Lic} {a b : Uel} (h : UelStep lc a b) (hu : UsrOk a) : UsrOk b := by
  cases h with
  | add s h1 h2 h3 =>
    refine ⟨?_, ?_, hu.hi, hu.hi0⟩
    · intro k hk
      obtain ⟨n, s', h4, h5⟩ := hu.fwd k hk
      refine ⟨n, s', h4, ?_⟩
      have hn := (List.getElem?_eq_some_iff.mp h5).1
      show (a.ents ++ [(s, -1)])[n]? = _
      rw [List.getElem?_append_left hn]
      exact h5
    · intro n s' k hn
      have hn : (a.ents ++ [(s, -1)])[n]? = some (s', k) := hn
      rcases Nat.lt_or_ge n a.ents.length with hl | hl
      · rw [List.getElem?_append_left hl] at hn
        exact hu.bwd n s' k hn
      · rw [List.getElem?_append_right hl] at hn
        rcases Nat.eq_zero_or_pos (n - a.ents.length) with h0 | h0
        · rw [h0] at hn
          cases hn
          exact Or.inl rfl
        · rw [List.getElem?_eq_none (by simp; omega)] at hn
          cases hn
  | stat x h => exact ⟨hu.fwd, hu.bwd, hu.hi, hu.hi0⟩
  | newUsr en s d m h hd hm =>
    refine hu.assign h hd ?_ hm none
    by_contra hne
    have := hu.hi _ hne
    omega
  | confirm hi s d h1 h hd =>
    obtain ⟨g1, g2, g3⟩ := at1_ok h
    obtain ⟨n, s', h4, h5⟩ := hu.fwd hi (by omega)
    have hn : (a.usr.get hi - 1).toNat = n := by omega
    rw [hn, h5] at g3
    cases g3
    have hid : a.setMap (a.usr.get hi).toNat hi = a := by
      have : (a.setMap (a.usr.get hi).toNat hi).ents = a.ents := by
        apply List.ext_getElem?
        intro i
        rw [setMap_get]
        split
        · rename_i hi'
          have : i = n := by omega
          subst this
          rw [h5]
          rfl
        · rfl
      show ({ a with ents := (a.setMap (a.usr.get hi).toNat hi).ents } : Uel) = a
      rw [this]
    rw [hid]
    exact hu

theorem UsrOk.rename {u : Uel} (hu : UsrOk u) (n : Nat) (s : Str) : UsrOk (u.rename n s) := by
  have hget : ∀ i, (u.rename n s).ents[i]? = if n - 1 = i then (u.ents[i]?).map fun e => (s, e.2) else u.ents[i]? := by
    intro i
    unfold Uel.rename
    rw [List.getElem?_modify]
    split <;> simp
  refine ⟨?_, ?_, hu.hi, hu.hi0⟩
  · intro k hk
    obtain ⟨m, s', h4, h5⟩ := hu.fwd k hk
    by_cases hm : n - 1 = m
    · exact ⟨m, s, h4, by rw [hget, if_pos hm, h5]; rfl⟩
    · exact ⟨m, s', h4, by rw [hget, if_neg hm]; exact h5⟩
  · intro m s' k hm
    rw [hget] at hm
    split at hm
    · cases hx : u.ents[m]? with
      | none => rw [hx] at hm; cases hm
      | some e =>
        rw [hx] at hm
        cases hm
        exact hu.bwd m e.1 e.2 hx
    · exact hu.bwd m s' k hm

end Gdx
