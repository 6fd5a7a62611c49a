import Verif.Proofs.DiffOpen
import Verif.Props.Elements

/-!
`gdxdiff`: the numbers that the elements of the two files get.
-/

namespace Gdx.Diff
open Gdx Gdx.Props

theorem addUel_distinct {l : List Str} (h : Distinct false l) (s : Str) : Distinct false (addUel l s).1 ∧ (addUel l s).1.length ≤ l.length + 1 ∧
    (addUel l s).2 < (addUel l s).1.length := by
  unfold addUel
  cases hl : lookup false s l with
  | some n => exact ⟨h, Nat.le_succ _, lookup_lt hl⟩
  | none => exact ⟨h.append hl, by simp, by simp⟩

/-- of the elements of the table, the first `n` have the number of their name in UELTable, the others none -/
structure RegSt (us : List Str) (n : Nat) (u : Uel) : Prop where
  done : ∀ i s k, i < n → u.ents[i]? = some (s, k) → 0 ≤ k ∧ lookup false s us = some k.toNat
  todo : ∀ i s k, n ≤ i → u.ents[i]? = some (s, k) → k = -1

theorem trimR_of {s : Str} (h : trimRight s = s) : trimR s = .ok s := by
  unfold trimR
  simp only [h, Nat.lt_irrefl, false_and, if_false]

/-- the table after element `n` (from 0) has got number `m` -/
def regU (u : Uel) (n m : Nat) (um : IntMap) : Uel := { u.setMap (n + 1) m with usr := um, stat := none }

theorem regU_strs (u : Uel) (n m : Nat) (um : IntMap) : (regU u n m um).strs = u.strs := setMap_strs u (n + 1) m

theorem regU_length (u : Uel) (n m : Nat) (um : IntMap) : (regU u n m um).ents.length = u.ents.length := by
  show (u.ents.modify _ _).length = _
  rw [List.length_modify]

theorem regU_ents {u : Uel} {n m : Nat} {um : IntMap} {s : Str} {k : Int} (he : u.ents[n]? = some (s, k)) (i : Nat) :
    (regU u n m um).ents[i]? = if i = n then some (s, (m : Int)) else u.ents[i]? := by
  show (u.ents.modify (n + 1 - 1) fun e => (e.1, (m : Int)))[i]? = _
  rw [List.getElem?_modify]
  by_cases hi : i = n
  · subst hi
    simp [he]
  · rw [if_neg hi]
    simp [Ne.symm hi]

theorem regIndx {u : Uel} {n m : Nat} {s : Str} {um : IntMap} (hg : UelGood u)
    (he : u.ents[n]? = some (s, -1)) (hset : u.usr.set (m : Int) ((n + 1 : Nat) : Int) = .ok um) :
    u.addUsrIndxNew s m = .ok (regU u n m um, (m : Int)) := by
  have hstr : u.strs[n]? = some s := by unfold Uel.strs; rw [List.getElem?_map, he]; rfl
  have hlk : lookup false s u.strs = some n := hg.distinct.lookup hstr (sameName_refl false s)
  have hat : u.userMap ((n + 1 : Nat) : Int) = .ok (-1) := by
    unfold Uel.userMap
    rw [at1_of (a := (s, -1)) (by omega) (by rw [show (((n + 1 : Nat) : Int) - 1).toNat = n by omega]; exact he)]
    rfl
  have hao : u.addObject s = (u, n + 1) := by unfold Uel.addObject; rw [hlk]
  unfold Uel.addUsrIndxNew
  rw [hao]
  dsimp only
  rw [hat, Res.bind_ok, if_pos (by decide), hset, Res.bind_ok, Res.pure_eq]
  rfl

theorem regOne {g : Gx} {u : Uel} {n m : Nat} {s : Str} {um : IntMap} (hm : g.mode = .mapElem) (hu : g.uel = some u) (hg : UelGood u)
    (he : u.ents[n]? = some (s, -1)) (hset : u.usr.set (m : Int) ((n + 1 : Nat) : Int) = .ok um) :
    uelRegisterMap g m s = .ok ({ g with uel := some (regU u n m um) }, true) := by
  have hstr : u.strs[n]? = some s := by unfold Uel.strs; rw [List.getElem?_map, he]; rfl
  obtain ⟨hs1, hs2⟩ := hg.good s (List.mem_of_getElem? hstr)
  have hc : g.chk [.mapElem] = (g, true) := by
    rcases chk_cases g [.mapElem] with ⟨_, h⟩ | ⟨h, _⟩
    · exact h
    · exact absurd hm (by simpa using h)
  unfold uelRegisterMap
  rw [trimR_of hs2]
  simp only [Res.bind_ok, hc, hs1, hu, need, regIndx hg he hset, Bool.true_eq_false, if_false, Res.pure_eq]
  rw [if_pos (Int.natCast_nonneg m)]

theorem regFree {us us1 : List Str} {u : Uel} {n m : Nat} {s : Str} (hg : UelGood u) (ho : UsrOk u) (hr : RegSt us n u)
    (he : u.ents[n]? = some (s, -1)) (e1 : Ext us us1) (e2 : lookup false s us1 = some m) : u.usr.get m = -1 := by
  have hstr : u.strs[n]? = some s := by unfold Uel.strs; rw [List.getElem?_map, he]; rfl
  by_contra hne
  obtain ⟨i, y, h1, h2⟩ := ho.fwd m hne
  by_cases hi : i < n
  · obtain ⟨_, h3⟩ := hr.done i y m hi h2
    have h4 := e1 _ _ h3
    obtain ⟨w, w1, w2⟩ := lookup_some h4
    obtain ⟨w', w1', w2'⟩ := lookup_some e2
    rw [show ((m : Int)).toNat = m by omega, w1'] at w1
    cases w1
    have h5 : u.strs[i]? = some y := by unfold Uel.strs; rw [List.getElem?_map, h2]; rfl
    have := hg.distinct.eq h5 hstr (sameName_tr (sameName_comm w2) w2')
    omega
  · have := hr.todo i y m (by omega) h2
    omega

theorem regSt_next {us us1 : List Str} {u : Uel} {n m : Nat} {s : Str} {um : IntMap} (hr : RegSt us n u) (he : u.ents[n]? = some (s, -1))
    (e1 : Ext us us1) (e2 : lookup false s us1 = some m) : RegSt us1 (n + 1) (regU u n m um) := by
  refine ⟨?_, ?_⟩
  · intro i t q hi hq
    rw [regU_ents he] at hq
    split at hq
    · cases hq
      exact ⟨by omega, by simpa using e2⟩
    · obtain ⟨a1, a2⟩ := hr.done i t q (by omega) hq
      exact ⟨a1, e1 _ _ a2⟩
  · intro i t q hi hq
    rw [regU_ents he, if_neg (by omega)] at hq
    exact hr.todo i t q (by omega) hq

/-- several strings are added to UELTable -/
def addUels (us ss : List Str) : List Str := ss.foldl (fun l s => (addUel l s).1) us

theorem regFile_labels {C : Nat} (hC : ∀ m : Nat, m < C → (m : Int) < maxCapacity) : ∀ {k n : Nat} {g : Gx} {us : List Str} {u : Uel},
    g.mode = .mapElem → g.uel = some u → UelGood u → UsrOk u → RegSt us n u →
    n + k = u.ents.length → Distinct false us → us.length + k ≤ C → (k = 0 → u.stat = none) →
    ∃ u' us', regFile k ((n : Int) + 1) g us = .ok ({ g with uel := some u' }, us') ∧ u'.strs = u.strs ∧ UsrOk u' ∧ RegSt us' u.ents.length u' ∧
      Distinct false us' ∧ Ext us us' ∧ us'.length ≤ us.length + k ∧ u'.stat = none ∧
      (∀ M : Int, u.usr.highest ≤ M → (us.length + k : Int) ≤ M + 1 → u'.usr.highest ≤ M) ∧ us' = addUels us (u.strs.drop n)
  | 0, n, g, us, u, hm, hu, hg, ho, hr, hk, hd, hc, hs => by
    refine ⟨u, us, ?_, rfl, ho, by rw [← hk]; exact hr, hd, Ext.refl _, Nat.le_refl _, hs rfl, fun M h _ => h, by
      rw [List.drop_of_length_le (by unfold Uel.strs; rw [List.length_map]; omega)]
      rfl⟩
    unfold regFile
    rw [← hu]
  | k + 1, n, g, us, u, hm, hu, hg, ho, hr, hk, hd, hc, hs => by
    have hn : n < u.ents.length := by omega
    obtain ⟨⟨s, j⟩, he⟩ : ∃ e, u.ents[n]? = some e := ⟨_, List.getElem?_eq_getElem hn⟩
    have hj : j = -1 := hr.todo n s j (Nat.le_refl _) he
    subst hj
    have hge : GoodElems g := fun v hv => by rw [hu] at hv; cases hv; exact hg
    obtain ⟨e1, e2⟩ := addUel_ext us s
    obtain ⟨d1, d2, d3⟩ := addUel_distinct hd s
    unfold regFile
    rw [umUelGet_in hge hu he]
    simp only [Res.bind_ok]
    generalize hadd : addUel us s = p at e1 e2 d1 d2 d3
    obtain ⟨us1, m⟩ := p
    dsimp only at e1 e2 d1 d2 d3 ⊢
    have hmc : m < C := by omega
    obtain ⟨um, hset, hget, hhi⟩ := u.usr.set_spec (m : Int) ((n + 1 : Nat) : Int) ⟨Int.natCast_nonneg _, hC m hmc⟩
    rw [regOne hm hu hg he hset]
    simp only [Res.bind_ok]
    have hat : at1 u.ents (((n + 1 : Nat) : Int)) = .ok (s, -1) :=
      at1_of (by omega) (by rw [show (((n + 1 : Nat) : Int) - 1).toNat = n by omega]; exact he)
    have ho' : UsrOk (regU u n m um) := ho.assign hat (by omega) (regFree hg ho hr he e1 e2) hset none
    have hlen := regU_length u n m um
    have hstrs := regU_strs u n m um
    obtain ⟨u', us', i1, i2, i3, i4, i5, i6, i7, i8, i9, i10⟩ := regFile_labels hC (k := k) (n := n + 1)
      (g := { g with uel := some (regU u n m um) }) (us := us1) (u := regU u n m um) hm rfl
      ⟨by rw [hstrs]; exact hg.distinct, by rw [hstrs]; exact hg.good⟩ ho' (regSt_next hr he e1 e2)
      (by rw [hlen]; omega) d1 (by omega) (fun _ => rfl)
    refine ⟨u', us', ?_, i2.trans hstrs, i3, by rw [← hlen]; exact i4, i5, e1.trans i6, by omega, i8, fun M h1 h2 => i9 M ?_ (by omega), ?_⟩
    · rw [show ((n : Int) + 1) = ((n + 1 : Nat) : Int) from rfl]
      exact i1
    · show um.highest ≤ M
      rw [hhi]
      omega
    · have hsn : u.strs[n]? = some s := by
        unfold Uel.strs
        rw [List.getElem?_map, he]
        rfl
      obtain ⟨hlt, hs⟩ := List.getElem?_eq_some_iff.mp hsn
      rw [i10, hstrs, List.drop_eq_getElem_cons hlt, hs]
      unfold addUels
      rw [List.foldl_cons, hadd]

end Gdx.Diff
