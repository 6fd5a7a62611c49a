import Verif.Proofs.UelInv

/-!
C11, C12, C13, C40: the element table and the user numbers, as seen through the API.

Histories start with a new object. What an opened file contains is up to its writer, so the theorems about all histories
ask that every opening of an existing file left a table without equal or illegal strings (`OpensOk GoodElems`); for files
written by this library that is C06.
-/

namespace Gdx.Props

open Gdx Gdx.Spec

/-! ### C11 -/

/-- C11: after any history no two elements are equal up to ASCII case -/
theorem C11_unique (e : Env) (z : Cz) (cs : List Call) (g : Gx) (hc : ∀ c ∈ cs, c.WF)
    (ho : OpensOk GoodElems e z Gx.new cs) (h : run e z Gx.new cs = .ok g) (u : Uel) (hu : g.uel = some u) :
    u.strs.Pairwise fun a b => ¬ SameNoCase a b := by
  have := ((GoodElems.run e z cs Gx.new hc aft_new GoodElems.new ho).of_ok h).2 u hu
  refine this.distinct.imp ?_
  intro a b hab hs
  exact hab hs

/-- C11: after any history every element is a legal string without trailing blanks -/
theorem C11_legal (e : Env) (z : Cz) (cs : List Call) (g : Gx) (hc : ∀ c ∈ cs, c.WF)
    (ho : OpensOk GoodElems e z Gx.new cs) (h : run e z Gx.new cs = .ok g) : GoodElems g :=
  ((GoodElems.run e z cs Gx.new hc aft_new GoodElems.new ho).of_ok h).2

theorem fits_of {n : Nat} {s : Str} (h : s.length < n) : fits n s = .ok s := by unfold fits; rw [if_pos h]

theorem umUelGet_in {g : Gx} {u : Uel} (hg : GoodElems g) (hu : g.uel = some u) {n : Nat} {s : Str} {m : Int}
    (h : u.ents[n]? = some (s, m)) : umUelGet g ((n : Int) + 1) = .ok (true, s, m) := by
  have hn := (List.getElem?_eq_some_iff.mp h).1
  have hs : s ∈ u.strs := by
    refine List.mem_map.mpr ⟨(s, m), List.mem_of_getElem? h, rfl⟩
  unfold umUelGet
  rw [hu]
  simp only
  rw [if_pos ⟨by omega, by unfold Uel.size; omega⟩]
  unfold Uel.str Uel.userMap
  rw [at1_nat h]
  simp only [Res.bind_ok, Res.pure_eq]
  rw [fits_of (goodUEL_length ((hg u hu).good s hs).1)]
  rfl

/-- C11: the numbers are exactly 1 .. count -/
theorem C11_numbers (g : Gx) (hg : GoodElems g) (n : Int) :
    ∃ b s m, umUelGet g n = .ok (b, s, m) ∧ (b = true ↔ 1 ≤ n ∧ n ≤ (systemInfo g).2) := by
  unfold systemInfo
  cases hu : g.uel with
  | none =>
    refine ⟨_, _, _, by unfold umUelGet; rw [hu], ?_⟩
    simp only [Option.map_none, Option.getD_none]
    constructor
    · intro h; cases h
    · intro h; omega
  | some u =>
    simp only [Option.map_some, Option.getD_some]
    by_cases hn : 1 ≤ n ∧ n ≤ u.size
    · obtain ⟨⟨s, m⟩, hx⟩ := at1_total (l := u.ents) hn.1 hn.2
      obtain ⟨h1, h2, h3⟩ := at1_ok hx
      have := umUelGet_in hg hu h3
      rw [show (((n - 1).toNat : Nat) : Int) + 1 = n by omega] at this
      exact ⟨_, _, _, this, by simp [hn]⟩
    · refine ⟨false, badUelPrefix ++ intToStr n, -1, ?_, ?_⟩
      · unfold umUelGet
        rw [hu]
        simp only
        rw [if_neg hn]
      · simp [hn]

/-- C11: looking for a string, with any capitalisation and any trailing blanks, finds the number it was got from -/
theorem C11_find_get (g : Gx) (hg : GoodElems g) (n : Int) (s t t' : Str) (m : Int) (h : umUelGet g n = .ok (true, s, m))
    (ht : trimR t = .ok t') (hs : SameNoCase s t') : umFindUEL g t = .ok (true, n, m) := by
  unfold umUelGet at h
  cases hu : g.uel with
  | none => rw [hu] at h; cases h
  | some u =>
    rw [hu] at h
    simp only at h
    split at h
    · rename_i hn
      obtain ⟨⟨x, k⟩, hx⟩ := at1_total (l := u.ents) hn.1 hn.2
      unfold Uel.str Uel.userMap at h
      rw [hx] at h
      simp only [Res.bind_ok, Res.pure_eq] at h
      obtain ⟨h1, h2, h3⟩ := at1_ok hx
      have hxs : x ∈ u.strs := List.mem_map.mpr ⟨(x, k), List.mem_of_getElem? h3, rfl⟩
      rw [fits_of (goodUEL_length ((hg u hu).good x hxs).1)] at h
      cases h
      have hl : lookup false t' u.strs = some (n - 1).toNat := by
        refine (hg u hu).distinct.lookup (x := s) ?_ hs
        unfold Uel.strs
        rw [List.getElem?_map, h3]
        rfl
      have hi : u.indexOf t' = n := by
        unfold Uel.indexOf indexOf1
        rw [hl]
        simp only
        omega
      unfold umFindUEL
      rw [hu]
      simp only
      rw [ht]
      simp only [Res.bind_ok]
      rw [hi, if_neg (by omega)]
      unfold Uel.userMap
      rw [hx]
      rfl
    · cases h

/-- C11: a string that is found is, up to capitalisation and trailing blanks, the string of the number -/
theorem C11_get_find (g : Gx) (hg : GoodElems g) (t t' : Str) (n m : Int) (ht : trimR t = .ok t')
    (h : umFindUEL g t = .ok (true, n, m)) : ∃ s, umUelGet g n = .ok (true, s, m) ∧ SameNoCase s t' := by
  unfold umFindUEL at h
  cases hu : g.uel with
  | none => rw [hu] at h; cases h
  | some u =>
    rw [hu] at h
    simp only at h
    rw [ht] at h
    simp only [Res.bind_ok] at h
    split at h
    · cases h
    · obtain ⟨k, hk, hk'⟩ := Res.bind_eq_ok.mp h
      cases hk'
      rename_i hpos
      unfold Uel.indexOf at *
      rcases indexOf1_cases false t' u.strs with ⟨h1, h2⟩ | ⟨j, h1, h2⟩
      · rw [h2] at hpos; omega
      · rw [h2] at hk ⊢
        obtain ⟨s, hs⟩ := userMap_ok hk
        obtain ⟨h3, h4, h5⟩ := at1_ok hs
        rw [show ((j : Int) + 1 - 1).toNat = j by omega] at h5
        refine ⟨s, umUelGet_in hg hu h5, ?_⟩
        obtain ⟨x, h6, h7⟩ := lookup_some h1
        unfold Uel.strs at h6
        rw [List.getElem?_map, h5] at h6
        cases h6
        exact h7

/-- C11: no call other than gdxRenameUEL, gdxClose and an opening changes the string of a number -/
theorem C11_stable (e : Env) (z : Cz) (g g' : Gx) (c : Call) (u : Uel) (hc : c.WF) (ha : Aft g)
    (hr : c.opensRead = false) (hw : c.opensWrite = false) (hcl : c ≠ .close) (hn : ∀ o s, c ≠ .renameUEL o s)
    (hu : g.uel = some u) (h : step e z g c = .ok g') :
    ∃ u', g'.uel = some u' ∧ ∀ (n : Nat) (s : Str), u.strs[n]? = some s → u'.strs[n]? = some s := by
  let P : Gx → Prop := fun x => ∃ u', x.uel = some u' ∧ KeepStrs u u'
  have hP : P g := ⟨u, hu, [], by simp⟩
  have hprim : ∀ a b, Prim .all a b → P a → P b := by
    rintro a b hab ⟨v, hv, hk⟩
    cases hab with
    | ctrl h _ _ => exact ⟨v, (congrArg Core.uel h).trans hv, hk⟩
    | uel w w' hw hs =>
      rw [hw] at hv
      cases hv
      exact ⟨w', rfl, hk.trans hs.keep⟩
    | _ => exact ⟨v, hv, hk⟩
  have key : P g' := by
    by_cases hsp : c.special = false
    · exact ((step_evo e z g c hc hsp ha).mono fun g' hg' => hg'.toAll.inv hprim hP).of_ok h
    · cases c with
      | openWrite => cases hw
      | openRead => cases hr
      | openAppend => cases hr
      | close => exact absurd rfl hcl
      | renameUEL o s => exact absurd rfl (hn o s)
      | uelMap k s =>
        refine (stateOf_all (uelRegisterMap_inv (P := P) hprim ?_ k s hP)).of_ok h
        rintro x v v' hv hj ⟨v1, hv1, hk⟩
        rw [hv] at hv1
        cases hv1
        refine ⟨v', rfl, hk.trans ?_⟩
        obtain ⟨en, s, d, k, m, h, hd, hm⟩ := hj
        refine ⟨[], ?_⟩
        rw [List.append_nil]
        exact setMap_strs v _ _
      | getLastError => cases h; exact hP
      | _ => exact absurd rfl hsp
  obtain ⟨u', hu', t, ht⟩ := key
  refine ⟨u', hu', ?_⟩
  intro n s hs
  rw [ht, List.getElem?_append_left (List.getElem?_eq_some_iff.mp hs).1]
  exact hs

/-! ### C12 -/

/-- the user numbers of an object correspond to its elements -/
def UsrCons (g : Gx) : Prop := ∀ u, g.uel = some u → UsrOk u

/-- the call does not give a user number that is in use to a different string (gdxUELRegisterMap does not check this) -/
def NoReuse (g : Gx) (c : Call) : Prop :=
  ∀ k s u, c = .uelMap k s → g.uel = some u → ∀ (n : Nat) (x : Str), u.ents[n]? = some (x, k) → SameNoCase x (trimRight s)

theorem UsrCons.prim : ∀ a b, Prim .all a b → UsrCons a → UsrCons b := by
  intro a b h hg
  cases h with
  | ctrl h _ _ => intro u hu; exact hg u (by rw [← show b.uel = a.uel from congrArg Core.uel h]; exact hu)
  | uel u u' hu hs => intro v hv; cases hv; exact hs.usrOk (hg u hu)
  | _ => exact hg

theorem addObject_usrOk {u : Uel} {s : Str} (hg : goodUEL s = true) (ht : trimRight s = s) (h : UsrOk u) :
    UsrOk (u.addObject s).1 := by
  unfold Uel.addObject
  split
  · exact h
  · rename_i hl
    exact UelStep.usrOk (lc := fun _ => True) (.add u s hg ht hl (Or.inr trivial)) h

theorem addObject_at {u : Uel} {s : Str} : ∃ x, at1 (u.addObject s).1.ents (u.addObject s).2 = .ok x ∧ SameNoCase x.1 s := by
  unfold Uel.addObject
  cases hl : lookup false s u.strs with
  | some n =>
    simp only
    obtain ⟨x, h1, h2⟩ := lookup_some hl
    unfold Uel.strs at h1
    rw [List.getElem?_map] at h1
    cases h3 : u.ents[n]? with
    | none => rw [h3] at h1; cases h1
    | some y =>
      rw [h3] at h1
      cases h1
      exact ⟨y, at1_nat h3, h2⟩
  | none =>
    simp only
    refine ⟨(s, -1), at1_nat ?_, sameName_refl false s⟩
    rw [List.getElem?_append_right (Nat.le_refl _)]
    simp

theorem addObject_usr (u : Uel) (s : Str) : (u.addObject s).1.usr = u.usr := by
  unfold Uel.addObject
  split <;> rfl

/-- entries with a user number are not touched -/
theorem addObject_ents (u : Uel) (s : Str) (n : Nat) (x : Str) (k : Int) (hk : 0 ≤ k)
    (h : (u.addObject s).1.ents[n]? = some (x, k)) : u.ents[n]? = some (x, k) := by
  unfold Uel.addObject at h
  split at h
  · exact h
  · rcases Nat.lt_or_ge n u.ents.length with hl | hl
    · simpa [List.getElem?_append_left hl] using h
    · simp only [List.getElem?_append_right hl] at h
      rcases Nat.eq_zero_or_pos (n - u.ents.length) with h0 | h0
      · rw [h0] at h
        simp at h
        omega
      · rw [List.getElem?_eq_none (by simp; omega)] at h
        cases h

theorem uelRegisterMap_usr {g : Gx} (k : Int) (s : Str) (hgood : GoodElems g) (h : UsrCons g)
    (hr : NoReuse g (.uelMap k s)) : (uelRegisterMap g k s).All fun x => UsrCons x.1 := by
  unfold uelRegisterMap
  refine Res.All.bind' ?_
  intro t ht
  rcases chk_cases g [.mapElem] with ⟨hm, hc⟩ | ⟨hm, hc⟩
  · rw [hc]
    simp only [Bool.true_eq_false, if_false]
    split
    · exact h
    rename_i hgd
    have hgd : goodUEL t = true := by simpa using hgd
    refine Res.All.bind' ?_
    intro u hu
    have hu := need_ok hu
    have htt := trimR_trimmed ht
    have h0 := addObject_usrOk hgd htt (h u hu)
    have hgo : UelGood (u.addObject t).1 := by
      unfold Uel.addObject
      split
      · exact hgood u hu
      · rename_i hl
        exact UelStep.good (lc := fun _ => True) (.add u t hgd htt hl (Or.inr trivial)) (hgood u hu)
    refine Res.All.bind (Q := fun r => UsrOk r.1) ?_ ?_
    · unfold Uel.addUsrIndxNew
      simp only
      obtain ⟨x, hx1, hx2⟩ := addObject_at (u := u) (s := t)
      refine Res.All.bind' ?_
      intro d hd
      obtain ⟨s', hs'⟩ := userMap_ok hd
      rw [hx1] at hs'
      cases hs'
      split
      · rename_i hneg
        refine Res.All.bind' ?_
        intro m hm
        refine h0.assign hx1 hneg ?_ hm none
        by_contra hne
        obtain ⟨n, y, h1, h2⟩ := h0.fwd k hne
        have hk0 : 0 ≤ k := (IntMap.set_ok hm).1
        have hy := hr k s u rfl hu n y (addObject_ents u t n y k hk0 h2)
        rw [← trimR_ok ht] at hy
        obtain ⟨g1, g2, g3⟩ := at1_ok hx1
        have e1 : (u.addObject t).1.strs[n]? = some y := by unfold Uel.strs; rw [List.getElem?_map, h2]; rfl
        have e2 : (u.addObject t).1.strs[(((u.addObject t).2 : Int) - 1).toNat]? = some s' := by
          unfold Uel.strs; rw [List.getElem?_map, g3]; rfl
        have := hgo.distinct.eq e1 e2 (sameName_tr (cs := false) hy (sameName_comm (cs := false) hx2))
        rw [← this, h2] at g3
        cases g3
        omega
      · split
        · exact UelStep.usrOk (lc := fun _ => True) (.stat _ none (Or.inl rfl)) h0
        · exact UelStep.usrOk (lc := fun _ => True) (.stat _ none (Or.inl rfl)) h0
    · rintro ⟨u', n⟩ hP
      simp only at hP ⊢
      split
      · intro v hv; cases hv; exact hP
      · intro v hv; cases hv; exact hP
  · rw [hc]
    exact h

theorem UsrCons.openWrite (e : Env) (g : Gx) (n : Bool) (i : Int) (p : Str) (c : Int) (hg : UsrCons g) :
    (openWriteEx e g n i p c).All fun x => UsrCons x.1 := by
  unfold openWriteEx
  split
  · exact hg
  split
  · exact hg
  split
  · exact hg
  refine Res.All.bind' ?_
  intro h _ u hu
  cases hu
  exact UsrOk.empty

/-- both invariants over a history -/
theorem usr_run (e : Env) (z : Cz) (cs : List Call) (g0 g : Gx) (hc : ∀ c ∈ cs, c.WF) (ha : Aft g0) (h0 : GoodElems g0)
    (h1 : UsrCons g0)
    (ho : Along (fun g c g' => NoReuse g c ∧ (c.opensRead = true → GoodElems g' ∧ UsrCons g')) e z g0 cs)
    (h : run e z g0 cs = .ok g) : GoodElems g ∧ UsrCons g := by
  refine ((run_all (P := fun x => GoodElems x ∧ UsrCons x) e z ?_ cs g0 hc ha ⟨h0, h1⟩ ho).of_ok h).2
  rintro g c g' hc ha hg' ⟨hq1, hq2⟩ ⟨hg, hu⟩
  by_cases hr : c.opensRead = false
  · by_cases hw : c.opensWrite = false
    · refine ⟨(step_inv GoodElems.prim (fun _ _ _ h => h) (fun _ _ u hu => by cases hu) GoodElems.jump (fun _ h => h)
        e z hc hr hw ha hg).of_ok hg', ?_⟩
      refine (step_inv' (P := UsrCons) UsrCons.prim (fun _ _ _ h => h) (fun _ _ u hu => by cases hu) (fun _ h => h)
        e z hc hr hw ha ?_ ?_ hu).of_ok hg'
      · intro k s hck
        exact uelRegisterMap_usr k s hg hu (hck ▸ hq1)
      · intro o s _
        refine renameUEL_inv (P := UsrCons) ?_ o s hu
        rintro x u u' hu ⟨n, s, _, _, _, _, _⟩ hx v hv
        cases hv
        exact (hx u hu).rename n s
    · cases c with
      | openWrite n i p k =>
        exact ⟨(stateOf_all (GoodElems.openWrite e g n i p k hg)).of_ok hg',
          (stateOf_all (UsrCons.openWrite e g n i p k hu)).of_ok hg'⟩
      | _ => exact absurd rfl hw
  · exact hq2 (by simpa using hr)

/-- C12, in a state with the invariants: gdxGetUEL and gdxUMFindUEL are inverse to each other -/
theorem C12_correspond_state (g : Gx) (hg : GoodElems g) (hu : UsrCons g) (k : Int) (s : Str) :
    getUEL g k = .ok (true, s) ↔ 0 ≤ k ∧ ∃ n, umFindUEL g s = .ok (true, n, k) ∧ umUelGet g n = .ok (true, s, k) := by
  cases huel : g.uel with
  | none =>
    unfold getUEL umFindUEL
    rw [huel]
    simp
  | some u =>
    have hok := hu u huel
    constructor
    · intro h
      unfold getUEL at h
      rw [huel] at h
      simp only at h
      split at h
      · rename_i hk
        obtain ⟨n, x, h1, h2⟩ := hok.fwd k (by omega)
        have hk0 : 0 ≤ k := by
          by_contra hneg
          rw [IntMap.get_neg _ _ (by omega)] at hk
          omega
        unfold Uel.str at h
        rw [h1, at1_nat h2] at h
        simp only [Res.bind_ok, Res.pure_eq] at h
        have hx : x ∈ u.strs := List.mem_map.mpr ⟨(x, k), List.mem_of_getElem? h2, rfl⟩
        rw [fits_of (goodUEL_length ((hg u huel).good x hx).1)] at h
        cases h
        have hget := umUelGet_in hg huel h2
        refine ⟨hk0, (n : Int) + 1, C11_find_get g hg _ s s s k hget ?_ (sameName_refl false s), hget⟩
        unfold trimR
        simp only
        rw [((hg u huel).good s hx).2, if_neg (by omega)]
      · cases h
    · rintro ⟨hk, n, h1, h2⟩
      unfold umUelGet at h2
      rw [huel] at h2
      simp only at h2
      split at h2
      · rename_i hn
        obtain ⟨⟨x, d⟩, hx⟩ := at1_total (l := u.ents) hn.1 hn.2
        obtain ⟨h3, h4, h5⟩ := at1_ok hx
        unfold Uel.str Uel.userMap at h2
        rw [hx] at h2
        simp only [Res.bind_ok, Res.pure_eq] at h2
        have hxs : x ∈ u.strs := List.mem_map.mpr ⟨(x, d), List.mem_of_getElem? h5, rfl⟩
        rw [fits_of (goodUEL_length ((hg u huel).good x hxs).1)] at h2
        cases h2
        rcases hok.bwd _ _ _ h5 with h6 | ⟨_, h6⟩
        · omega
        · unfold getUEL
          rw [huel]
          simp only
          rw [h6, if_pos (by omega)]
          unfold Uel.str
          rw [at1_nat h5]
          simp only [Res.bind_ok, Res.pure_eq]
          rw [fits_of (goodUEL_length ((hg u huel).good s hxs).1)]
          rfl
      · cases h2

/-- C12 over all histories. Missing for the full claim: calls of gdxUELRegisterMap that give a user number that is already
    in use to a different string are excluded (`NoReuse`); they are accepted and break the correspondence
    (`C12_counterexample`). -/
theorem C12_correspond_partial (e : Env) (z : Cz) (cs : List Call) (g : Gx) (hc : ∀ c ∈ cs, c.WF)
    (ho : Along (fun g c g' => NoReuse g c ∧ (c.opensRead = true → GoodElems g' ∧ UsrCons g')) e z Gx.new cs)
    (h : run e z Gx.new cs = .ok g) (k : Int) (s : Str) :
    getUEL g k = .ok (true, s) ↔ 0 ≤ k ∧ ∃ n, umFindUEL g s = .ok (true, n, k) ∧ umUelGet g n = .ok (true, s, k) := by
  obtain ⟨h1, h2⟩ := usr_run e z cs Gx.new g hc aft_new GoodElems.new (by intro u hu; cases hu) ho h
  exact C12_correspond_state g h1 h2 k s

/-- the string `s` in the table `u`, if it is there, has user number `d` (-1: none) -/
def UserNr (u : Uel) (s : Str) (d : Int) : Prop := ∀ (n : Nat) (x : Str) (k : Int), u.ents[n]? = some (x, k) → SameNoCase x s → k = d

theorem addObject_fresh {u : Uel} {t : Str} (hf : UserNr u t (-1)) :
    ∃ x, at1 (u.addObject t).1.ents (u.addObject t).2 = .ok (x, -1) ∧ SameNoCase x t := by
  obtain ⟨⟨x, d⟩, h1, h2⟩ := addObject_at (u := u) (s := t)
  refine ⟨x, ?_, h2⟩
  obtain ⟨h3, h4, h5⟩ := at1_ok h1
  by_cases hd : d = -1
  · rw [h1, hd]
  · unfold Uel.addObject at h5
    cases hl : lookup false t u.strs with
    | some j =>
      rw [hl] at h5
      simp only at h5
      exact absurd (hf _ _ _ h5 h2) hd
    | none =>
      rw [hl] at h5
      simp only at h5
      rw [show ((u.ents.length + 1 : Nat) : Int) - 1 = (u.ents.length : Int) by omega, Int.toNat_natCast,
        List.getElem?_append_right (Nat.le_refl _)] at h5
      simp only [Nat.sub_self, List.getElem?_cons_zero, Option.some.injEq, Prod.mk.injEq] at h5
      exact absurd h5.2.symm hd

theorem lookup_snoc_self (t : Str) : ∀ l : List Str, lookup false t (l ++ [t]) = some l.length
  | [] => by
    have := (sameText_iff false t t).mpr (sameName_refl false t)
    simp [lookup, this]
  | a :: l => by rw [List.cons_append, lookup, lookup_snoc_self t l]; simp

theorem addObject_indexOf (u : Uel) (t : Str) (v : Uel) (hv : v.strs = (u.addObject t).1.strs) :
    v.indexOf t = (u.addObject t).2 := by
  unfold Uel.indexOf indexOf1
  rw [hv]
  unfold Uel.addObject
  cases hl : lookup false t u.strs with
  | some j => simp only; rw [hl]; simp
  | none =>
    simp only
    have : lookup false t ({ u with ents := u.ents ++ [(t, (-1 : Int))] } : Uel).strs = some u.ents.length := by
      unfold Uel.strs
      rw [List.map_append]
      have h2 := lookup_snoc_self t (u.ents.map Prod.fst)
      simpa using h2
    rw [this]
    simp

/-- C12: a string without user number gets the requested one -/
theorem C12_register_fresh (g : Gx) (u : Uel) (k : Int) (s t : Str) (hm : g.mode = .mapElem) (hu : g.uel = some u)
    (ht : trimR s = .ok t) (hs : goodUEL t = true) (hk : 0 ≤ k ∧ k < 2147483648) (hf : UserNr u t (-1)) :
    ∃ g' u', uelRegisterMap g k s = .ok (g', true) ∧ g'.uel = some u' ∧ u'.usr.get k = u'.indexOf t ∧ 1 ≤ u'.indexOf t ∧
      u'.userMap (u'.indexOf t) = .ok k := by
  obtain ⟨x, hx1, hx2⟩ := addObject_fresh hf
  obtain ⟨m, hm1, hm2, hm3⟩ := IntMap.set_spec u.usr k (u.addObject t).2 ⟨hk.1, by unfold maxCapacity; omega⟩
  obtain ⟨g1, g2, g3⟩ := at1_ok hx1
  refine ⟨{ g with uel := some { (u.addObject t).1.setMap (u.addObject t).2 k with usr := m, stat := none } }, _, ?_, rfl, ?_⟩
  · unfold uelRegisterMap
    rw [ht]
    simp only [Res.bind_ok]
    rw [show g.chk [.mapElem] = (g, true) by unfold Gx.chk; rw [if_pos (by rw [hm]; decide)]]
    simp only [Bool.true_eq_false, if_false, hs]
    rw [hu]
    simp only [need, Res.bind_ok]
    unfold Uel.addUsrIndxNew
    simp only
    unfold Uel.userMap
    rw [hx1]
    simp only [Res.bind_ok, Res.pure_eq]
    rw [if_pos (by omega), addObject_usr, hm1]
    simp only [Res.bind_ok]
    rw [if_pos hk.1]
  · have hv := addObject_indexOf u t { (u.addObject t).1.setMap (u.addObject t).2 k with usr := m, stat := none }
      (setMap_strs (u.addObject t).1 (u.addObject t).2 k)
    rw [hv]
    refine ⟨?_, by omega, ?_⟩
    · show m.get k = _
      rw [hm2, if_pos rfl]
    · unfold Uel.userMap
      have : at1 ((u.addObject t).1.setMap (u.addObject t).2 k).ents ((u.addObject t).2 : Int) = .ok (x, k) := by
        refine at1_of (by omega) ?_
        rw [setMap_get, if_pos (by omega), g3]
        rfl
      show (at1 ((u.addObject t).1.setMap (u.addObject t).2 k).ents ((u.addObject t).2 : Int) >>= fun e => pure e.2) = _
      rw [this]
      rfl

/-- C12: a pair that is already registered is accepted and nothing changes (but a cached status is forgotten) -/
theorem C12_register_again (g : Gx) (u : Uel) (k : Int) (s t x : Str) (n : Nat) (hm : g.mode = .mapElem)
    (hu : g.uel = some u) (hd : UelGood u) (ht : trimR s = .ok t) (hs : goodUEL t = true) (hk : 0 ≤ k)
    (hx : u.ents[n]? = some (x, k)) (hxt : SameNoCase x t) :
    uelRegisterMap g k s = .ok ({ g with uel := some { u with stat := none } }, true) := by
  have hl : lookup false t u.strs = some n :=
    hd.distinct.lookup (by unfold Uel.strs; rw [List.getElem?_map, hx]; rfl) hxt
  unfold uelRegisterMap
  rw [ht]
  simp only [Res.bind_ok]
  rw [show g.chk [.mapElem] = (g, true) by unfold Gx.chk; rw [if_pos (by rw [hm]; decide)]]
  simp only [Bool.true_eq_false, if_false, hs]
  rw [hu]
  simp only [need, Res.bind_ok]
  unfold Uel.addUsrIndxNew Uel.addObject
  rw [hl]
  simp only
  unfold Uel.userMap
  rw [show ((n + 1 : Nat) : Int) = (n : Int) + 1 by omega, at1_nat hx]
  simp only [Res.bind_ok, Res.pure_eq]
  rw [if_neg (by omega), if_neg (by simp)]
  simp only [Res.bind_ok]
  rw [if_pos hk]

/-- C12: a string that has another user number is refused; the table does not change -/
theorem C12_register_conflict (g : Gx) (u : Uel) (k d : Int) (s t x : Str) (n : Nat) (hm : g.mode = .mapElem)
    (hu : g.uel = some u) (hd : UelGood u) (ht : trimR s = .ok t) (hs : goodUEL t = true) (hk : 0 ≤ d) (hne : d ≠ k)
    (hx : u.ents[n]? = some (x, d)) (hxt : SameNoCase x t) :
    uelRegisterMap g k s = .ok (({ g with uel := some { u with stat := none } }).raise Err.uelConflict, false) := by
  have hl : lookup false t u.strs = some n :=
    hd.distinct.lookup (by unfold Uel.strs; rw [List.getElem?_map, hx]; rfl) hxt
  unfold uelRegisterMap
  rw [ht]
  simp only [Res.bind_ok]
  rw [show g.chk [.mapElem] = (g, true) by unfold Gx.chk; rw [if_pos (by rw [hm]; decide)]]
  simp only [Bool.true_eq_false, if_false, hs]
  rw [hu]
  simp only [need, Res.bind_ok]
  unfold Uel.addUsrIndxNew Uel.addObject
  rw [hl]
  simp only
  unfold Uel.userMap
  rw [show ((n + 1 : Nat) : Int) = (n : Int) + 1 by omega, at1_nat hx]
  simp only [Res.bind_ok, Res.pure_eq]
  rw [if_neg (by omega), if_pos hne]
  simp only [Res.bind_ok]
  rw [if_neg (by omega)]

/-- C12 fails: user number 1 is given to "A" and then to "B". Both calls succeed, gdxGetUEL(1) is "B", and "A" still
    claims user number 1. -/
theorem C12_counterexample :
    after [.openWrite false 0 [] 0, .uelMapStart, .uelMap 1 [65]] (fun g => do
      let (g, ok) ← uelRegisterMap g 1 [66]
      let a ← getUEL g 1
      let b ← umFindUEL g [65]
      let c ← umFindUEL g [66]
      pure [ok, decide (a = (true, [66])), decide (b = (true, 1, 1)), decide (c = (true, 2, 1))]) =
    .ok [true, true, true, true] := by
  decide +kernel

/-- not vacuous: a history with a registered pair, an element number and both directions -/
example : after [.openWrite false 0 [] 0, .uelRawStart, .uelRaw [90], .uelDone, .uelMapStart, .uelMap 7 [65]] (fun g => do
    let a ← getUEL g 7
    let b ← umFindUEL g [97]
    pure (a, b)) = .ok ((true, [65]), (true, 2, 7)) := by
  decide +kernel

/-! ### C13 -/


/-- C13: a string that is not yet in the user space gets the next higher user number -/
theorem C13_next (g : Gx) (u : Uel) (s t : Str) (hm : g.mode = .strElem) (hu : g.uel = some u) (ht : trimR s = .ok t)
    (hs : goodUEL t = true) (hf : UserNr u t (-1)) (hi : 0 ≤ u.usr.highest ∧ u.usr.highest + 1 < 2147483648) :
    ∃ g' u', uelRegisterStr g s = .ok (g', (true, u.usr.highest + 1)) ∧ g'.uel = some u' ∧
      u'.usr.highest = u.usr.highest + 1 ∧ u'.usr.get (u.usr.highest + 1) = u'.indexOf t ∧ 1 ≤ u'.indexOf t ∧
      u'.userMap (u'.indexOf t) = .ok (u.usr.highest + 1) := by
  obtain ⟨x, hx1, hx2⟩ := addObject_fresh hf
  obtain ⟨m, hm1, hm2, hm3⟩ := IntMap.set_spec u.usr (u.usr.highest + 1) (u.addObject t).2
    ⟨by omega, by unfold maxCapacity; omega⟩
  obtain ⟨g1, g2, g3⟩ := at1_ok hx1
  refine ⟨{ g with uel := some { (u.addObject t).1.setMap (u.addObject t).2 (u.usr.highest + 1) with usr := m, stat := none } },
    _, ?_, rfl, ?_, ?_⟩
  · unfold uelRegisterStr
    rw [show g.chk [.strElem] = (g, true) by unfold Gx.chk; rw [if_pos (by rw [hm]; decide)]]
    simp only [Bool.true_eq_false, if_false]
    rw [ht]
    simp only [Res.bind_ok, hs, Bool.true_eq_false, if_false]
    rw [hu]
    simp only [need, Res.bind_ok]
    unfold Uel.addUsrNew Uel.newUsrUel
    simp only
    unfold Uel.userMap
    rw [hx1]
    simp only [Res.bind_ok, Res.pure_eq]
    rw [if_pos (by omega)]
    unfold Uel.newUsr
    simp only [Int.toNat_natCast]
    rw [addObject_usr, hm1]
    rfl
  · show m.highest = _
    rw [hm3]
    omega
  · have hv := addObject_indexOf u t { (u.addObject t).1.setMap (u.addObject t).2 (u.usr.highest + 1) with usr := m, stat := none }
      (setMap_strs (u.addObject t).1 (u.addObject t).2 _)
    rw [hv]
    refine ⟨?_, by omega, ?_⟩
    · show m.get _ = _
      rw [hm2, if_pos rfl]
    · have : at1 ((u.addObject t).1.setMap (u.addObject t).2 (u.usr.highest + 1)).ents ((u.addObject t).2 : Int) =
          .ok (x, u.usr.highest + 1) := by
        refine at1_of (by omega) ?_
        rw [setMap_get, if_pos (by omega), g3]
        rfl
      show (at1 ((u.addObject t).1.setMap (u.addObject t).2 (u.usr.highest + 1)).ents ((u.addObject t).2 : Int) >>=
        fun e => pure e.2) = _
      rw [this]
      rfl

/-- C13: a string that has a user number, given with any capitalisation and trailing blanks, keeps it and nothing changes
    (but a cached status is forgotten) -/
theorem C13_again (g : Gx) (u : Uel) (s t x : Str) (n : Nat) (k : Int) (hm : g.mode = .strElem) (hu : g.uel = some u)
    (hd : UelGood u) (ht : trimR s = .ok t) (hs : goodUEL t = true) (hk : 0 ≤ k) (hx : u.ents[n]? = some (x, k))
    (hxt : SameNoCase x t) : uelRegisterStr g s = .ok ({ g with uel := some { u with stat := none } }, (true, k)) := by
  have hl : lookup false t u.strs = some n :=
    hd.distinct.lookup (by unfold Uel.strs; rw [List.getElem?_map, hx]; rfl) hxt
  unfold uelRegisterStr
  rw [show g.chk [.strElem] = (g, true) by unfold Gx.chk; rw [if_pos (by rw [hm]; decide)]]
  simp only [Bool.true_eq_false, if_false]
  rw [ht]
  simp only [Res.bind_ok, hs, Bool.true_eq_false, if_false]
  rw [hu]
  simp only [need, Res.bind_ok]
  unfold Uel.addUsrNew Uel.newUsrUel Uel.addObject
  rw [hl]
  simp only
  unfold Uel.userMap
  rw [show ((n + 1 : Nat) : Int) = (n : Int) + 1 by omega, at1_nat hx]
  simp only [Res.bind_ok, Res.pure_eq]
  rw [if_neg (by omega)]
  rfl

/-- C13: the highest user number is the greatest one in use, over all histories with `NoReuse`; so the next number is
    fresh -/
theorem C13_highest (e : Env) (z : Cz) (cs : List Call) (g : Gx) (hc : ∀ c ∈ cs, c.WF)
    (ho : Along (fun g c g' => NoReuse g c ∧ (c.opensRead = true → GoodElems g' ∧ UsrCons g')) e z Gx.new cs)
    (h : run e z Gx.new cs = .ok g) (u : Uel) (hu : g.uel = some u) :
    0 ≤ u.usr.highest ∧ ∀ (n : Nat) (s : Str) (k : Int), u.ents[n]? = some (s, k) → k ≤ u.usr.highest := by
  obtain ⟨h1, h2⟩ := usr_run e z cs Gx.new g hc aft_new GoodElems.new (by intro u hu; cases hu) ho h
  refine ⟨(h2 u hu).hi0, ?_⟩
  intro n s k hn
  rcases (h2 u hu).bwd n s k hn with h3 | ⟨_, h3⟩
  · have := (h2 u hu).hi0
    omega
  · exact (h2 u hu).hi k (by omega)

/-- not vacuous: numbers go on from the highest one; blanks and capitalisation do not matter -/
example : after [.openWrite false 0 [] 0, .uelMapStart, .uelMap 7 [65], .uelDone, .uelStrStart] (fun g => do
    let (g, a) ← uelRegisterStr g [66]
    let (g, b) ← uelRegisterStr g [97, 32]
    let (_, c) ← uelRegisterStr g [98, 32, 32]
    pure (a, b, c)) = .ok ((true, 8), (true, 7), (true, 8)) := by
  decide +kernel

/-! ### C40 -/

/-- gdxRenameUEL: the number is kept, the string replaced -/
theorem C40_rename (g : Gx) (u : Uel) (old new o s : Str) (hu : g.uel = some u) (hd : UelGood u)
    (ho : trimR old = .ok o) (hs : trimR new = .ok s) :
    ∃ g' r, renameUEL g old new = .ok (g', r) ∧
      (r = 0 ↔ goodUEL s = true ∧ (∃ x ∈ u.strs, SameNoCase x o) ∧ ¬ ∃ x ∈ u.strs, SameNoCase x s) ∧
      (r ≠ 0 → g' = g) ∧
      (r = 0 → ∃ (n : Nat) (x : Str) (k : Int), u.ents[n]? = some (x, k) ∧ SameNoCase x o ∧
        g' = { g with uel := some { u with ents := u.ents.set n (s, k) } }) := by
  unfold renameUEL
  rw [hu]
  simp only
  rw [hs]
  simp only [Res.bind_ok]
  by_cases hgd : goodUEL s = true
  · rw [if_neg (by rw [hgd]; exact Bool.noConfusion), ho]
    simp only [Res.bind_ok]
    unfold Uel.indexOf
    rcases indexOf1_cases false o u.strs with ⟨h1, h2⟩ | ⟨n, h1, h2⟩
    · rw [h2, if_pos (by omega)]
      refine ⟨_, _, rfl, ?_, fun _ => rfl, fun h => absurd h (by decide)⟩
      refine ⟨fun h => absurd h (by decide), ?_⟩
      rintro ⟨_, ⟨x, hx, hxo⟩, _⟩
      exact absurd hxo (lookup_none.mp h1 x hx)
    · rw [h2, if_neg (by omega)]
      obtain ⟨x, hx1, hx2⟩ := lookup_some h1
      rcases indexOf1_cases false s u.strs with ⟨h3, h4⟩ | ⟨m, h3, h4⟩
      · rw [h4, if_neg (by omega)]
        refine ⟨_, _, rfl, ?_, fun h => absurd rfl h, ?_⟩
        · refine ⟨fun _ => ⟨hgd, ⟨x, List.mem_of_getElem? hx1, hx2⟩, ?_⟩, fun _ => rfl⟩
          rintro ⟨y, hy, hys⟩
          exact absurd hys (lookup_none.mp h3 y hy)
        · intro _
          unfold Uel.strs at hx1
          rw [List.getElem?_map] at hx1
          cases hxe : u.ents[n]? with
          | none => rw [hxe] at hx1; cases hx1
          | some y =>
            rw [hxe] at hx1
            cases hx1
            refine ⟨n, y.1, y.2, hxe, hx2, ?_⟩
            unfold Uel.rename
            rw [show ((n : Int) + 1).toNat - 1 = n by omega]
            have : (u.ents.modify n fun e => (s, e.2)) = u.ents.set n (s, y.2) := by
              apply List.ext_getElem?
              intro i
              rw [List.getElem?_modify, List.getElem?_set]
              by_cases hi : n = i
              · subst hi
                rw [if_pos rfl, if_pos (List.getElem?_eq_some_iff.mp hxe).1, hxe]
                simp
              · simp [hi]
            rw [this]
      · rw [h4, if_pos (by omega)]
        refine ⟨_, _, rfl, ?_, fun _ => rfl, fun h => absurd h (by decide)⟩
        refine ⟨fun h => absurd h (by decide), ?_⟩
        rintro ⟨_, _, hno⟩
        obtain ⟨y, hy1, hy2⟩ := lookup_some h3
        exact absurd ⟨y, List.mem_of_getElem? hy1, hy2⟩ hno
  · rw [if_pos (by simpa using hgd)]
    refine ⟨_, _, rfl, ?_, fun _ => rfl, fun h => absurd h (by decide)⟩
    refine ⟨fun h => absurd h (by decide), ?_⟩
    rintro ⟨h, _⟩
    exact absurd h hgd

/-- C40: after a successful rename the element is found under the new name with its old number; every other element keeps
    string, number and user number -/
theorem C40_found (g g' : Gx) (u : Uel) (old new o s : Str) (hu : g.uel = some u) (hd : UelGood u)
    (ho : trimR old = .ok o) (hs : trimR new = .ok s) (h : renameUEL g old new = .ok (g', 0)) :
    ∃ (u' : Uel) (n : Nat) (x : Str) (k : Int), g'.uel = some u' ∧ UelGood u' ∧ u.ents[n]? = some (x, k) ∧ SameNoCase x o ∧ u'.ents[n]? = some (s, k) ∧
      umFindUEL g' new = .ok (true, (n : Int) + 1, k) ∧ (∀ i, i ≠ n → u'.ents[i]? = u.ents[i]?) ∧ u'.usr = u.usr := by
  obtain ⟨g1, r, h1, h2, h3, h4⟩ := C40_rename g u old new o s hu hd ho hs
  rw [h] at h1
  cases h1
  obtain ⟨n, x, k, h5, h6, h7⟩ := h4 rfl
  have hn := (List.getElem?_eq_some_iff.mp h5).1
  have hgood : GoodElems g' := by
    refine (renameUEL_inv (P := GoodElems) (fun g u u' hu hj => GoodElems.jump g u u' hu (Or.inr hj)) old new ?_).of_ok h
    intro v hv
    rw [hu] at hv
    cases hv
    exact hd
  have hu' : g'.uel = some { u with ents := u.ents.set n (s, k) } := by rw [h7]
  have h8 : ({ u with ents := u.ents.set n (s, k) } : Uel).ents[n]? = some (s, k) := by
    show (u.ents.set n (s, k))[n]? = _
    rw [List.getElem?_set_self hn]
  refine ⟨{ u with ents := u.ents.set n (s, k) }, n, x, k, hu', hgood _ hu', h5, h6, h8, ?_, ?_, rfl⟩
  · exact C11_find_get g' hgood _ s new s k (umUelGet_in hgood hu' h8) hs (sameName_refl false s)
  · intro i hi
    exact List.getElem?_set_ne (Ne.symm hi)

/-- not vacuous: a rename, a refused one (name in use) and one of an unknown element -/
example : after [.openWrite false 0 [] 0, .uelRawStart, .uelRaw [65], .uelRaw [66]] (fun g => do
    let (g, a) ← renameUEL g [97] [67]
    let (g, b) ← renameUEL g [67] [98]
    let (g, c) ← renameUEL g [65] [68]
    let f ← umFindUEL g [99, 32]
    pure (a, b, c, f)) = .ok (0, 3, 2, (true, 1, -1)) := by
  decide +kernel

end Gdx.Props
