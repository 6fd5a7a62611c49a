import Verif.Props.Survive
import Verif.Props.AcronymValue
import Verif.Proofs.RawTotal
import Verif.Proofs.Reading

/-! C32: the table of acronyms and the numbers given out while reading. -/

namespace Gdx.Props
open Gdx Gdx.Spec

/-! ### the table -/

/-- different entries have different indices and, unless unnamed, different names -/
def AcrApart (l : List Acr) : Prop :=
  ∀ (i j : Nat) (a b : Acr), l[i]? = some a → l[j]? = some b → i ≠ j → a.map ≠ b.map ∧ (a.name ≠ [] → ¬ SameNoCase a.name b.name)

def AcrUnique (g : Gx) : Prop := ∀ l, g.acros = some l → AcrApart l

theorem sameNoCase_nil {a : Str} (h : SameNoCase a []) : a = [] := by
  unfold SameNoCase at h
  simpa using h

theorem snoc_get {α : Type} {l : List α} {x a : α} {i : Nat} (hi : (l ++ [x])[i]? = some a) :
    (i < l.length ∧ l[i]? = some a) ∨ (i = l.length ∧ a = x) := by
  rcases Nat.lt_or_ge i l.length with hlt | hge
  · rw [List.getElem?_append_left hlt] at hi
    exact Or.inl ⟨hlt, hi⟩
  · rw [List.getElem?_append_right hge] at hi
    cases hk : i - l.length with
    | zero => rw [hk] at hi; cases hi; exact Or.inr ⟨by omega, rfl⟩
    | succ k => rw [hk] at hi; cases hi

theorem AcrApart.add {l : List Acr} (h : AcrApart l) {x : Acr} (hm : ∀ b ∈ l, b.map ≠ x.map) (hn : x.name = [] ∨ acrFindName l x.name = none) :
    AcrApart (l ++ [x]) := by
  have hx : ∀ a ∈ l, (a.name ≠ [] ∨ x.name ≠ []) → ¬ SameNoCase a.name x.name := by
    intro a ha hne hs
    rcases hn with hn | hn
    · rw [hn] at hs
      rcases hne with hne | hne
      · exact hne (sameNoCase_nil hs)
      · exact hne hn
    · have := acrFindName_none.mp hn a ha
      rw [(sameText_iff false _ _).mpr hs] at this
      cases this
  intro i j a b hi hj hij
  rcases snoc_get hi with ⟨h1, h2⟩ | ⟨h1, rfl⟩ <;> rcases snoc_get hj with ⟨h3, h4⟩ | ⟨h3, rfl⟩
  · exact h i j a b h2 h4 hij
  · exact ⟨hm a (List.mem_of_getElem? h2), fun hne => hx a (List.mem_of_getElem? h2) (Or.inl hne)⟩
  · exact ⟨fun he => hm b (List.mem_of_getElem? h4) he.symm, fun hne hs => hx b (List.mem_of_getElem? h4) (Or.inr hne) hs.symm⟩
  · omega

theorem AcrApart.set {l : List Acr} (h : AcrApart l) {n : Nat} {x y : Acr} (hx : l[n]? = some x) (hm : y.map = x.map)
    (hn : y.name = x.name ∨ acrFindName l y.name = none) : AcrApart (l.set n y) := by
  have hlt := (List.getElem?_eq_some_iff.mp hx).1
  have hy : ∀ j b, l[j]? = some b → j ≠ n → (b.name ≠ [] ∨ y.name ≠ []) → ¬ SameNoCase b.name y.name := by
    intro j b hj hjn hne hs
    rcases hn with hn | hn
    · rw [hn] at hs hne
      rcases hne with hne | hne
      · exact (h j n b x hj hx hjn).2 hne hs
      · exact (h n j x b hx hj (Ne.symm hjn)).2 hne hs.symm
    · have := acrFindName_none.mp hn b (List.mem_of_getElem? hj)
      rw [(sameText_iff false _ _).mpr hs] at this
      cases this
  intro i j a b hi hj hij
  by_cases h1 : n = i
  · subst h1
    rw [List.getElem?_set_self hlt] at hi
    cases hi
    rw [List.getElem?_set_ne hij] at hj
    exact ⟨by rw [hm]; exact (h n j x b hx hj hij).1, fun hne hs => hy j b hj (Ne.symm hij) (Or.inr hne) hs.symm⟩
  · rw [List.getElem?_set_ne h1] at hi
    by_cases h2 : n = j
    · subst h2
      rw [List.getElem?_set_self hlt] at hj
      cases hj
      exact ⟨by rw [hm]; exact (h i n a x hi hx hij).1, fun hne => hy i a hi hij (Or.inl hne)⟩
    · rw [List.getElem?_set_ne h2] at hj
      exact h i j a b hi hj hij

theorem AcrUnique.prim : ∀ a b, Prim .all a b → AcrUnique a → AcrUnique b := by
  intro a b h hg
  cases h with
  | ctrl h _ _ => intro l hl; exact hg l (by rw [← show b.acros = a.acros from congrArg Core.acros h]; exact hl)
  | acro l l' h hs =>
    intro x hx
    cases hx
    cases hs with
    | add y hm hn _ _ _ => exact (hg l h).add hm hn
    | readMap n y v c hy _ => exact (hg l h).set hy rfl (Or.inl rfl)
    | rename n y name text c hy hn _ _ _ => exact (hg l h).set hy rfl (Or.inr hn)
  | remap l l' h _ _ hs =>
    intro x hx
    cases hx
    cases hs with
    | new org hm _ => exact (hg l h).add hm (Or.inl rfl)
    | old n y hy _ => exact (hg l h).set hy rfl (Or.inl rfl)
  | _ => exact hg

theorem AcrUnique.openWrite (e : Env) (g : Gx) (n : Bool) (i : Int) (p : Str) (c : Int) (hg : AcrUnique g) :
    (openWriteEx e g n i p c).All fun x => AcrUnique x.1 := by
  unfold openWriteEx
  split
  · exact hg
  split
  · exact hg
  split
  · exact hg
  refine Res.All.bind' ?_
  intro h _ l hl
  cases hl
  intro i j a b hi
  cases hi

theorem AcrUnique.run (e : Env) (z : Cz) (cs : List Call) (g : Gx) (hc : ∀ c ∈ cs, c.WF) (ha : Aft g) (h : AcrUnique g)
    (ho : OpensOk AcrUnique e z g cs) : (run e z g cs).All fun g' => Aft g' ∧ AcrUnique g' :=
  run_inv AcrUnique.prim (fun _ _ _ h => h) (fun _ _ u hu => by cases hu) (fun _ _ _ _ _ h => h) (fun _ h => h)
    AcrUnique.openWrite e z cs g hc ha h ho

theorem fits_eq {n : Nat} {s t : Str} (h : fits n s = .ok t) : s = t := by
  unfold fits at h
  split at h
  · cases h; rfl
  · cases h

theorem acronymGetInfo_some {g : Gx} {n : Int} {s t : Str} {i : Int} (h : acronymGetInfo g n = .ok (some (s, t, i))) :
    ∃ l a, g.acros = some l ∧ 1 ≤ n ∧ l[(n - 1).toNat]? = some a ∧ a.name = s ∧ a.map = i := by
  unfold acronymGetInfo at h
  obtain ⟨l, h1, h⟩ := Res.bind_eq_ok.mp h
  split at h
  · cases h
  obtain ⟨a, h2, h⟩ := Res.bind_eq_ok.mp h
  obtain ⟨s', h3, h⟩ := Res.bind_eq_ok.mp h
  obtain ⟨t', h4, h⟩ := Res.bind_eq_ok.mp h
  cases h
  obtain ⟨p1, p2, p3⟩ := at1_ok h2
  exact ⟨l, a, need_ok h1, p1, p3, fits_eq h3, rfl⟩

/-- C32, the table: after every history (opened files must have the property) two entries have different indices and different names,
    names compared without regard to case; several may be without name. -/
theorem C32_unique (e : Env) (z : Cz) (cs : List Call) (hc : ∀ c ∈ cs, c.WF) (ho : OpensOk AcrUnique e z Gx.new cs) (g : Gx)
    (hg : run e z Gx.new cs = .ok g) (n m : Int) (hnm : n ≠ m) (s t s' t' : Str) (i j : Int)
    (h1 : acronymGetInfo g n = .ok (some (s, t, i))) (h2 : acronymGetInfo g m = .ok (some (s', t', j))) :
    i ≠ j ∧ (s ≠ [] → ¬ SameNoCase s s') := by
  have h := ((AcrUnique.run e z cs Gx.new hc aft_new (fun l hl => by cases hl) ho).of_ok hg).2
  obtain ⟨l, a, p1, p2, p3, rfl, rfl⟩ := acronymGetInfo_some h1
  obtain ⟨l', b, q1, q2, q3, rfl, rfl⟩ := acronymGetInfo_some h2
  rw [p1] at q1
  cases q1
  exact h l p1 _ _ a b p3 q3 (by omega)

/-! ### gdxAcronymAdd -/

theorem acrAddLoop_found {name : Str} {idx : Int} : ∀ {l : List Acr} {n k : Nat}, acrAddLoop name idx n l = .found k →
    n ≤ k ∧ ∃ a, l[k - n]? = some a ∧ SameNoCase a.name name ∧ a.map = idx
  | [], _, _, h => by cases h
  | a :: l, n, k, h => by
    unfold acrAddLoop at h
    split at h
    · rename_i hs
      split at h
      · rename_i hm
        cases h
        exact ⟨Nat.le_refl _, a, by simp, (sameText_iff false _ _).mp hs, hm⟩
      · cases h
    · split at h
      · cases h
      · obtain ⟨h1, b, h2, h3⟩ := acrAddLoop_found h
        exact ⟨by omega, b, by rw [show k - n = (k - (n + 1)) + 1 by omega, List.getElem?_cons_succ]; exact h2, h3⟩

theorem acrAddLoop_clash {name : Str} {idx : Int} : ∀ {l : List Acr} {n : Nat}, acrAddLoop name idx n l = .clash →
    ∃ a ∈ l, (SameNoCase a.name name ∧ a.map ≠ idx) ∨ (¬ SameNoCase a.name name ∧ a.map = idx)
  | [], _, h => by cases h
  | a :: l, n, h => by
    unfold acrAddLoop at h
    split at h
    · rename_i hs
      split at h
      · cases h
      · rename_i hm
        exact ⟨a, by simp, Or.inl ⟨(sameText_iff false _ _).mp hs, hm⟩⟩
    · rename_i hs
      split at h
      · rename_i hm
        exact ⟨a, by simp, Or.inr ⟨fun h => hs ((sameText_iff false _ _).mpr h), hm⟩⟩
      · obtain ⟨b, h1, h2⟩ := acrAddLoop_clash h
        exact ⟨b, by simp [h1], h2⟩

/-- C32, gdxAcronymAdd: an acronym known under this name and index is returned (its number counted from 0), one known under the name
    or the index alone is refused, otherwise there is one new entry at the end, whose number (counted from 1) is returned. -/
theorem C32_add (g g' : Gx) (name text : Str) (idx r : Int) (h : acronymAdd g name text idx = .ok (g', r)) :
    ∃ l, g.acros = some l ∧
    ((g' = g ∧ 0 ≤ r ∧ ∃ a, l[r.toNat]? = some a ∧ SameNoCase a.name name ∧ a.map = idx) ∨
     (g' = g.raise Err.acroBadAddition ∧ r = -1 ∧
        ∃ a ∈ l, (SameNoCase a.name name ∧ a.map ≠ idx) ∨ (¬ SameNoCase a.name name ∧ a.map = idx)) ∨
     (r = l.length + 1 ∧ (∀ a ∈ l, ¬ SameNoCase a.name name ∧ a.map ≠ idx) ∧
        ∃ a, g' = { g with acros := some (l ++ [a]) } ∧ a.name = name ∧ a.map = idx)) := by
  unfold acronymAdd at h
  obtain ⟨l, h1, h⟩ := Res.bind_eq_ok.mp h
  refine ⟨l, need_ok h1, ?_⟩
  split at h
  · rename_i n hf
    cases h
    obtain ⟨h2, a, h3, h4⟩ := acrAddLoop_found hf
    exact Or.inl ⟨rfl, by omega, a, by simpa using h3, h4⟩
  · rename_i hf
    cases h
    exact Or.inr (Or.inl ⟨rfl, rfl, acrAddLoop_clash hf⟩)
  · rename_i hf
    cases h
    refine Or.inr (Or.inr ⟨rfl, ?_, _, rfl, rfl, rfl⟩)
    intro a ha
    obtain ⟨h2, h3⟩ := acrAddLoop_fresh hf a ha
    refine ⟨fun hs => ?_, h3⟩
    rw [(sameText_iff false _ _).mpr hs] at h2
    cases h2

/-! ### writing -/

/-- `n` is the index of an acronym among the stored values -/
def AcrIn (vs : List SVal) (n : Int) : Prop := ∃ d, SVal.num d ∈ vs ∧ geAcr d = true ∧ acrDiv d = .ok n

theorem acrFind_isSome {l : List Acr} {m : Int} {k : Nat} (h : acrFind l m = some k) : ∃ a, l[k]? = some a ∧ a.map = m := by
  unfold acrFind at h
  obtain ⟨h1, h2, _⟩ := List.findIdx?_eq_some_iff_getElem.mp h
  exact ⟨l[k], List.getElem?_eq_getElem h1, by simpa using h2⟩

theorem checkAcros_maps : ∀ (vs : List SVal) (l l' : List Acr), checkAcros l vs = .ok l' →
    l <+: l' ∧ (∀ n, (∃ a ∈ l', a.map = n) ↔ (∃ a ∈ l, a.map = n) ∨ AcrIn vs n) ∧ ∀ a ∈ l', a ∈ l ∨ (a.name = [] ∧ AcrIn vs a.map)
  | [], l, l', h => by
    cases h
    exact ⟨List.prefix_refl _, fun n => by simp [AcrIn], fun a ha => Or.inl ha⟩
  | .code c :: vs, l, l', h => by
    obtain ⟨h1, h2, h3⟩ := checkAcros_maps vs l l' h
    have : ∀ n, AcrIn (.code c :: vs) n ↔ AcrIn vs n := by intro n; simp [AcrIn]
    exact ⟨h1, fun n => by rw [this]; exact h2 n, fun a ha => by rw [this]; exact h3 a ha⟩
  | .num d :: vs, l, l', h => by
    unfold checkAcros at h
    split at h
    · rename_i hg
      obtain ⟨m, hm, h⟩ := Res.bind_eq_ok.mp h
      obtain ⟨h1, h2, h3⟩ := checkAcros_maps vs _ l' h
      have hin : ∀ n, AcrIn (.num d :: vs) n ↔ n = m ∨ AcrIn vs n := by
        intro n
        constructor
        · rintro ⟨d', p1, p2, p3⟩
          rcases List.mem_cons.mp p1 with p1 | p1
          · cases p1
            rw [hm] at p3
            cases p3
            exact Or.inl rfl
          · exact Or.inr ⟨d', p1, p2, p3⟩
        · rintro (rfl | ⟨d', p1, p2, p3⟩)
          · exact ⟨d, by simp, hg, hm⟩
          · exact ⟨d', by simp [p1], p2, p3⟩
      have hck : l <+: acrCheck l m ∧ (∀ n, (∃ a ∈ acrCheck l m, a.map = n) ↔ (∃ a ∈ l, a.map = n) ∨ n = m) ∧
          ∀ a ∈ acrCheck l m, a ∈ l ∨ (a.name = [] ∧ a.map = m) := by
        unfold acrCheck
        split
        · rename_i k hk
          refine ⟨List.prefix_refl _, ?_, fun a ha => Or.inl ha⟩
          intro n
          constructor
          · exact Or.inl
          · rintro (h | rfl)
            · exact h
            · obtain ⟨a, e1, e2⟩ := acrFind_isSome hk
              exact ⟨a, List.mem_of_getElem? e1, e2⟩
        · refine ⟨List.prefix_append _ _, ?_, ?_⟩
          · intro n
            simp only [List.mem_append, List.mem_singleton]
            constructor
            · rintro ⟨a, h | h, h'⟩
              · exact Or.inl ⟨a, h, h'⟩
              · subst h
                exact Or.inr h'.symm
            · rintro (⟨a, h, h'⟩ | rfl)
              · exact ⟨a, Or.inl h, h'⟩
              · exact ⟨_, Or.inr rfl, rfl⟩
          · intro a ha
            rcases List.mem_append.mp ha with ha | ha
            · exact Or.inl ha
            · rw [List.mem_singleton.mp ha]
              exact Or.inr ⟨rfl, rfl⟩
      refine ⟨hck.1.trans h1, fun n => ?_, fun a ha => ?_⟩
      · rw [h2 n, hck.2.1 n, hin n, or_assoc]
      · rcases h3 a ha with h4 | ⟨h4, h5⟩
        · rcases hck.2.2 a h4 with h6 | ⟨h6, h7⟩
          · exact Or.inl h6
          · exact Or.inr ⟨h6, (hin _).mpr (Or.inl h7)⟩
        · exact Or.inr ⟨h4, (hin _).mpr (Or.inr h5)⟩
    · rename_i hg
      obtain ⟨h1, h2, h3⟩ := checkAcros_maps vs l l' h
      have : ∀ n, AcrIn (.num d :: vs) n ↔ AcrIn vs n := by
        intro n
        constructor
        · rintro ⟨d', p1, p2, p3⟩
          rcases List.mem_cons.mp p1 with p1 | p1
          · cases p1
            exact absurd p2 hg
          · exact ⟨d', p1, p2, p3⟩
        · rintro ⟨d', p1, p2, p3⟩
          exact ⟨d', by simp [p1], p2, p3⟩
      exact ⟨h1, fun n => by rw [this]; exact h2 n, fun a ha => by rw [this]; exact h3 a ha⟩

/-- C32, writing: a record that is accepted (all ways of writing end here) adds to the table an unnamed entry for every index of an
    acronym among its values that was not there yet, and nothing else. -/
theorem C32_write (g g' : Gx) (key : List Int) (vals : List Dbl) (h : doWrite g key vals = .ok (g', true)) :
    ∃ l l', g.acros = some l ∧ g'.acros = some l' ∧ l <+: l' ∧
      (∀ n, (∃ a ∈ l', a.map = n) ↔ (∃ a ∈ l, a.map = n) ∨ AcrIn (vals.map (storeVal g.sv)) n) ∧
      ∀ a ∈ l', a ∈ l ∨ (a.name = [] ∧ AcrIn (vals.map (storeVal g.sv)) a.map) := by
  unfold doWrite at h
  split at h
  · cases h
  obtain ⟨syms, _, h⟩ := Res.bind_eq_ok.mp h
  obtain ⟨bad, _, h⟩ := Res.bind_eq_ok.mp h
  split at h
  · cases h
  obtain ⟨x, _, h⟩ := Res.bind_eq_ok.mp h
  cases x with
  | dup => cases h
  | unsorted => cases h
  | put bs last =>
    simp only at h
    unfold acceptRec at h
    split at h
    · cases h
    obtain ⟨l, h1, h⟩ := Res.bind_eq_ok.mp h
    obtain ⟨l', h2, h⟩ := Res.bind_eq_ok.mp h
    obtain ⟨s, _, h⟩ := Res.bind_eq_ok.mp h
    obtain ⟨s', _, h⟩ := Res.bind_eq_ok.mp h
    obtain ⟨g1, h3, h⟩ := Res.bind_eq_ok.mp h
    cases h
    obtain ⟨k, syms2, t, _, _, _, e4⟩ := modCur_ok h3
    refine ⟨l, l', need_ok h1, by rw [e4], checkAcros_maps _ l l' h2⟩

/-- an ordinary number written with an acronym value is found among the stored values -/
theorem acrIn_value {t : SVTab} {vals : List Dbl} {i : Int} (h1 : 1 ≤ i) (h2 : i ≤ 17976931) (hm : acrValue i ∈ vals)
    (ho : storeVal t (acrValue i) = .num (acrValue i)) : AcrIn (vals.map (storeVal t)) i := by
  obtain ⟨e1, e2, e3⟩ := C31_inverse_partial i h1 h2
  refine ⟨acrValue i, List.mem_map.mpr ⟨_, hm, ho⟩, e2, ?_⟩
  unfold acrIndex ltAcr at e1
  rw [e2, e3] at e1
  simpa using e1

/-! ### reading -/

/-- the acronym with index `org` in the file is delivered as `n` -/
def Gives (org n : Int) (g : Gx) : Prop :=
  ∀ l, g.acros = some l →
    (0 < n ∧ (∃ a ∈ l, a.map = org) ∧ ∀ a ∈ l, a.map = org → a.readMap = n) ∨
    (g.nextAuto ≤ 0 ∧ n = org ∧ ∀ a ∈ l, a.map = org → a.readMap ≤ 0 ∨ a.readMap = org)

theorem Gives.prim {lc : Lic} (h1 : ¬ lc .rename) (h2 : ¬ lc .auto) (org n : Int) : ∀ x y, Prim lc x y → Gives org n x → Gives org n y := by
  intro x y h hg
  cases h with
  | ctrl h _ _ =>
    intro l hl
    have e1 : y.acros = x.acros := congrArg Core.acros h
    have e2 : y.nextAuto = x.nextAuto := congrArg Core.nextAuto h
    rw [e2]
    exact hg l (by rw [← e1]; exact hl)
  | acro l l' h hs =>
    intro m hm
    cases hm
    cases hs with
    | add y hy _ _ _ hr =>
      rcases hg l h with ⟨p1, ⟨a, p2, p3⟩, p4⟩ | ⟨p1, p2, p3⟩
      · refine Or.inl ⟨p1, ⟨a, by simp [p2], p3⟩, ?_⟩
        intro b hb hbo
        rcases List.mem_append.mp hb with hb | hb
        · exact p4 b hb hbo
        · rw [List.mem_singleton.mp hb] at hbo
          exact absurd (p3.trans hbo.symm) (hy a p2)
      · refine Or.inr ⟨p1, p2, ?_⟩
        intro b hb hbo
        rcases List.mem_append.mp hb with hb | hb
        · exact p3 b hb hbo
        · rw [List.mem_singleton.mp hb] at hbo ⊢
          rcases hr with hr | ⟨_, hr⟩
          · exact Or.inl hr
          · exact Or.inr (hr.trans hbo)
    | readMap _ _ _ _ _ hk => exact absurd hk h1
    | rename _ _ _ _ _ _ _ _ _ hk => exact absurd hk h1
  | remap l l' h h0 _ hs =>
    intro m hm
    cases hm
    rcases hg l h with ⟨p1, ⟨a, p2, p3⟩, p4⟩ | ⟨p1, _⟩
    · left
      cases hs with
      | new o hy _ =>
        refine ⟨p1, ⟨a, by simp [p2], p3⟩, ?_⟩
        intro b hb hbo
        rcases List.mem_append.mp hb with hb | hb
        · exact p4 b hb hbo
        · rw [List.mem_singleton.mp hb] at hbo
          exact absurd (p3.trans hbo.symm) (hy a p2)
      | old k c hk hc =>
        have hne : c.map ≠ org := fun he => by
          have := p4 c (List.mem_of_getElem? hk) he
          omega
        refine ⟨p1, ?_, ?_⟩
        · obtain ⟨i, hi⟩ := List.mem_iff_getElem?.mp p2
          refine ⟨a, List.mem_iff_getElem?.mpr ⟨i, ?_⟩, p3⟩
          rw [List.getElem?_set_ne]
          · exact hi
          · rintro rfl
            rw [hk] at hi
            cases hi
            exact hne p3
        · intro b hb hbo
          rcases List.mem_or_eq_of_mem_set hb with hb | rfl
          · exact p4 b hb hbo
          · exact absurd hbo hne
    · omega
  | auto _ hk => exact absurd hk h2
  | _ => exact hg

/-- numbers given to acronyms are different, and below the next automatic one -/
def AutoApart (g : Gx) : Prop :=
  0 < g.nextAuto ∧ ∀ l, g.acros = some l → (∀ a ∈ l, a.readMap < g.nextAuto) ∧
    ∀ (i j : Nat) (a b : Acr), l[i]? = some a → l[j]? = some b → 0 < a.readMap → a.readMap = b.readMap → i = j

theorem AutoApart.prim {lc : Lic} (h1 : ¬ lc .rename) (h2 : ¬ lc .auto) (h3 : ¬ lc .acro) :
    ∀ x y, Prim lc x y → AutoApart x → AutoApart y := by
  have happ : ∀ (l : List Acr) (v : Int) (x : Acr), 0 < v → (∀ a ∈ l, a.readMap < v) → x.readMap ≤ 0 ∨ x.readMap = v →
      (∀ (i j : Nat) (a b : Acr), l[i]? = some a → l[j]? = some b → 0 < a.readMap → a.readMap = b.readMap → i = j) →
      ∀ (i j : Nat) (a b : Acr), (l ++ [x])[i]? = some a → (l ++ [x])[j]? = some b → 0 < a.readMap → a.readMap = b.readMap → i = j := by
    intro l v x hv hlt hx hd i j a b hi hj h0 he
    rcases snoc_get hi with ⟨p1, p2⟩ | ⟨p1, rfl⟩ <;> rcases snoc_get hj with ⟨q1, q2⟩ | ⟨q1, rfl⟩
    · exact hd i j a b p2 q2 h0 he
    · have := hlt a (List.mem_of_getElem? p2)
      omega
    · have := hlt b (List.mem_of_getElem? q2)
      omega
    · omega
  intro x y h hg
  cases h with
  | ctrl h _ _ =>
    have e1 : y.acros = x.acros := congrArg Core.acros h
    have e2 : y.nextAuto = x.nextAuto := congrArg Core.nextAuto h
    unfold AutoApart
    rw [e1, e2]
    exact hg
  | acro l l' h hs =>
    refine ⟨hg.1, ?_⟩
    intro m hm
    cases hm
    obtain ⟨p1, p2⟩ := hg.2 l h
    cases hs with
    | add y hy _ _ _ hr =>
      have hr : y.readMap ≤ 0 := by
        rcases hr with hr | ⟨hr, _⟩
        · exact hr
        · exact absurd hr h3
      refine ⟨?_, happ l _ y hg.1 p1 (Or.inl hr) p2⟩
      intro b hb
      rcases List.mem_append.mp hb with hb | hb
      · exact p1 b hb
      · rw [List.mem_singleton.mp hb]
        exact lt_of_le_of_lt hr hg.1
    | readMap _ _ _ _ _ hk => exact absurd hk h1
    | rename _ _ _ _ _ _ _ _ _ hk => exact absurd hk h1
  | remap l l' h h0 _ hs =>
    refine ⟨show 0 < x.nextAuto + 1 by omega, ?_⟩
    intro m hm
    cases hm
    obtain ⟨p1, p2⟩ := hg.2 l h
    cases hs with
    | new o hy _ =>
      refine ⟨?_, happ l _ _ hg.1 p1 (Or.inr rfl) p2⟩
      intro b hb
      show b.readMap < x.nextAuto + 1
      rcases List.mem_append.mp hb with hb | hb
      · have := p1 b hb
        omega
      · rw [List.mem_singleton.mp hb]
        show x.nextAuto < x.nextAuto + 1
        omega
    | old k c hk hc =>
      refine ⟨?_, ?_⟩
      · intro b hb
        show b.readMap < x.nextAuto + 1
        rcases List.mem_or_eq_of_mem_set hb with hb | rfl
        · have := p1 b hb
          omega
        · show x.nextAuto < x.nextAuto + 1
          omega
      · intro i j a b hi hj ha hab
        have hkl := (List.getElem?_eq_some_iff.mp hk).1
        rw [List.getElem?_set] at hi hj
        rw [if_pos hkl] at hi hj
        split at hi <;> split at hj
        · omega
        · cases hi
          have := p1 b (List.mem_of_getElem? hj)
          simp only at hab
          omega
        · cases hj
          have := p1 a (List.mem_of_getElem? hi)
          simp only at hab
          omega
        · exact p2 i j a b hi hj ha hab
  | auto _ hk => exact absurd hk h2
  | _ => exact hg

theorem lic_rename {c : Call} (h : ∀ n s t i, c ≠ .acronymSetInfo n s t i) : ¬ c.lic .rename := by
  cases c <;> first | (intro hh; cases hh; done) | (rintro (hh | hh) <;> cases hh; done) | exact fun _ => h _ _ _ _ rfl

theorem lic_auto {c : Call} (h : ∀ v, c ≠ .acronymNextNr v) : ¬ c.lic .auto := by
  cases c <;> first | (intro hh; cases hh; done) | (rintro (hh | hh) <;> cases hh; done) | exact fun _ => h _ rfl

theorem lic_acro {c : Call} (h : ∀ s t i, c ≠ .acronymAdd s t i) : ¬ c.lic .acro := by
  cases c <;> first | (intro hh; cases hh; done) | (rintro (hh | hh) <;> cases hh; done) | exact fun _ => h _ _ _ rfl

/-- calls that neither open a file nor change how acronyms are numbered -/
structure Renumbers.Not (c : Call) : Prop where
  wf : c.WF
  read : c.opensRead = false
  write : c.opensWrite = false
  info : ∀ n s t i, c ≠ .acronymSetInfo n s t i
  auto : ∀ v, c ≠ .acronymNextNr v

theorem Gives.run (e : Env) (z : Cz) (cs : List Call) (g g' : Gx) (hc : ∀ c ∈ cs, Renumbers.Not c) (ha : Aft g) (org n : Int)
    (h : Gives org n g) (hr : run e z g cs = .ok g') : Gives org n g' := by
  refine ((run_all (P := Gives org n) (Q := fun _ c _ => Renumbers.Not c) e z (fun g c g' hw ha hg hq hp => ?_) cs g
      (fun c h => (hc c h).wf) ha h (along_of e z cs g fun _ _ c h => hc c h)).of_ok hr).2
  have hpr := Gives.prim (lc := c.lic) (lic_rename hq.info) (lic_auto hq.auto) org n
  exact (step_inv_l hpr (fun _ _ _ _ l hl => by cases hl) (fun _ h => h) e z hw hq.read hq.write ha
        (fun m s _ => uelRegisterMap_inv hpr (fun _ _ _ _ _ h => h) m s hp) (fun o s _ => renameUEL_inv (fun _ _ _ _ _ h => h) o s hp)
        hp).of_ok hg

theorem AutoApart.run (e : Env) (z : Cz) (cs : List Call) (g g' : Gx) (hc : ∀ c ∈ cs, Renumbers.Not c ∧ ∀ s t i, c ≠ .acronymAdd s t i)
    (ha : Aft g) (h : AutoApart g) (hr : run e z g cs = .ok g') : AutoApart g' := by
  refine ((run_all (P := AutoApart) (Q := fun _ c _ => Renumbers.Not c ∧ ∀ s t i, c ≠ .acronymAdd s t i) e z
      (fun g c g' hw ha hg hq hp => ?_) cs g
      (fun c h => (hc c h).1.wf) ha h (along_of e z cs g fun _ _ c h => hc c h)).of_ok hr).2
  have hpr := AutoApart.prim (lc := c.lic) (lic_rename hq.1.info) (lic_auto hq.1.auto) (lic_acro hq.2)
  exact (step_inv_l hpr (fun _ _ _ h => ⟨h.1, fun l hl => by cases hl⟩) (fun _ h => h) e z hw hq.1.read hq.1.write ha
        (fun m s _ => uelRegisterMap_inv hpr (fun _ _ _ _ _ h => h) m s hp) (fun o s _ => renameUEL_inv (fun _ _ _ _ _ h => h) o s hp)
        hp).of_ok hg

theorem remapIndex_gives {g g' : Gx} {org n : Int} (hu : AcrUnique g) (h : remapIndex g org = .ok (g', n)) :
    Gives org n g' ∧ g'.acros ≠ none ∧ (0 < n ∨ n = org) ∧ (n < g'.nextAuto ∨ ¬ AutoApart g) := by
  unfold remapIndex at h
  obtain ⟨l, hl, h⟩ := Res.bind_eq_ok.mp h
  have hl := need_ok hl
  split at h
  · rename_i hf
    have hno := acrFind_none hf
    split at h
    · rename_i h0
      cases h
      refine ⟨?_, by rw [hl]; simp, Or.inr rfl, Or.inr fun ha => by have := ha.1; omega⟩
      intro l' hl'
      rw [hl] at hl'
      cases hl'
      exact Or.inr ⟨h0, rfl, fun a ha he => absurd he (hno a ha)⟩
    split at h
    · cases h
    cases h
    refine ⟨?_, by simp, Or.inl (by omega), Or.inl (show g.nextAuto < g.nextAuto + 1 by omega)⟩
    intro l' hl'
    cases hl'
    refine Or.inl ⟨by omega, ⟨_, List.mem_append_right _ (List.mem_singleton.mpr rfl), rfl⟩, ?_⟩
    intro a ha he
    rcases List.mem_append.mp ha with ha | ha
    · exact absurd he (hno a ha)
    · rw [List.mem_singleton.mp ha]
  · rename_i k hf
    obtain ⟨a, ha, h⟩ := Res.bind_eq_ok.mp h
    have hk := (at0_ok ha).2.2
    simp only [Int.toNat_natCast] at hk
    obtain ⟨a', e1, e2⟩ := acrFind_isSome hf
    rw [hk] at e1
    cases e1
    have honly : ∀ j b, l[j]? = some b → b.map = org → j = k := by
      intro j b hj hb
      by_contra hne
      exact (hu l hl j k b a hj hk hne).1 (hb.trans e2.symm)
    have hone : ∀ b ∈ l, b.map = org → b = a := by
      intro b hb hbo
      obtain ⟨j, hj⟩ := List.mem_iff_getElem?.mp hb
      rw [honly j b hj hbo, hk] at hj
      cases hj
      rfl
    split at h
    · rename_i h0
      cases h
      refine ⟨?_, by rw [hl]; simp, Or.inl h0, ?_⟩
      · intro l' hl'
        rw [hl] at hl'
        cases hl'
        exact Or.inl ⟨h0, ⟨a, List.mem_of_getElem? hk, e2⟩, fun b hb hbo => by rw [hone b hb hbo]⟩
      · by_cases hx : AutoApart g
        · exact Or.inl ((hx.2 l hl).1 a (List.mem_of_getElem? hk))
        · exact Or.inr hx
    rename_i hr
    split at h
    · rename_i h0
      cases h
      refine ⟨?_, by rw [hl]; simp, Or.inr rfl, Or.inr fun ha => by have := ha.1; omega⟩
      intro l' hl'
      rw [hl] at hl'
      cases hl'
      exact Or.inr ⟨h0, rfl, fun b hb hbo => Or.inl (by rw [hone b hb hbo]; omega)⟩
    split at h
    · cases h
    cases h
    refine ⟨?_, by simp, Or.inl (by omega), Or.inl (show g.nextAuto < g.nextAuto + 1 by omega)⟩
    intro l' hl'
    cases hl'
    rw [modify_eq_set_of hk]
    have hkl := (List.getElem?_eq_some_iff.mp hk).1
    refine Or.inl ⟨by omega, ⟨_, List.mem_iff_getElem?.mpr ⟨k, List.getElem?_set_self hkl⟩, e2⟩, ?_⟩
    intro b hb hbo
    obtain ⟨j, hj⟩ := List.mem_iff_getElem?.mp hb
    by_cases hjk : k = j
    · subst hjk
      rw [List.getElem?_set_self hkl] at hj
      cases hj
      rfl
    · rw [List.getElem?_set_ne hjk] at hj
      exact absurd (honly j b hj hbo).symm hjk

/-- C32: the value delivered for an acronym is the value of the number it is given -/
theorem readVal_acr {g : Gx} (hn : g.acrNaN = false) {org : Int} (h1 : 1 ≤ org) (h2 : org ≤ 17976931) :
    readVal g (.num (acrValue org)) = (remapIndex g org >>= fun x => .ok (x.1, acrValue x.2)) := by
  obtain ⟨e1, e2, e3⟩ := C31_inverse_partial org h1 h2
  have e4 : acrDiv (acrValue org) = .ok org := by
    unfold acrIndex ltAcr at e1
    rw [e2, e3] at e1
    simpa using e1
  have e5 : acrValue org ≠ Dbl.posInf := by
    intro he
    rw [he] at e3
    revert e3
    decide
  show (if geAcr (acrValue org) then acronymRemap g (acrValue org) else .ok (g, acrValue org)) = _
  unfold acronymRemap
  rw [if_pos e2, if_neg e5, hn]
  simp only [Bool.false_eq_true, if_false, e4, Res.bind_ok]
  cases remapIndex g org <;> rfl

theorem readVal_nan {g g' : Gx} {v : SVal} {x : Dbl} (h : readVal g v = .ok (g', x)) : g'.acrNaN = g.acrNaN := by
  cases v with
  | code c => cases h; rfl
  | num d =>
    simp only [readVal] at h
    split at h
    · unfold acronymRemap at h
      split at h
      · cases h; rfl
      split at h
      · cases h; rfl
      obtain ⟨org, _, h⟩ := Res.bind_eq_ok.mp h
      obtain ⟨⟨g1, n⟩, h1, h⟩ := Res.bind_eq_ok.mp h
      cases h
      unfold remapIndex at h1
      obtain ⟨l, _, h1⟩ := Res.bind_eq_ok.mp h1
      split at h1
      · split at h1
        · cases h1; rfl
        split at h1
        · cases h1
        cases h1; rfl
      · obtain ⟨a, _, h1⟩ := Res.bind_eq_ok.mp h1
        split at h1
        · cases h1; rfl
        split at h1
        · cases h1; rfl
        split at h1
        · cases h1
        cases h1; rfl
    · cases h; rfl

/-- no licence at all -/
abbrev noLic : Lic := fun _ => False

theorem readVals_gives : ∀ (vs : List SVal) (g g' : Gx) (xs : List Dbl), AcrUnique g → g.acrNaN = false → readVals g vs = .ok (g', xs) →
    AcrUnique g' ∧ (AutoApart g → AutoApart g') ∧ ∀ (i : Nat) (org : Int), 1 ≤ org → org ≤ 17976931 →
      vs[i]? = some (.num (acrValue org)) →
      ∃ n, xs[i]? = some (acrValue n) ∧ Gives org n g' ∧ g'.acros ≠ none ∧ (0 < n ∨ n = org) ∧ (n < g'.nextAuto ∨ ¬ AutoApart g)
  | [], g, g', xs, hu, _, h => by
    cases h
    exact ⟨hu, fun h => h, fun i org _ _ hi => by cases hi⟩
  | v :: vs, g, g', xs, hu, hn, h => by
    rw [readVals] at h
    obtain ⟨⟨g1, x⟩, h1, h⟩ := Res.bind_eq_ok.mp h
    obtain ⟨⟨g2, ys⟩, h2, h⟩ := Res.bind_eq_ok.mp h
    cases h
    have hev := ((readVal_evo noLic g v).of_ok h1).1
    have hev2 := ((readVals_evo noLic vs g1).of_ok h2).1
    have hu1 : AcrUnique g1 := (hev.mono fun _ h => h.elim).inv AcrUnique.prim hu
    have hA1 : AutoApart g → AutoApart g1 := hev.inv (AutoApart.prim (fun h => h) (fun h => h) (fun h => h))
    obtain ⟨p1, p2, p3⟩ := readVals_gives vs g1 g' ys hu1 (by rw [readVal_nan h1]; exact hn) h2
    refine ⟨p1, fun h => p2 (hA1 h), ?_⟩
    intro i org ho1 ho2 hi
    cases i with
    | zero =>
      rw [List.getElem?_cons_zero] at hi
      cases hi
      rw [readVal_acr hn ho1 ho2] at h1
      obtain ⟨⟨g3, n⟩, h3, h1⟩ := Res.bind_eq_ok.mp h1
      cases h1
      obtain ⟨q1, q2, q3, q4⟩ := remapIndex_gives hu h3
      have hmon : g3.acros ≠ none ∧ n < g3.nextAuto → g'.acros ≠ none ∧ n < g'.nextAuto :=
        hev2.inv (P := fun g => g.acros ≠ none ∧ n < g.nextAuto) (fun a b h hp => by
          cases h with
          | ctrl h _ _ =>
            rw [show b.acros = a.acros from congrArg Core.acros h, show b.nextAuto = a.nextAuto from congrArg Core.nextAuto h]
            exact hp
          | acro l l' h hs => exact ⟨by simp, hp.2⟩
          | remap l l' h _ _ hs => exact ⟨by simp, by have := hp.2; show n < a.nextAuto + 1; omega⟩
          | auto _ hk => exact hk.elim
          | _ => exact hp)
      have hmon' : g'.acros ≠ none :=
        hev2.inv (P := fun g => g.acros ≠ none) (fun a b h hp => by
          cases h with
          | ctrl h _ _ =>
            rw [show b.acros = a.acros from congrArg Core.acros h]
            exact hp
          | acro l l' h hs => simp
          | remap l l' h _ _ hs => simp
          | _ => exact hp) q2
      refine ⟨n, rfl, hev2.inv (Gives.prim (fun h => h) (fun h => h) org n) q1, hmon', q3, ?_⟩
      rcases q4 with q4 | q4
      · exact Or.inl (hmon ⟨q2, q4⟩).2
      · exact Or.inr q4
    | succ i =>
      rw [List.getElem?_cons_succ] at hi
      obtain ⟨n, q1, q2, q3, q4, q5⟩ := p3 i org ho1 ho2 hi
      refine ⟨n, q1, q2, q3, q4, ?_⟩
      rcases q5 with q5 | q5
      · exact Or.inl q5
      · exact Or.inr fun h => q5 (hA1 h)

theorem Gives.det {org n m : Int} {g : Gx} (h1 : Gives org n g) (h2 : Gives org m g) (hg : g.acros ≠ none)
    (ho : 0 < org) : n = m := by
  obtain ⟨l, hl⟩ := Option.ne_none_iff_exists'.mp hg
  rcases h1 l hl with ⟨a1, ⟨a, a2, a3⟩, a4⟩ | ⟨a1, a2, a3⟩ <;> rcases h2 l hl with ⟨b1, ⟨b, b2, b3⟩, b4⟩ | ⟨b1, b2, b3⟩
  · rw [← a4 a a2 a3, ← b4 a a2 a3]
  · have := a4 a a2 a3
    rcases b3 a a2 a3 with h | h <;> omega
  · have := b4 b b2 b3
    rcases a3 b b2 b3 with h | h <;> omega
  · omega

/-- C32, reading: an acronym gets the same value wherever and whenever it is read, as long as nobody opens a file or asks for other numbers.
    (All reading functions get the values of a record by `readVals`.) -/
theorem C32_same (e : Env) (z : Cz) (cs : List Call) (hc : ∀ c ∈ cs, Renumbers.Not c) (g g1 g2 g3 : Gx) (hu : AcrUnique g)
    (hn : g.acrNaN = false) (hn2 : g2.acrNaN = false) (ha : Aft g1) (vs ws : List SVal) (xs ys : List Dbl)
    (h1 : readVals g vs = .ok (g1, xs)) (h2 : run e z g1 cs = .ok g2) (h3 : readVals g2 ws = .ok (g3, ys)) (hu2 : AcrUnique g2)
    (i j : Nat) (org : Int) (ho : 1 ≤ org) (ho2 : org ≤ 17976931)
    (hi : vs[i]? = some (.num (acrValue org))) (hj : ws[j]? = some (.num (acrValue org))) :
    ∃ n, xs[i]? = some (acrValue n) ∧ ys[j]? = some (acrValue n) := by
  obtain ⟨_, _, p⟩ := readVals_gives vs g g1 xs hu hn h1
  obtain ⟨n, p1, p2, _, _, _⟩ := p i org ho ho2 hi
  obtain ⟨_, _, q⟩ := readVals_gives ws g2 g3 ys hu2 hn2 h3
  obtain ⟨m, q1, q2, q3, _, _⟩ := q j org ho ho2 hj
  have hg : Gives org n g3 := ((readVals_evo noLic ws g2).of_ok h3).1.inv (Gives.prim (fun h => h) (fun h => h) org n)
    (p2.run e z cs g1 g2 hc ha org n h2)
  have := Gives.det hg q2 q3 (by omega)
  subst this
  exact ⟨n, p1, q1⟩

theorem Gives.apart {a b n m : Int} {g : Gx} (h1 : Gives a n g) (h2 : Gives b m g) (hg : g.acros ≠ none) (hA : AutoApart g) (hab : a ≠ b) :
    n ≠ m := by
  obtain ⟨l, hl⟩ := Option.ne_none_iff_exists'.mp hg
  have h0 := hA.1
  rcases h1 l hl with ⟨a1, ⟨x, a2, a3⟩, a4⟩ | ⟨a1, _⟩
  · rcases h2 l hl with ⟨b1, ⟨y, b2, b3⟩, b4⟩ | ⟨b1, _⟩
    · rintro rfl
      obtain ⟨i, hi⟩ := List.mem_iff_getElem?.mp a2
      obtain ⟨j, hj⟩ := List.mem_iff_getElem?.mp b2
      have e1 := a4 x a2 a3
      have e2 := b4 y b2 b3
      have := (hA.2 l hl).2 i j x y hi hj (by omega) (by omega)
      rw [this, hj] at hi
      cases hi
      exact hab (a3.symm.trans b3)
    · omega
  · omega

/-- C32, reading: with automatic numbers, different acronyms get different values: until 17976931 numbers are used up, and as long as nobody
    opens a file, asks for other numbers or adds an acronym with a number of their own. -/
theorem C32_fresh (e : Env) (z : Cz) (cs : List Call) (hc : ∀ c ∈ cs, Renumbers.Not c ∧ ∀ s t i, c ≠ .acronymAdd s t i) (g g1 g2 g3 : Gx)
    (hu : AcrUnique g) (hA : AutoApart g)
    (hn : g.acrNaN = false) (hn2 : g2.acrNaN = false) (ha : Aft g1) (vs ws : List SVal) (xs ys : List Dbl)
    (h1 : readVals g vs = .ok (g1, xs)) (h2 : run e z g1 cs = .ok g2) (h3 : readVals g2 ws = .ok (g3, ys)) (hu2 : AcrUnique g2)
    (hmax1 : g1.nextAuto ≤ 17976932) (hmax : g3.nextAuto ≤ 17976932)
    (i j : Nat) (a b : Int) (hab : a ≠ b) (ho : 1 ≤ a) (ho2 : a ≤ 17976931) (hp : 1 ≤ b) (hp2 : b ≤ 17976931)
    (hi : vs[i]? = some (.num (acrValue a))) (hj : ws[j]? = some (.num (acrValue b))) :
    ∃ x y, xs[i]? = some x ∧ ys[j]? = some y ∧ x ≠ y := by
  obtain ⟨_, pA, p⟩ := readVals_gives vs g g1 xs hu hn h1
  obtain ⟨n, p1, p2, p3, p4, p5⟩ := p i a ho ho2 hi
  obtain ⟨_, qA, q⟩ := readVals_gives ws g2 g3 ys hu2 hn2 h3
  obtain ⟨m, q1, q2, q3, q4, q5⟩ := q j b hp hp2 hj
  have hA2 := AutoApart.run e z cs g1 g2 hc ha (pA hA) h2
  have hg : Gives a n g3 := ((readVals_evo noLic ws g2).of_ok h3).1.inv (Gives.prim (fun h => h) (fun h => h) a n)
    (p2.run e z cs g1 g2 (fun c h => (hc c h).1) ha a n h2)
  have hne := Gives.apart hg q2 q3 (qA hA2) hab
  refine ⟨_, _, p1, q1, ?_⟩
  intro he
  have p5 : n < g1.nextAuto := p5.resolve_right (fun h => h hA)
  have q5 : m < g3.nextAuto := q5.resolve_right (fun h => h hA2)
  have e1 := (C31_inverse_partial n (by omega) (by omega)).1
  have e2 := (C31_inverse_partial m (by omega) (by omega)).1
  rw [he, e2] at e1
  cases e1
  exact hne rfl

/-- a file just opened, with automatic numbers asked for, is such a state -/
theorem C32_start (g : Gx) (l : List Acr) (h : g.acros = some (l.map Acr.reopened)) (h0 : 0 < g.nextAuto) : AutoApart g := by
  have hr : ∀ a ∈ l.map Acr.reopened, a.readMap = -1 := by
    intro a ha
    obtain ⟨b, _, rfl⟩ := List.mem_map.mp ha
    rfl
  refine ⟨h0, ?_⟩
  intro m hm
  rw [h] at hm
  cases hm
  refine ⟨fun a ha => by rw [hr a ha]; omega, ?_⟩
  intro i j a b hi hj hlt
  rw [hr a (List.mem_of_getElem? hi)] at hlt
  omega

/-- a file written with named acronyms only: the table is also unique after reopening (see `C06_reopen`) -/
theorem C32_reopen_partial (g g2 : Gx) (l : List Acr) (hu : AcrUnique g) (h : g.acros = some l) (h2 : g2.acros = some (l.map Acr.reopened))
    (hn : ∀ a ∈ l, a.name ≠ []) : AcrUnique g2 := by
  intro m hm
  rw [h2] at hm
  cases hm
  have hs : ∀ a ∈ l, (Acr.reopened a).name = a.name := by
    intro a ha
    show a.saveName = a.name
    unfold Acr.saveName
    rw [if_neg (hn a ha)]
  intro i j a b hi hj hij
  rw [List.getElem?_map] at hi hj
  obtain ⟨x, e1, rfl⟩ := Option.map_eq_some_iff.mp hi
  obtain ⟨y, e2, rfl⟩ := Option.map_eq_some_iff.mp hj
  obtain ⟨p1, p2⟩ := hu l h i j x y e1 e2 hij
  rw [hs x (List.mem_of_getElem? e1), hs y (List.mem_of_getElem? e2)]
  exact ⟨p1, p2⟩

/-- the values of the first three records of symbol 1 after some calls -/
def acrReads (cs : List Call) (g : Gx) : Res (List (List Dbl) × Gx) := do
  let g ← run ⟨[]⟩ Cz.id g cs
  let (g, _) ← dataReadRawStart Cz.id g 1
  let (g, a) ← dataReadRaw g
  let (g, b) ← dataReadRaw g
  let (g, c) ← dataReadRaw g
  let (g, _) ← dataReadDone g
  pure ([a, b, c].map fun x => match x with | some r => r.vals | none => [], g)

/-- `a` = 1, `b` = 2; the values are `a`, `b`, `a` -/
def exAcros : List Call := [.openWrite false 0 [65] 0, .acronymAdd [97] [] 1, .acronymAdd [98] [] 2, .rawStart [112] [] 1 1 0,
  .writeRaw [1] [acrValue 1], .writeRaw [2] [acrValue 2], .writeRaw [3] [acrValue 1], .writeDone]

/-- with automatic numbers from 5 on they are 5, 6, 5 -/
example : reopened26 exAcros (fun g => do
      let (l, _) ← acrReads [.acronymNextNr 5] g
      pure l) = .ok [[acrValue 5], [acrValue 6], [acrValue 5]] := by decide +kernel

example : after exAcros (fun g => do
      let (_, n) ← acronymAdd g [65] [] 1
      let (_, m) ← acronymAdd g [99] [] 1
      let (_, k) ← acronymAdd g [99] [] 3
      pure [n, m, k]) = .ok [0, -1, 3] := by decide +kernel

/-! ### where it fails -/

/-- C32: an automatic number may be one that was chosen for another acronym: `a` and `b` both become 5 -/
theorem C32_collision : reopened26 exAcros (fun g => do
      let (l, _) ← acrReads [.acronymSetInfo 1 [97] [] 5, .acronymNextNr 5] g
      pure l) = .ok [[acrValue 5], [acrValue 5], [acrValue 5]] := by decide +kernel

/-- C32: asking for automatic numbers after a first reading changes the values: `a` was 1 and is 5 then -/
theorem C32_changed : reopened26 exAcros (fun g => do
      let (l, g) ← acrReads [] g
      let (l', _) ← acrReads [.acronymNextNr 5] g
      pure (l ++ l')) = .ok [[acrValue 1], [acrValue 2], [acrValue 1], [acrValue 5], [acrValue 6], [acrValue 5]] := by decide +kernel

/-- C32: names clash after closing and opening: the unnamed acronym 5 is saved under a name that acronym 7 already has -/
theorem C32_clash : reopened26 [.openWrite false 0 [65] 0, .acronymAdd ([85, 110, 107, 110, 111, 119, 110, 65, 67, 82, 79, 53]) [] 7, .rawStart [112] [] 1 1 0,
      .writeRaw [1] [acrValue 5], .writeDone] (fun g => do
      let a ← acronymGetInfo g 1
      let b ← acronymGetInfo g 2
      pure [a, b]) =
    .ok [some ([85, 110, 107, 110, 111, 119, 110, 65, 67, 82, 79, 53], [], 7), some ([85, 110, 107, 110, 111, 119, 110, 65, 67, 82, 79, 53], [], 5)] := by decide +kernel

#print axioms C32_unique
#print axioms C32_add
#print axioms C32_write
#print axioms C32_same
#print axioms C32_fresh
#print axioms C32_reopen_partial

end Gdx.Props
