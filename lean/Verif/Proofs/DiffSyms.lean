import Verif.Proofs.DiffSteps

/-!
`gdxdiff`: the difference symbol of two symbols.
-/

namespace Gdx.Diff
open Gdx Gdx.Spec Gdx.Props
open Gdx.Merge (Out namesOf textsOf Label GoodLabel HasText)

theorem Recs.base {o : Opt} {g0 g1 g gE : Gx} {key : List Int} {rs : List (RecOut Int)} (he : Eyes g0 g1) (h : Recs o g1 g key rs gE) : Recs o g0 g key rs gE := by
  induction h with
  | done h h1 => exact .done h (he.trans h1)
  | next h h1 _ ih => exact .next h (he.trans h1) ih

theorem Rem.base {o : Opt} {g0 g1 g gE : Gx} {r : Option (RecOut Int)} {rs : List (RecOut Int)} (he : Eyes g0 g1) (h : Rem o g1 g r rs gE) : Rem o g0 g r rs gE := by
  cases h with
  | done h => exact .done (he.trans h)
  | next h h1 => exact .next (he.trans h) (h1.base he)

theorem forall₂_pairwise {α β : Type} {R : α → β → Prop} {S : α → α → Prop} {S' : β → β → Prop} (hs : ∀ a b c d, R a b → R c d → S a c → S' b d) :
    ∀ {l : List α} {m : List β}, List.Forall₂ R l m → l.Pairwise S → m.Pairwise S'
  | _, _, .nil, _ => .nil
  | _, _, .cons (a := a) (b := b) (l₁ := l) (l₂ := m) h t, hp => by
    rw [List.pairwise_cons] at hp ⊢
    refine ⟨fun d hd => ?_, forall₂_pairwise hs t hp.2⟩
    have : ∀ {l : List α} {m : List β}, List.Forall₂ R l m → ∀ d ∈ m, ∃ c ∈ l, R c d := by
      intro l m h
      induction h with
      | nil => intro y hy; cases hy
      | cons h _ ih =>
        intro y hy
        rcases List.mem_cons.mp hy with rfl | hy
        · exact ⟨_, List.mem_cons_self .., h⟩
        · obtain ⟨x, hx, hr⟩ := ih y hy
          exact ⟨x, List.mem_cons_of_mem _ hx, hr⟩
    obtain ⟨c, hc, hcd⟩ := this t d hd
    exact hs _ _ _ _ h hcd (hp.1 c hc)

theorem label_inj {L : List Str} {k : Int} {s t : Str} (h : Label L k s) (h' : Label L k t) : SameNoCase s t := by
  obtain ⟨_, x, h1, h2⟩ := h
  obtain ⟨_, y, h3, h4⟩ := h'
  rw [h1] at h3
  cases h3
  exact sameName_tr (cs := false) (sameName_comm (cs := false) h2) h4

theorem labels_inj {L : List Str} {ks : List Int} {ss ts : List Str} (h : List.Forall₂ (Label L) ks ss) (h' : List.Forall₂ (Label L) ks ts) :
    List.Forall₂ SameNoCase ss ts := by
  induction h generalizing ts with
  | nil => cases h'; exact .nil
  | cons h _ ih =>
    cases h' with
    | cons h1 t1 => exact .cons (label_inj h h1) (ih t1)

theorem named_inj {A : List Str} (hd : Distinct false A) {ks ks' : List Int} {ss ss' : List Str} (h : List.Forall₂ (Named A) ks ss) (h' : List.Forall₂ (Named A) ks' ss')
    (hs : List.Forall₂ SameNoCase ss ss') : ks = ks' := by
  induction hs generalizing ks ks' with
  | nil => cases h; cases h'; rfl
  | cons hx _ ih =>
    cases h with
    | cons h1 t1 =>
      cases h' with
      | cons h2 t2 =>
        have := hd.eq h1.2 h2.2 hx
        have e1 := h1.1
        have e2 := h2.1
        rw [ih t1 t2]
        congr 1
        omega

/-- what the key of a row shows -/
def rowName (p : Ev × Option Nat) : List Int × Option Nat × Bool × Bool := (p.1.key, p.2, p.1.ins, p.1.first)

theorem pairsOf_mem {o : Opt} {typ : Nat} {W : List Ev} {p : Ev × Option Nat} : p ∈ pairsOf o typ W ↔ p.1 ∈ W ∧ p.2 ∈ partsOf o typ p.1 := by
  obtain ⟨w, f⟩ := p
  unfold pairsOf
  simp only [List.mem_flatMap, List.mem_map, Prod.mk.injEq]
  constructor
  · rintro ⟨a, h1, x, h2, rfl, rfl⟩
    exact ⟨h1, h2⟩
  · rintro ⟨h1, h2⟩
    exact ⟨w, h1, f, h2, rfl, rfl⟩

theorem partsOf_nodup {o : Opt} {typ : Nat} {w : Ev} (h : w.flds.Nodup) : (partsOf o typ w).Nodup := by
  unfold partsOf
  split
  · exact h.map (fun _ _ h => Option.some.inj h)
  · simp

theorem pairsOf_names {o : Opt} {typ : Nat} : ∀ {W : List Ev}, W.Pairwise Before → (∀ w ∈ W, w.flds.Nodup) → ((pairsOf o typ W).map rowName).Nodup
  | [], _, _ => .nil
  | w :: W, h, hn => by
    rw [List.pairwise_cons] at h
    have : pairsOf o typ (w :: W) = (partsOf o typ w).map (Prod.mk w) ++ pairsOf o typ W := rfl
    rw [this, List.map_append, List.nodup_append]
    refine ⟨?_, pairsOf_names h.2 (fun w hw => hn w (List.mem_cons_of_mem _ hw)), ?_⟩
    · rw [List.map_map]
      refine (partsOf_nodup (hn w (List.mem_cons_self ..))).map ?_
      intro a b hab
      exact (Prod.mk.inj (Prod.mk.inj hab).2).1
    · intro x hx y hy hxy
      subst hxy
      rw [List.map_map] at hx
      obtain ⟨f, _, rfl⟩ := List.mem_map.mp hx
      obtain ⟨p, hp, he⟩ := List.mem_map.mp hy
      have hb := h.1 _ (pairsOf_mem.mp hp).1
      unfold rowName at he
      simp only [Function.comp_apply, Prod.mk.injEq] at he
      obtain ⟨k1, _, k3, k4⟩ := he
      rcases hb with hb | ⟨_, f1, f2, _⟩
      · rw [k1] at hb
        exact lt_irrefl _ hb
      · rw [k4, f1] at f2
        cases f2

theorem act_same {i f i' f' : Bool} (h : SameNoCase (if i then (if f then ins1 else ins2) else (if f then dif1 else dif2))
    (if i' then (if f' then ins1 else ins2) else (if f' then dif1 else dif2))) : i = i' ∧ f = f' := by
  revert h
  unfold SameNoCase
  cases i <;> cases f <;> cases i' <;> cases f' <;> decide

theorem field_same {t t' : Nat} (h : t < 5) (h' : t' < 5) (hs : SameNoCase (fieldNames[t]?.getD []) (fieldNames[t']?.getD [])) : t = t' := by
  revert hs
  unfold SameNoCase
  interval_cases t <;> interval_cases t' <;> decide

/-- the parts of an entry: their labels are as many -/
def PartOk (o : Opt) (typ : Nat) (p : Ev × Option Nat) : Prop := if byField o typ then ∃ t, p.2 = some t ∧ t < 5 else p.2 = none

/-- the rows of different entries have different keys -/
theorem rows_nodup {o : Opt} {A : List Str} (hd : Distinct false A) {typ : Nat} {G1 G2 : Gx} {L T : List Str} {ps : List (Ev × Option Nat)} {its : List Given}
    (h : List.Forall₂ (RowFor o A typ G1 G2 L T) ps its) (hp : ∀ p ∈ ps, PartOk o typ p) (ho : (ps.map rowName).Nodup) : (its.map Prod.fst).Nodup := by
  unfold List.Nodup at ho ⊢
  rw [List.pairwise_map] at ho ⊢
  have h' : List.Forall₂ (fun p y => RowFor o A typ G1 G2 L T p y ∧ PartOk o typ p) ps its := by
    clear ho
    induction h with
    | nil => exact .nil
    | cons h1 _ ih => exact .cons ⟨h1, hp _ (List.mem_cons_self ..)⟩ (ih fun p hm => hp p (List.mem_cons_of_mem _ hm))
  refine forall₂_pairwise ?_ h' ho
  rintro ⟨v, f⟩ y ⟨w, f'⟩ x ⟨hv, pv⟩ ⟨hw, pw⟩ hne hc
  apply hne
  obtain ⟨ss, a1, a2⟩ := hv.key
  obtain ⟨ts, b1, b2⟩ := hw.key
  rw [hc] at a2
  have hs := labels_inj a2 b2
  dsimp only at hs a1 b1
  have hfl : (fldLabel f).length = (fldLabel f').length := by
    unfold PartOk at pv pw
    dsimp only at pv pw
    split at pv
    · rename_i hb
      rw [if_pos hb] at pw
      obtain ⟨t, rfl, _⟩ := pv
      obtain ⟨t', rfl, _⟩ := pw
      rfl
    · rename_i hb
      rw [if_neg hb] at pw
      rw [pv, pw]
  have hl : ss.length = ts.length := by
    have := hs.length_eq
    simp only [List.length_append, List.length_singleton] at this
    omega
  obtain ⟨c1, c2⟩ : List.Forall₂ SameNoCase ss ts ∧ List.Forall₂ SameNoCase (fldLabel f ++ [v.act]) (fldLabel f' ++ [w.act]) := by
    have h1 := List.forall₂_take_append _ _ _ hs
    have h2 := List.forall₂_drop_append _ _ _ hs
    rw [← hl, List.take_left] at h1
    rw [← hl, List.drop_left] at h2
    exact ⟨h1, h2⟩
  have hk := named_inj hd a1 b1 c1
  obtain ⟨hff, hact⟩ : f = f' ∧ SameNoCase v.act w.act := by
    unfold PartOk at pv pw
    dsimp only at pv pw
    split at pv
    · rename_i hb
      rw [if_pos hb] at pw
      obtain ⟨t, rfl, h5⟩ := pv
      obtain ⟨t', rfl, h5'⟩ := pw
      unfold fldLabel at c2
      simp only [List.cons_append, List.nil_append] at c2
      cases c2 with
      | cons d1 d2 =>
        cases d2 with
        | cons d2 _ => exact ⟨by rw [field_same h5 h5' d1], d2⟩
    · rename_i hb
      rw [if_neg hb] at pw
      rw [pv, pw] at c2
      cases c2 with
      | cons d1 _ => exact ⟨by rw [pv, pw], d1⟩
  obtain ⟨k1, k2⟩ := act_same hact
  unfold rowName
  dsimp only
  rw [hk, hff, k1, k2]

theorem fieldsOf_nodup (o : Opt) : (fieldsOf o).Nodup := List.nodup_range.filter _

theorem isEv_flds {o : Opt} {s : Sy} {G1 G2 : Gx} {A B : List (RecOut Int)} {w : Ev} (h : IsEv o s G1 G2 A B w) : w.flds.Nodup ∧ w.flds.length ≤ 5 ∧ ∀ t ∈ w.flds, t < 5 := by
  have hl : (fieldsOf o).length ≤ 5 := (List.length_filter_le ..).trans (by simp)
  have key : w.flds = insFlds o s.typ ∨ ∃ v u, w.flds = difFlds o s.typ G1 G2 v u := by
    rcases h with ⟨_, r, _, _, _, _, _, h⟩ | ⟨_, a, _, q, _, _, _, _, _, h⟩
    · exact Or.inl h
    · exact Or.inr ⟨_, _, h⟩
  rcases key with h | ⟨v, u, h⟩
  · rw [h]
    unfold insFlds
    split
    · exact ⟨fieldsOf_nodup o, hl, fun _ => fieldsOf_lt⟩
    · simp
  · rw [h]
    unfold difFlds
    split
    · exact ⟨(fieldsOf_nodup o).filter _, (List.length_filter_le ..).trans hl, fun t ht => fieldsOf_lt (List.mem_filter.mp ht).1⟩
    · simp

theorem pairsOf_length {o : Opt} {typ : Nat} : ∀ {W : List Ev}, (∀ w ∈ W, w.flds.length ≤ 5) → (pairsOf o typ W).length ≤ if o.diffOnly then 5 * W.length else W.length
  | [], _ => by unfold pairsOf; simp
  | w :: W, h => by
    have ih := pairsOf_length (o := o) (typ := typ) (W := W) fun w hw => h w (List.mem_cons_of_mem _ hw)
    have h0 := h w (List.mem_cons_self ..)
    have : pairsOf o typ (w :: W) = (partsOf o typ w).map (Prod.mk w) ++ pairsOf o typ W := rfl
    rw [this, List.length_append, List.length_map, List.length_cons]
    have hp : (partsOf o typ w).length ≤ if o.diffOnly then 5 else 1 := by
      unfold partsOf
      split
      · rename_i hb
        rw [if_pos (Bool.and_eq_true_iff.mp hb).1, List.length_map]
        exact h0
      · split <;> simp
    split at ih
    · rename_i hd
      rw [if_pos hd] at hp ⊢
      omega
    · rename_i hd
      rw [if_neg hd] at hp ⊢
      omega

/-- the bound for the number of the records of a symbol -/
def room (o : Opt) (n : Nat) : Nat := if o.diffOnly then 5 * n else n

/-- symbol `i` (from 0) of the difference file has these entries -/
def IsDiff (o : Opt) (e : Env) (z : Cz) (A : List Str) (G1 G2 : Gx) (L T : List Str) (g : Gx) (i : Nat) (q : Sy × List Ev) : Prop :=
  ∃ ps its ys, ps.Perm (pairsOf o q.1.typ q.2) ∧ List.Forall₂ (RowFor o A q.1.typ G1 G2 L T) ps its ∧ its.Perm ys ∧
    Written e z q.1.id (headDim o q.1.typ q.1.dim : Nat) (headTyp o q.1.typ) (headVet o q.1.typ q.1.vet) i (ys.map (entryOf SVTab.default)) g ∧
    Merge.Explained g i (makeGoodExplText (assignExpl (headText o q.1.typ)))

theorem IsDiff.more {o : Opt} {e : Env} {z : Cz} (hz : z.Good) {A : List Str} {G1 G2 : Gx} {L T L' T' : List Str} {g g' : Gx} {i : Nat} {q : Sy × List Ev} (h : IsDiff o e z A G1 G2 L T g i q)
    (hl : L <+: L') (ht : T <+: T') (hs : StaysIn e z g g') (ha : After e z g) {N' : List Str} (hn : namesOf g' = some N') : IsDiff o e z A G1 G2 L' T' g' i q := by
  obtain ⟨ps, its, ys, h0, h1, h2, h3, h4⟩ := h
  unfold namesOf at hn
  obtain ⟨l, hl', _⟩ := Option.map_eq_some_iff.mp hn
  exact ⟨ps, its, ys, h0, h1.imp fun _ _ h => h.mono hl ht, h2, h3.stays hs, h4.stays hz ha hs hl'⟩

/-- what the comparison of two symbols leaves in the difference file: `q` = the symbol that is written, if one is -/
structure Leaves (o : Opt) (e : Env) (z : Cz) (A : List Str) (G1 G2 : Gx) (N L T : List Str) (x x' : Objs) (q : Option (Sy × List Ev)) : Prop where
  stays : StaysIn e z x.gd x'.gd
  next : ∃ L' T', Ground e z A (N ++ (q.map fun p => p.1.id).toList) L' T' x' ∧ L <+: L' ∧ T <+: T' ∧ ∀ p ∈ q, IsDiff o e z A G1 G2 L' T' x'.gd N.length p

/-- two symbols that can be compared -/
theorem compareSy_writes {o : Opt} {e : Env} {z : Cz} {U N L T : List Str} {G1 G2 : Gx} (hz : z.Good) (hU : Setup o U) (hd : Distinct false U) {x : Objs} {fuel : Nat} {sy1 sy2 : Int} {defs : List Dbl}
    {A B : List (RecOut Int)} {gE1 gE2 : Gx} (hc : Comparable o x sy1 sy2 defs) (hs : SyOk o N (syOf x sy1 sy2 defs)) (hdim : 0 ≤ (symbolInfo x.g1 sy1).dim)
    (h1 : Reads o z x.g1 sy1 (symbolInfo x.g1 sy1).dim.toNat A gE1)
    (h2 : Reads o z x.g2 sy2 (symbolInfo x.g1 sy1).dim.toNat B gE2) (e1 : Eyes G1 x.g1) (e2 : Eyes G2 x.g2)
    (fA : ∀ a ∈ A, RecFit U G1 (syOf x sy1 sy2 defs).typ (syOf x sy1 sy2 defs).dim a) (fB : ∀ a ∈ B, RecFit U G2 (syOf x sy1 sy2 defs).typ (syOf x sy1 sy2 defs).dim a)
    (hD : Defd o (syOf x sy1 sy2 defs) G1 G2 A B) (hg : Ground e z U N L T x) (hf : A.length + B.length < fuel) (hm : ((room o (A.length + B.length) : Nat) : Int) ≤ intMax) :
    ∃ x' W, compareSy o z fuel x sy1 sy2 = .ok (x', if W = [] then none else some ((symbolInfo x.g2 sy2).name, stOf (syOf x sy1 sy2 defs).dim W)) ∧
      x'.g1 = gE1 ∧ x'.g2 = gE2 ∧ Entries o (syOf x sy1 sy2 defs) G1 G2 A B W ∧
      Leaves o e z U G1 G2 N L T x x' (if W = [] ∨ 20 ≤ (syOf x sy1 sy2 defs).dim then none else some (syOf x sy1 sy2 defs, W)) := by
  have hc' := hc.typ
  obtain ⟨g1, r1, s1, m1⟩ := h1.start
  obtain ⟨g2, r2, s2, m2⟩ := h2.start
  generalize hsy : syOf x sy1 sy2 defs = s at *
  have hdd : s.dim = (symbolInfo x.g1 sy1).dim.toNat := by rw [← hsy]; rfl
  have hst : (if 20 ≤ (symbolInfo x.g1 sy1).dim ∨ o.diffOnly = true ∧ 20 ≤ (symbolInfo x.g1 sy1).dim - 1 then Status.dim10 else Status.same) = stOf s.dim [] := by
    unfold stOf
    rw [hdd]
    by_cases h20 : 20 ≤ (symbolInfo x.g1 sy1).dim
    · rw [if_pos (Or.inl h20), if_pos (by omega), if_pos rfl]
    · rw [if_neg (by rintro (h | ⟨_, h⟩); exact h20 h; omega), if_neg (by omega)]
  have hp : Prog o e z U N L T s G1 G2 x.gd [] { o := { x with g1 := g1, g2 := g2 }, st := stOf s.dim [] } := by
    refine ⟨⟨hg.uels, fun _ => ⟨rfl, .refl _, L, hg.withG rfl rfl rfl, List.prefix_refl _⟩, fun h => absurd (Or.inl rfl) h⟩, rfl⟩
  obtain ⟨c, W, l1, l2, l3, l4, l5⟩ := cmpLoop_events hz hU hs (m1.base e1) (m2.base e2) (by rw [hdd]; exact h1.sorted) (by rw [hdd]; exact h2.sorted) h1.keys h2.keys fA fB hD hp hf
  rw [List.nil_append] at l5
  -- the end of the symbol
  have key : ∃ c', symbClose z c = .ok c' ∧ c'.o.g1 = gE1 ∧ c'.o.g2 = gE2 ∧ c'.st = c.st ∧
      Leaves o e z U G1 G2 N L T x c'.o (if W = [] ∨ 20 ≤ s.dim then none else some (s, W)) := by
    by_cases hW : W = [] ∨ 20 ≤ s.dim
    · obtain ⟨i1, i2, L', i3, i4⟩ := l5.stage.idle hW
      refine ⟨c, ?_, l2, l3, rfl, i2, L', T, ?_, i4, List.prefix_refl _, ?_⟩
      · unfold symbClose
        rw [if_neg (by rw [i1]; simp)]
      · rw [if_pos hW]
        simpa using i3
      · rw [if_pos hW]
        simp
    · obtain ⟨j1, j2, ps, pp, g0, ga, u, T', its, w1, w2, w3, w4, w5, w6, w7, w8, w9⟩ := l5.stage.busy hW
      have hlow : s.dim < 20 := by
        by_contra hc
        exact hW (Or.inr (by omega))
      obtain ⟨g3, ys, f1, f2, f3, f4, f5, f6, f7⟩ := finish_ok hz w1 hU.few (hs.head hU.fld hlow) w3 (w4.last hU.few) w6 (by
        have e1 := w7.length_eq
        have e2 := l4.len
        have e3 := pp.length_eq
        have e4 := pairsOf_length (o := o) (typ := s.typ) fun w hw => (isEv_flds ((l4.mem w).mp hw)).2.1
        unfold room at hm
        split at hm
        · rename_i hdo
          rw [if_pos hdo] at e4
          omega
        · rename_i hdo
          rw [if_neg hdo] at e4
          omega) (rows_nodup hd w7 (by
            intro p hp
            obtain ⟨k1, k2⟩ := pairsOf_mem.mp (pp.mem_iff.mp hp)
            have k3 := (isEv_flds ((l4.mem _).mp k1)).2.2
            unfold partsOf at k2
            unfold PartOk
            split at k2
            · rename_i hb
              rw [if_pos hb]
              obtain ⟨t, t1, t2⟩ := List.mem_map.mp k2
              exact ⟨t, t2.symm, k3 t t1⟩
            · rename_i hb
              rw [if_neg hb]
              exact List.mem_singleton.mp k2) ((pp.map rowName).nodup_iff.mpr (pairsOf_names l4.ord fun w hw => (isEv_flds ((l4.mem w).mp hw)).1)))
      have hst3 : StaysIn e z g3 (getLastError g3).1 := .one (c := .getLastError) trivial rfl rfl
      refine ⟨{ c with o := { c.o with gd := (getLastError g3).1 }, opn := false }, ?_, l2, l3, rfl, (w2.trans f4).trans hst3, u.strs, T', ?_, w5, w6, ?_⟩
      · unfold symbClose
        rw [if_pos j1, f1]
        rfl
      · rw [if_neg hW]
        exact ⟨f2.last, l5.stage.uels, ⟨u, f3, rfl, fun hr => by
          have : c.o.reg = false := hr
          rw [j2] at this
          cases this⟩, w4.sub⟩
      · rw [if_neg hW]
        intro p hp
        cases hp
        have hn3 := f2.names
        unfold namesOf at hn3
        obtain ⟨l3, hl3, _⟩ := Option.map_eq_some_iff.mp hn3
        exact ⟨ps, its, ys, pp, w7, f5, f6.stays hst3, f7.stays hz f2.aft hst3 hl3⟩
  obtain ⟨c', k1, k2, k3, k4, k5⟩ := key
  refine ⟨c'.o, W, ?_, k2, k3, l4, k5⟩
  unfold compareSy
  dsimp only
  rw [if_neg (not_not.mpr hc.typ), if_neg (not_not.mpr hc.dim), hc.doms]
  simp only [Res.bind_ok, Bool.false_eq_true, if_false, hc.defs]
  rw [s1, s2]
  simp only [Res.bind_ok, hst]
  have hsy' : (⟨(symbolInfo x.g2 sy2).name, (symbolInfo x.g1 sy1).dim.toNat, symTyp (symbolInfo x.g1 sy1).typ, (symbolInfoX x.g1 sy1).userInfo, defs⟩ : Sy) = s := hsy
  rw [hsy', l1]
  simp only [Res.bind_ok, k1, Res.pure_eq, k4, l5.st]
  congr 2
  by_cases h20 : 20 ≤ s.dim
  · unfold stOf
    rw [if_pos h20]
    by_cases hW : W = []
    · rw [if_pos hW, if_pos (by right; rfl), if_pos hW]
    · rw [if_neg hW, if_neg hW, if_neg (by simp)]
  · have hl := stOf_low (by omega : s.dim < 20) W
    by_cases hW : W = []
    · rw [if_pos (Or.inl (hl.2.2.mpr hW)), if_pos hW]
    · rw [if_neg (by
        rintro (h | h)
        · exact hW (hl.2.2.mp h)
        · exact hl.1 h), if_neg hW]

end Gdx.Diff
