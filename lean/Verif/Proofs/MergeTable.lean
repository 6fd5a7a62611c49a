import Verif.Proofs.MergeFiles

/-! gdxmerge: which symbols of the input files become symbols of the merged file, and of which they are made. -/

namespace Gdx.Merge
open Gdx Gdx.Spec

/-- Symbol `s` is one that may become a symbol of the merged file: it has a dimension below 20 and the options allow its name. -/
def Listable (o : Opt) (s : Src) : Prop := s.dim < 20 ∧ o.takes s.name = true

/-- The symbol at position `i` of the symbols of all input files is the first of its name. -/
structure Leads (o : Opt) (l : List Src) (i : Nat) (s : Src) : Prop where
  get : l[i]? = some s
  may : Listable o s
  first : ∀ j t, j < i → l[j]? = some t → Listable o t → ¬ SameNoCase t.name s.name

/-- `t` has name, dimension, type and (for variables and equations) subtype of `s`, and its dimension is below 20 -/
def Joins (s t : Src) : Prop := t.dim < 20 ∧ SameNoCase s.name t.name ∧ t.dim = s.dim ∧ t.typ = s.typ ∧ ((t.typ = dtVar ∨ t.typ = dtEqu) → t.sub = s.sub)

instance (s t : Src) : Decidable (Joins s t) := by unfold Joins SameNoCase; infer_instance

/-- The row for the symbol at position `i`: made of this symbol and of all later ones that agree with it. -/
structure RowOf (o : Opt) (l : List Src) (i : Nat) (r : Row) : Prop where
  lead : ∃ s, Leads o l i s ∧ r.name = s.name ∧ r.dim = s.dim ∧ r.typ = s.typ ∧ r.sub = s.sub ∧ r.srcs = s :: (l.drop (i + 1)).filter (Joins s)

theorem Leads.snoc {o : Opt} {l : List Src} {i : Nat} {s t : Src} (h : Leads o l i s) : Leads o (l ++ [t]) i s := by
  have hi := (List.getElem?_eq_some_iff.mp h.get).1
  refine ⟨by rw [List.getElem?_append_left hi]; exact h.get, h.may, fun j t' hj ht => ?_⟩
  rw [List.getElem?_append_left (by omega)] at ht
  exact h.first j t' hj ht

theorem Leads.unsnoc {o : Opt} {l : List Src} {i : Nat} {s t : Src} (h : Leads o (l ++ [t]) i s) : Leads o l i s ∨ i = l.length ∧ s = t := by
  have hi := (List.getElem?_eq_some_iff.mp h.get).1
  rw [List.length_append, List.length_singleton] at hi
  by_cases hl : i < l.length
  · left
    have hg := h.get
    rw [List.getElem?_append_left hl] at hg
    refine ⟨hg, h.may, fun j t' hj ht => h.first j t' hj ?_⟩
    rw [List.getElem?_append_left (by omega)]
    exact ht
  · right
    have hil : i = l.length := by omega
    subst hil
    have hg := h.get
    simp at hg
    exact ⟨rfl, hg.symm⟩

/-- if there is a symbol of this name, then one leads -/
theorem leads_exists (o : Opt) (l : List Src) : ∀ (i : Nat) {t : Src}, l[i]? = some t → Listable o t → ∃ j s, Leads o l j s ∧ SameNoCase s.name t.name := by
  intro i
  induction i using Nat.strong_induction_on with
  | _ i ih =>
    intro t ht hm
    by_cases h : ∃ j t', j < i ∧ l[j]? = some t' ∧ Listable o t' ∧ SameNoCase t'.name t.name
    · obtain ⟨j, t', h1, h2, h3, h4⟩ := h
      obtain ⟨k, s, h5, h6⟩ := ih j h1 h2 h3
      exact ⟨k, s, h5, h6.trans h4⟩
    · exact ⟨i, t, ⟨ht, hm, fun j t' hj h1 h2 h3 => h ⟨j, t', hj, h1, h2, h3⟩⟩, rfl⟩

theorem Leads.unique {o : Opt} {l : List Src} {i j : Nat} {s t : Src} (h : Leads o l i s) (h' : Leads o l j t) (hn : SameNoCase s.name t.name) : i = j := by
  rcases lt_trichotomy i j with hlt | he | hlt
  · exact absurd hn (h'.first i s hlt h.get h.may)
  · exact he
  · exact absurd hn.symm (h.first j t hlt h'.get h'.may)

theorem RowOf.snoc_not {o : Opt} {l : List Src} {i : Nat} {r : Row} {t : Src} (h : RowOf o l i r) (ht : ∀ s, Leads o l i s → ¬ Joins s t) : RowOf o (l ++ [t]) i r := by
  obtain ⟨s, h1, h2, h3, h4, h5, h6⟩ := h.lead
  have hi := (List.getElem?_eq_some_iff.mp h1.get).1
  refine ⟨s, h1.snoc, h2, h3, h4, h5, ?_⟩
  rw [h6, List.drop_append_of_le_length (by omega), List.filter_append, List.filter_singleton]
  simp [ht s h1]

theorem RowOf.snoc_join {o : Opt} {l : List Src} {i : Nat} {r : Row} {t : Src} (h : RowOf o l i r) (ht : ∀ s, Leads o l i s → Joins s t) :
    RowOf o (l ++ [t]) i { r with srcs := r.srcs ++ [t] } := by
  obtain ⟨s, h1, h2, h3, h4, h5, h6⟩ := h.lead
  have hi := (List.getElem?_eq_some_iff.mp h1.get).1
  refine ⟨s, h1.snoc, h2, h3, h4, h5, ?_⟩
  show r.srcs ++ [t] = _
  rw [h6, List.drop_append_of_le_length (by omega), List.filter_append, List.filter_singleton]
  simp [ht s h1]

theorem fits_iff {r : Row} {s t : Src} (h2 : r.name = s.name) (h3 : r.dim = s.dim) (h4 : r.typ = s.typ) (h5 : r.sub = s.sub) (hd : t.dim < 20)
    (hn : SameNoCase s.name t.name) : r.fits t = true ↔ Joins s t := by
  unfold Row.fits Joins isVarEqu
  rw [h3, h4, h5]
  simp only [Bool.and_eq_true, decide_eq_true_eq, Bool.or_eq_true, Bool.not_eq_true', Bool.or_eq_false_iff, beq_eq_false_iff_ne]
  constructor
  · rintro ⟨⟨a, b⟩, c⟩
    refine ⟨hd, hn, a, b, fun h => ?_⟩
    rcases c with c | c
    · rcases h with h | h
      · exact absurd h c.1
      · exact absurd h c.2
    · exact c
  · rintro ⟨_, _, a, b, c⟩
    refine ⟨⟨a, b⟩, ?_⟩
    by_cases hv : t.typ = dtVar ∨ t.typ = dtEqu
    · exact Or.inr (c hv)
    · rw [not_or] at hv
      exact Or.inl hv

theorem forall₂_modify {α β : Type} {R S : α → β → Prop} {l : List α} {m : List β} (h : List.Forall₂ R l m) : ∀ {n : Nat} {f : β → β},
    (∀ i a b, l[i]? = some a → m[i]? = some b → R a b → if i = n then S a (f b) else S a b) → List.Forall₂ S l (m.modify n f) := by
  induction h with
  | nil => intro n f _; cases n <;> exact .nil
  | cons h t ih =>
    intro n f hh
    cases n with
    | zero =>
      refine .cons (by simpa using hh 0 _ _ rfl rfl h) ?_
      have : ∀ {l : List _} {m : List _}, List.Forall₂ R l m → (∀ (i : Nat) a b, l[i]? = some a → m[i]? = some b → R a b → S a b) → List.Forall₂ S l m := by
        intro l m hl
        induction hl with
        | nil => intro _; exact .nil
        | cons h t ih => intro k; exact .cons (k 0 _ _ rfl rfl h) (ih fun i a b h1 h2 => k (i + 1) a b h1 h2)
      refine this t fun i a b h1 h2 h3 => ?_
      have := hh (i + 1) a b h1 h2 h3
      simpa using this
    | succ n =>
      refine .cons (by simpa using hh 0 _ _ rfl rfl h) (ih fun i a b h1 h2 h3 => ?_)
      have := hh (i + 1) a b h1 h2 h3
      simpa using this

/-- the rows are those of the symbols that lead, in their order -/
theorem table_rows (o : Opt) (l : List Src) : ∃ is : List Nat, is.Pairwise (· < ·) ∧ (∀ i, i ∈ is ↔ ∃ s, Leads o l i s) ∧ List.Forall₂ (RowOf o l) is (table o l) := by
  induction l using List.reverseRecOn with
  | nil =>
    refine ⟨[], List.Pairwise.nil, fun i => ?_, .nil⟩
    simp only [List.not_mem_nil, false_iff]
    rintro ⟨s, h⟩
    have := h.get
    simp at this
  | append_singleton l t ih =>
    obtain ⟨is, h1, h2, h3⟩ := ih
    rw [table_snoc]
    unfold place
    have keep : ∀ R : List Row, (¬ ∃ s, Leads o (l ++ [t]) l.length s) → List.Forall₂ (RowOf o (l ++ [t])) is R →
        ∃ is : List Nat, is.Pairwise (· < ·) ∧ (∀ i, i ∈ is ↔ ∃ s, Leads o (l ++ [t]) i s) ∧ List.Forall₂ (RowOf o (l ++ [t])) is R := by
      intro R hno hR
      refine ⟨is, h1, fun i => ?_, hR⟩
      rw [h2]
      constructor
      · rintro ⟨s, h⟩
        exact ⟨s, h.snoc⟩
      · rintro ⟨s, h⟩
        rcases h.unsnoc with h' | ⟨rfl, _⟩
        · exact ⟨s, h'⟩
        · exact absurd ⟨s, h⟩ hno
    by_cases hd : t.dim < 20
    swap
    · rw [if_neg hd]
      refine keep _ ?_ (h3.imp fun i r h => h.snoc_not fun s _ hj => hd hj.1)
      rintro ⟨s, h⟩
      have := h.get
      simp at this
      subst this
      exact hd h.may.1
    rw [if_pos hd]
    cases hf : (table o l).findIdx? fun r => sameText false r.name t.name with
    | some n =>
      rw [List.findIdx?_eq_some_iff_getElem] at hf
      obtain ⟨f1, f2, _⟩ := hf
      have f2 : SameNoCase (table o l)[n].name t.name := (sameText_iff false _ _).mp f2
      have hn' : n < is.length := by rw [h3.length_eq]; exact f1
      have hrow := (List.forall₂_iff_get.mp h3).2 n hn' f1
      simp only [List.get_eq_getElem] at hrow
      obtain ⟨s0, a1, a2, _⟩ := hrow.lead
      have hs0 : SameNoCase s0.name t.name := by rw [← a2]; exact f2
      dsimp only
      refine keep _ ?_ ?_
      · rintro ⟨s, h⟩
        have := h.get
        simp at this
        subst this
        have hlt := (List.getElem?_eq_some_iff.mp a1.get).1
        refine h.first is[n] s0 hlt ?_ a1.may hs0
        rw [List.getElem?_append_left hlt]
        exact a1.get
      · refine forall₂_modify h3 fun i a b e1 e2 hr => ?_
        obtain ⟨s, b1, b2, b3, b4, b5, b6⟩ := hr.lead
        split
        · rename_i hi
          subst hi
          have ha : a = is[i] := by
            have := (List.getElem?_eq_some_iff.mp e1).2
            exact this.symm
          subst ha
          have hss : s0 = s := by
            have := b1.get
            rw [a1.get] at this
            exact Option.some.inj this
          subst hss
          have hfit := fits_iff b2 b3 b4 b5 hd hs0
          split
          · rename_i hc
            refine hr.snoc_join fun s' hs' => ?_
            have := hs'.get
            rw [b1.get] at this
            cases this
            exact hfit.mp hc
          · rename_i hc
            refine hr.snoc_not fun s' hs' hj => hc ?_
            have := hs'.get
            rw [b1.get] at this
            cases this
            exact hfit.mpr hj
        · rename_i hi
          refine hr.snoc_not fun s' hs' hj => hi ?_
          have := hs'.unique a1 (hj.2.1.trans hs0.symm)
          have e3 : is[n]? = some is[n] := List.getElem?_eq_getElem hn'
          rw [← this, ← e1] at e3
          have hnd : is.Nodup := h1.imp fun h => Nat.ne_of_lt h
          have hil := (List.getElem?_eq_some_iff.mp e1).1
          rw [← List.Nodup.getElem_inj_iff hnd (hi := hil) (hj := hn')]
          rw [List.getElem?_eq_getElem hn', List.getElem?_eq_getElem hil] at e3
          exact (Option.some.inj e3).symm
    | none =>
      rw [List.findIdx?_eq_none_iff] at hf
      have hno : ∀ j s, Leads o l j s → ¬ SameNoCase s.name t.name := by
        intro j s hj hn
        obtain ⟨k, hk, he⟩ := List.mem_iff_getElem.mp ((h2 j).mpr ⟨s, hj⟩)
        have hk' : k < (table o l).length := by rw [← h3.length_eq]; exact hk
        have hrow := (List.forall₂_iff_get.mp h3).2 k hk hk'
        simp only [List.get_eq_getElem, he] at hrow
        obtain ⟨s0, a1, a2, _⟩ := hrow.lead
        have hss := a1.get
        rw [hj.get] at hss
        cases hss
        have := hf _ (List.getElem_mem hk')
        have h' : sameText false (table o l)[k].name t.name = true := by
          rw [a2]
          exact (sameText_iff false _ _).mpr hn
        rw [h'] at this
        cases this
      have hold : List.Forall₂ (RowOf o (l ++ [t])) is (table o l) := h3.imp fun i r h => h.snoc_not fun s hs hj => hno i s hs hj.2.1
      dsimp only
      by_cases ht : o.takes t.name = true
      · rw [if_pos ht]
        have hlead : Leads o (l ++ [t]) l.length t := by
          refine ⟨by simp, ⟨hd, ht⟩, fun j t' hj hg hm hn => ?_⟩
          rw [List.getElem?_append_left hj] at hg
          obtain ⟨k, s, k1, k2⟩ := leads_exists o l j hg hm
          exact hno k s k1 (k2.trans hn)
        refine ⟨is ++ [l.length], ?_, fun i => ?_, ?_⟩
        · refine List.pairwise_append.mpr ⟨h1, List.pairwise_singleton _ _, ?_⟩
          intro a ha b hb
          rw [List.mem_singleton] at hb
          subst hb
          obtain ⟨s, hs⟩ := (h2 a).mp ha
          exact (List.getElem?_eq_some_iff.mp hs.get).1
        · rw [List.mem_append, List.mem_singleton, h2]
          constructor
          · rintro (⟨s, h⟩ | rfl)
            · exact ⟨s, h.snoc⟩
            · exact ⟨t, hlead⟩
          · rintro ⟨s, h⟩
            rcases h.unsnoc with h' | ⟨rfl, _⟩
            · exact Or.inl ⟨s, h'⟩
            · exact Or.inr rfl
        · refine List.rel_append hold (.cons ⟨t, hlead, rfl, rfl, rfl, rfl, ?_⟩ .nil)
          simp
      · rw [if_neg ht]
        refine keep _ ?_ hold
        rintro ⟨s, h⟩
        have := h.get
        simp at this
        subst this
        exact ht h.may.2

theorem RowOf.srcs_sub {o : Opt} {l : List Src} {i : Nat} {r : Row} (h : RowOf o l i r) : r.srcs.Sublist l := by
  obtain ⟨s, h1, _, _, _, _, h6⟩ := h.lead
  obtain ⟨hi, hg⟩ := List.getElem?_eq_some_iff.mp h1.get
  rw [h6]
  refine List.Sublist.trans ?_ (List.drop_sublist i l)
  rw [List.drop_eq_getElem_cons hi, hg]
  exact List.Sublist.cons_cons _ List.filter_sublist

theorem RowOf.srcs_name {o : Opt} {l : List Src} {i : Nat} {r : Row} (h : RowOf o l i r) : ∀ t ∈ r.srcs, SameNoCase r.name t.name ∧ t.dim = r.dim ∧ t.typ = r.typ := by
  obtain ⟨s, h1, h2, h3, h4, _, h6⟩ := h.lead
  intro t ht
  rw [h6] at ht
  rw [h2, h3, h4]
  rcases List.mem_cons.mp ht with rfl | ht
  · exact ⟨rfl, rfl, rfl⟩
  · have := (List.mem_filter.mp ht).2
    have : Joins s t := by simpa using this
    exact ⟨this.2.1, this.2.2.1, this.2.2.2.1⟩

/-- the names of the rows are different -/
theorem table_names (o : Opt) (l : List Src) : (table o l).Pairwise fun r s => ¬ SameNoCase r.name s.name := by
  obtain ⟨is, h1, _, h3⟩ := table_rows o l
  rw [List.pairwise_iff_getElem]
  intro i j hi hj hij hn
  have g := List.forall₂_iff_get.mp h3
  have hi' : i < is.length := by rw [g.1]; exact hi
  have hj' : j < is.length := by rw [g.1]; exact hj
  have r1 := g.2 i hi' hi
  have r2 := g.2 j hj' hj
  simp only [List.get_eq_getElem] at r1 r2
  obtain ⟨s, a1, a2, _⟩ := r1.lead
  obtain ⟨t, b1, b2, _⟩ := r2.lead
  rw [a2, b2] at hn
  have he := a1.unique b1 hn
  have := List.pairwise_iff_getElem.mp h1 i j hi' hj' hij
  omega

/-! ### errors -/

/-- After the symbols `pre` the symbol `t` is an error: its dimension is above 19, or it does not agree with the first one of its name, or its
    text and the first text of this name are not empty and different. -/
def Faulty (o : Opt) (pre : List Src) (t : Src) : Prop :=
  20 ≤ t.dim ∨ ∃ i s, Leads o pre i s ∧ SameNoCase s.name t.name ∧
    (¬ Joins s t ∨ (firstText (s :: (pre.drop (i + 1)).filter (Joins s)) ≠ [] ∧ t.expl ≠ [] ∧ firstText (s :: (pre.drop (i + 1)).filter (Joins s)) ≠ t.expl))

/-- the number of symbols that are an error -/
inductive Errors (o : Opt) : List Src → Nat → Prop
  | nil : Errors o [] 0
  | fine (l : List Src) (n : Nat) (t : Src) (h : Errors o l n) (hf : ¬ Faulty o l t) : Errors o (l ++ [t]) n
  | error (l : List Src) (n : Nat) (t : Src) (h : Errors o l n) (hf : Faulty o l t) : Errors o (l ++ [t]) (n + 1)

theorem faults_faulty (o : Opt) (l : List Src) (t : Src) : faults (table o l) t = 1 ∧ Faulty o l t ∨ faults (table o l) t = 0 ∧ ¬ Faulty o l t := by
  unfold faults
  by_cases hd : t.dim < 20
  swap
  · rw [if_neg hd]
    exact Or.inl ⟨rfl, Or.inl (by omega)⟩
  rw [if_pos hd]
  obtain ⟨is, h1, h2, h3⟩ := table_rows o l
  cases hf : (table o l).findIdx? fun r => sameText false r.name t.name with
  | some n =>
    rw [List.findIdx?_eq_some_iff_getElem] at hf
    obtain ⟨f1, f2, _⟩ := hf
    have f2 : SameNoCase (table o l)[n].name t.name := (sameText_iff false _ _).mp f2
    have hn' : n < is.length := by rw [h3.length_eq]; exact f1
    have hrow := (List.forall₂_iff_get.mp h3).2 n hn' f1
    simp only [List.get_eq_getElem] at hrow
    obtain ⟨s, a1, a2, a3, a4, a5, a6⟩ := hrow.lead
    have hs : SameNoCase s.name t.name := by rw [← a2]; exact f2
    have hfit := fits_iff a2 a3 a4 a5 hd hs
    dsimp only
    rw [List.getElem?_eq_getElem f1]
    simp only [Option.map_some, Option.getD_some]
    have hfa : Faulty o l t ↔ (¬ Joins s t ∨ (firstText (s :: (l.drop (is[n] + 1)).filter (Joins s)) ≠ [] ∧ t.expl ≠ [] ∧
        firstText (s :: (l.drop (is[n] + 1)).filter (Joins s)) ≠ t.expl)) := by
      constructor
      · rintro (h | ⟨i, s', b1, b2, b3⟩)
        · omega
        · have hi := b1.unique a1 (b2.trans hs.symm)
          subst hi
          have := b1.get
          rw [a1.get] at this
          cases this
          exact b3
      · exact fun h => Or.inr ⟨_, s, a1, hs, h⟩
    unfold Row.faults
    rw [a6, hfa]
    by_cases hj : Joins s t
    · rw [if_pos (hfit.mpr hj)]
      by_cases hx : firstText (s :: (l.drop (is[n] + 1)).filter (Joins s)) ≠ [] ∧ t.expl ≠ [] ∧ firstText (s :: (l.drop (is[n] + 1)).filter (Joins s)) ≠ t.expl
      · rw [if_pos hx]
        exact Or.inl ⟨rfl, Or.inr hx⟩
      · rw [if_neg hx]
        exact Or.inr ⟨rfl, fun h => h.elim (fun h => h hj) hx⟩
    · rw [if_neg fun h => hj (hfit.mp h)]
      exact Or.inl ⟨rfl, Or.inl hj⟩
  | none =>
    rw [List.findIdx?_eq_none_iff] at hf
    refine Or.inr ⟨rfl, ?_⟩
    rintro (h | ⟨j, s, hj, hn, _⟩)
    · omega
    · obtain ⟨k, hk, he⟩ := List.mem_iff_getElem.mp ((h2 j).mpr ⟨s, hj⟩)
      have hk' : k < (table o l).length := by rw [← h3.length_eq]; exact hk
      have hrow := (List.forall₂_iff_get.mp h3).2 k hk hk'
      simp only [List.get_eq_getElem, he] at hrow
      obtain ⟨s0, a1, a2, _⟩ := hrow.lead
      have hss := a1.get
      rw [hj.get] at hss
      cases hss
      have := hf _ (List.getElem_mem hk')
      have h' : sameText false (table o l)[k].name t.name = true := by
        rw [a2]
        exact (sameText_iff false _ _).mpr hn
      rw [h'] at this
      cases this

theorem errsOf_errors (o : Opt) (l : List Src) : Errors o l (errsOf o l) := by
  induction l using List.reverseRecOn with
  | nil => exact .nil
  | append_singleton l t ih =>
    rw [errsOf_snoc]
    rcases faults_faulty o l t with ⟨h1, h2⟩ | ⟨h1, h2⟩
    · rw [h1]
      exact .error l _ t ih h2
    · rw [h1]
      exact .fine l _ t ih h2

end Gdx.Merge
