import Verif.Props.DiffEntries
import Verif.Props.DiffOwn
import Verif.Props.MergeAll

/-!
C72: the comparison of two symbols in gdxdiff and what is written for it.
-/

namespace Gdx.Props
open Gdx Gdx.Diff Gdx.Spec
open Gdx.Merge (HasText GoodLabel Out namesOf textsOf)

/-! ### the comparisons are defined -/

/-- the names of the acronyms fit into the buffer -/
def AcrosOk (a : Gx) : Prop := ∃ l, a.acros = some l ∧ ∀ x ∈ l, x.name.length ≤ 255

/-- the values of a record: as many as the type asks for; for a set the number of a text, otherwise finite -/
def ValsOk (typ : Nat) (a : Gx) (v : List Dbl) : Prop :=
  v.length = dataTypSize typ ∧ if typ = dtSet then ∃ d t, v = [d] ∧ HasText a d t ∧ ZFree t else ∀ x ∈ v, Finite x

/-- Nothing in the symbol stops the program: there is a default record (C59), the domains can be asked for if they are compared, the values
    are as above, and with DiffOnly a variable or equation has not 19 dimensions (C59). -/
structure Tidy (o : Opt) (a : Gx) (n : Int) (P : List Record) : Prop where
  ident : Ident (symbolInfo a n).name
  typ : symTyp (symbolInfo a n).typ ≤ 3
  vet : I32 (symbolInfoX a n).userInfo
  defs : ∃ defs, defRecord (symTyp (symbolInfo a n).typ) (symbolInfoX a n).userInfo = .ok defs
  doms : o.compDom = true → ∃ c ds, symbolGetDomainX a n = .ok (a, (c, ds))
  vals : ∀ r ∈ P, ValsOk (symTyp (symbolInfo a n).typ) a r.2
  room : ByField o (symTyp (symbolInfo a n).typ) → (symbolInfo a n).dim ≠ 19

theorem acr_defined {a : Gx} (h : AcrosOk a) {v : Dbl} (hv : Finite v) : ∃ w, acronymName a v = .ok w := by
  obtain ⟨l, hl, hn⟩ := h
  obtain ⟨q, hv⟩ := hv
  have hfin : dblInfo v = .finite := by
    have hx : v.expo ≠ 2047 := by
      intro hc
      unfold Dbl.fv at hv
      rw [if_pos hc] at hv
      split at hv <;> cases hv
    unfold Dbl.expo at hx
    unfold dblInfo
    rw [if_neg hx]
  have hidx : ∃ n, acrIndex v = .ok n := by
    unfold acrIndex acrDiv
    split
    · exact ⟨_, rfl⟩
    · rw [hfin, if_neg (by decide)]
      split
      · rename_i hp
        rw [hp] at hfin
        exact absurd hfin (by decide)
      · exact ⟨_, rfl⟩
  obtain ⟨n, hn'⟩ := hidx
  unfold acronymName
  rw [hn', Res.bind_ok]
  by_cases h0 : n ≤ 0
  · rw [if_pos h0]
    exact ⟨_, rfl⟩
  · rw [if_neg h0, hl]
    simp only [need, Res.bind_ok]
    cases hf : acrFind l n with
    | none => exact ⟨_, rfl⟩
    | some k =>
      obtain ⟨x, x1, _⟩ := acrFind_isSome hf
      have hx := hn x (List.mem_of_getElem? x1)
      have hat : at0 l k = .ok x := by
        unfold at0
        rw [if_pos (by omega), Int.toNat_natCast, x1]
      simp only [hat, Res.bind_ok]
      unfold fits
      rw [if_pos (by unfold ssSize; omega)]
      exact ⟨_, rfl⟩

theorem equal_defined (o : Opt) {a b : Gx} (ha : AcrosOk a) (hb : AcrosOk b) {v w : Dbl} (hv : Finite v) (hw : Finite w) :
    ∃ e, doublesEqual o a b v w = .ok e := by
  obtain ⟨⟨x1, x2⟩, hx⟩ := acr_defined ha hv
  obtain ⟨⟨y1, y2⟩, hy⟩ := acr_defined hb hw
  unfold doublesEqual
  dsimp only
  split
  · split
    · rw [hx]
      simp only [Res.bind_ok]
      split
      · rw [hy]
        simp only [Res.bind_ok]
        split <;> exact ⟨_, rfl⟩
      · exact ⟨_, rfl⟩
    · exact ⟨_, rfl⟩
  · split <;> exact ⟨_, rfl⟩

theorem fields_defined (o : Opt) {a b : Gx} (ha : AcrosOk a) (hb : AcrosOk b) {v w : List Dbl} (hv : ∀ x ∈ v, Finite x) (hw : ∀ x ∈ w, Finite x) :
    ∀ ts : List Nat, (∀ t ∈ ts, t < v.length ∧ t < w.length) → ∃ e, fieldsEqual o a b v w ts = .ok e
  | [], _ => ⟨true, rfl⟩
  | t :: ts, h => by
    obtain ⟨h1, h2⟩ := h t (List.mem_cons_self ..)
    obtain ⟨e, he⟩ := equal_defined o ha hb (hv _ (List.getElem_mem h1)) (hw _ (List.getElem_mem h2))
    obtain ⟨f, hf⟩ := fields_defined o ha hb hv hw ts fun t ht => h t (List.mem_cons_of_mem _ ht)
    unfold fieldsEqual
    rw [List.getElem?_eq_getElem h1, List.getElem?_eq_getElem h2]
    simp only [need, Res.bind_ok, he]
    split
    · exact ⟨f, hf⟩
    · exact ⟨false, rfl⟩

theorem finite_of_expo {w : Dbl} (h : w.expo ≠ 2047) : Finite w := by
  unfold Finite Dbl.fv
  rw [if_neg h]
  exact ⟨_, rfl⟩

theorem defRecord_finite {typ : Nat} {vet : Int} {defs : List Dbl} (h : defRecord typ vet = .ok defs) : defs.length = 5 ∧ ∀ v ∈ defs, Finite v := by
  have key : ∀ l : List Dbl, (l.length = 5 ∧ ∀ v ∈ l, v.expo ≠ 2047) → l.length = 5 ∧ ∀ v ∈ l, Finite v := fun l h => ⟨h.1, fun v hv => finite_of_expo (h.2 v hv)⟩
  unfold defRecord at h
  split at h
  · split at h
    · rename_i hr
      cases h
      obtain ⟨h1, h2⟩ := hr
      interval_cases vet <;> exact key _ (by decide +kernel)
    · cases h
  · split at h
    · split at h
      · rename_i hr
        cases h
        obtain ⟨h1, h2⟩ := hr
        interval_cases vet <;> exact key _ (by decide +kernel)
      · cases h
    · cases h
      exact key _ (by decide +kernel)

theorem setText_defined {a : Gx} {d : Dbl} {t : Str} (h : HasText a d t) : setText a d = .ok t := by
  obtain ⟨n, h1, h2, rfl, h4⟩ := h
  unfold setText
  rw [Merge.roundInt_intDbl h1 h2, h4]
  rfl

theorem typ_cases {t : Nat} (h : t ≤ 3) : t = dtSet ∨ t = dtPar ∨ (isVarEqu t = true ∧ t ≠ dtSet ∧ t ≠ dtPar ∧ dataTypSize t = 5) := by
  interval_cases t <;> decide

theorem active_lt {o : Opt} {t : Nat} (h : t ∈ activeFields o) : t < 5 := by
  have := (List.mem_filter.mp h).1
  simp only [List.mem_cons, List.not_mem_nil, or_false] at this
  omega

theorem ignored_defined {o : Opt} {s : Sy} {g a b : Gx} (ha : AcrosOk a) (hb : AcrosOk b) (ht : s.typ ≤ 3) (hd : ∃ vet, defRecord s.typ vet = .ok s.defs) {v : List Dbl}
    (hv : ValsOk s.typ g v) : ∃ e, ignored o s a b v = .ok e := by
  have : ∃ e, isDefault o s a b v = .ok e := by
    unfold isDefault
    obtain ⟨h1, h2⟩ := hv
    rcases typ_cases ht with h | h | ⟨h3, h4, h5, h6⟩
    · rw [if_neg (by rw [h]; decide), if_neg (by rw [h]; decide)]
      exact ⟨_, rfl⟩
    · rw [if_pos h]
      rw [h] at h1 h2
      rw [if_neg (by decide)] at h2
      refine fields_defined o ha hb h2 ?_ _ ?_
      · intro x hx
        rw [List.mem_singleton.mp hx]
        exact finite_of_expo (by decide)
      · intro t ht
        rw [List.mem_singleton.mp ht, h1]
        decide
    · rw [if_neg h5, if_pos h3]
      rw [if_neg h4] at h2
      obtain ⟨vet, hvet⟩ := hd
      obtain ⟨d1, d2⟩ := defRecord_finite hvet
      refine fields_defined o ha hb h2 d2 _ ?_
      intro t ht
      have := active_lt ht
      omega
  obtain ⟨e, he⟩ := this
  unfold ignored
  rw [he]
  exact ⟨_, rfl⟩

theorem sameRec_defined {o : Opt} (ho : ∀ f, o.fldOnly = some f → f < 5) {s : Sy} {a b : Gx} (ha : AcrosOk a) (hb : AcrosOk b) (ht : s.typ ≤ 3) {v w : List Dbl}
    (hv : ValsOk s.typ a v) (hw : ValsOk s.typ b w) : ∃ e, sameRec o s a b v w = .ok e := by
  unfold sameRec
  obtain ⟨h1, h2⟩ := hv
  obtain ⟨k1, k2⟩ := hw
  rcases typ_cases ht with h | h | ⟨h3, h4, h5, h6⟩
  · rw [if_pos h]
    rw [if_pos h] at h2 k2
    split
    · obtain ⟨d, t, rfl, h3, _⟩ := h2
      obtain ⟨d', t', rfl, h4, _⟩ := k2
      simp only [List.head?_cons, need, Res.bind_ok, setText_defined h3, setText_defined h4]
      exact ⟨_, rfl⟩
    · exact ⟨_, rfl⟩
  · rw [if_neg (by rw [h]; decide)]
    rw [h] at h1 h2 k1 k2
    rw [if_neg (by decide)] at h2 k2
    unfold valuesEqual
    rw [if_pos h]
    refine fields_defined o ha hb h2 k2 _ ?_
    intro t ht
    rw [List.mem_singleton.mp ht, h1, k1]
    decide
  · rw [if_neg h4]
    rw [if_neg h4] at h2 k2
    unfold valuesEqual
    rw [if_neg h5]
    cases hf : o.fldOnly with
    | none =>
      refine fields_defined o ha hb h2 k2 _ ?_
      intro t ht
      have := active_lt ht
      omega
    | some f =>
      refine fields_defined o ha hb h2 k2 _ ?_
      intro t ht
      rw [List.mem_singleton.mp ht]
      have := ho f hf
      omega

theorem field_defined {o : Opt} {typ : Nat} {a b : Gx} (ha : AcrosOk a) (hb : AcrosOk b) (ht : byField o typ = true) {v w : List Dbl}
    (hv : ValsOk typ a v) (hw : ValsOk typ b w) {t : Nat} (hf : t ∈ fieldsOf o) : ∃ e, fieldsEqual o a b v w [t] = .ok e := by
  obtain ⟨h1, h2⟩ := hv
  obtain ⟨k1, k2⟩ := hw
  have hve : isVarEqu typ = true := (Bool.and_eq_true_iff.mp ht).2
  have h4 : typ ≠ dtSet := by
    intro hc
    rw [hc] at hve
    cases hve
  rw [size_varEqu hve] at h1 k1
  rw [if_neg h4] at h2 k2
  refine fields_defined o ha hb h2 k2 _ ?_
  intro x hx
  rw [List.mem_singleton.mp hx]
  have := fieldsOf_lt hf
  omega

/-! ### two symbols -/

/-- the numbers of the elements of `a` in the table `U` -/
def NumberedBy (U : List Str) (a : Gx) (num : Int → Int) : Prop := ∀ e s, Label a e s → 0 ≤ num e ∧ lookup false s U = some (num e).toNat

/-- two symbols whose records are compared -/
structure Compared (o : Opt) (a b : Gx) (n n' : Int) (defs : List Dbl) : Prop where
  typ : symTyp (symbolInfo a n).typ = symTyp (symbolInfo b n').typ
  dim : (symbolInfo a n).dim = (symbolInfo b n').dim
  doms : SameDoms o a b n n' (symbolInfo a n).dim.toNat
  defs : defRecord (symTyp (symbolInfo a n).typ) (symbolInfoX a n).userInfo = .ok defs

/-- the symbol in the difference file -/
def diffSy (a b : Gx) (n n' : Int) (defs : List Dbl) : Sy :=
  ⟨(symbolInfo b n').name, (symbolInfo a n).dim.toNat, symTyp (symbolInfo a n).typ, (symbolInfoX a n).userInfo, defs⟩

/-- what the comparison of the symbols `n` and `n'` with the records `P` and `Q` leads to -/
inductive Gave (o : Opt) (U : List Str) (a b : Gx) (P Q : List Record) (n n' : Int) : Diff.Gives → Prop
  | typ (h : symTyp (symbolInfo a n).typ ≠ symTyp (symbolInfo b n').typ) : Gave o U a b P Q n n' (none, some ((symbolInfo b n').name, .typ))
  | dim (h : symTyp (symbolInfo a n).typ = symTyp (symbolInfo b n').typ) (h2 : (symbolInfo a n).dim ≠ (symbolInfo b n').dim) :
      Gave o U a b P Q n n' (none, some ((symbolInfo b n').name, .dim))
  | dom (h : symTyp (symbolInfo a n).typ = symTyp (symbolInfo b n').typ) (h2 : (symbolInfo a n).dim = (symbolInfo b n').dim)
      (h3 : ¬ SameDoms o a b n n' (symbolInfo a n).dim.toNat) : Gave o U a b P Q n n' (none, some ((symbolInfo b n').name, .domain))
  | recs (defs : List Dbl) (Es : List DiffEntry) (na nb : Int → Int) (hc : Compared o a b n n' defs)
      (hE : ∀ E, E ∈ Es ↔ IsEntry o (symTyp (symbolInfo a n).typ) defs a b P Q E) (hna : NumberedBy U a na) (hnb : NumberedBy U b nb)
      (ho : (Es.map (DiffEntry.ev na nb)).Pairwise Before) :
      Gave o U a b P Q n n' (if Es = [] ∨ 20 ≤ (symbolInfo a n).dim.toNat then none else some (diffSy a b n n' defs, Es.map (DiffEntry.ev na nb)),
        if Es = [] then none else some ((symbolInfo b n').name, stOf (symbolInfo a n).dim.toNat (Es.map (DiffEntry.ev na nb))))

theorem numbers_own {U : List Str} {a : Gx} (hg : GoodElems a) {num : Int → Int}
    (h : ∀ e, 1 ≤ e → e ≤ (systemInfo a).2 → ∃ s, umUelGet a e = .ok (true, s, num e) ∧ 0 ≤ num e ∧ lookup false s U = some (num e).toNat) : NumberedBy U a num := by
  intro e s hs
  have := (label_iff hg).mp hs
  have hlt := (List.getElem?_eq_some_iff.mp this.2).1
  obtain ⟨t, t1, t2, t3⟩ := h e this.1 (by rw [size_strs]; omega)
  obtain ⟨k, hk⟩ := hs
  rw [t1] at hk
  cases hk
  exact ⟨t2, t3⟩

theorem Leaves.nothing {e : Env} {z : Cz} {U N L T : List Str} {a b : Gx} {x : Objs} (hg : Ground e z U N L T x) : Leaves o e z U a b N L T x x none :=
  ⟨.refl _, L, T, by simpa using hg, List.prefix_refl _, List.prefix_refl _, by simp⟩

/-- the comparison of two symbols -/
theorem pair_writes {o : Opt} {e : Env} {z : Cz} (hz : z.Good) (hm : o.matrix = false) {U : List Str} (hu : Distinct false U) (hU : Setup o U) {a b : Gx}
    (ha : Diff.Ready U a) (hb : Diff.Ready U b) {fuel : Nat} {x : Objs} (s1 : Seen o z a none x.g1) (s2 : Seen o z b none x.g2) {n n' : Int} {d d' : SymDesc}
    {xs ys : List RawEntry} (H : HoldsSym z a n d xs) (H' : HoldsSym z b n' d' ys) (hn : (a.symAt n).isSome = true) (hn' : (b.symAt n').isSome = true)
    {outs outs' : List (RecOut Int)} (hP : Delivered a.rsv (acrOf a) d xs outs) (hQ : Delivered b.rsv (acrOf b) d' ys outs') {N L T : List Str}
    (hg : Ground e z U N L T x) (hN : ∀ t ∈ N, ¬ SameNoCase t (symbolInfo b n').name) (t1 : Tidy o a n (recPairs outs)) (t2 : Tidy o b n' (recPairs outs'))
    (c1 : AcrosOk a) (c2 : AcrosOk b) (hf : xs.length + ys.length < fuel) (hmax : ((room o (xs.length + ys.length) : Nat) : Int) ≤ intMax) :
    ∃ x' c, compareSy o z fuel x n n' = .ok (x', c.2) ∧ Gave o U a b (recPairs outs) (recPairs outs') n n' c ∧ Leaves o e z U a b N L T x x' c.1 ∧
      ∀ q ∈ c.1, q.1.id = (symbolInfo b n').name := by
  have f1 := (s1.fixed ha.auto ha.nrm).1
  have f2 := (s2.fixed hb.auto hb.nrm).1
  have e1 := info_fixed f1 n
  have e2 := info_fixed f2 n'
  have e3 := infoX_fixed f1 n
  by_cases ht : symTyp (symbolInfo a n).typ = symTyp (symbolInfo b n').typ
  swap
  · refine ⟨x, (none, some ((symbolInfo b n').name, .typ)), ?_, .typ ht, Leaves.nothing hg, nofun⟩
    unfold compareSy
    dsimp only
    rw [e1, e2, if_pos ht]
    rfl
  by_cases hd : (symbolInfo a n).dim = (symbolInfo b n').dim
  swap
  · refine ⟨x, (none, some ((symbolInfo b n').name, .dim)), ?_, .dim ht hd, Leaves.nothing hg, nofun⟩
    unfold compareSy
    dsimp only
    rw [e1, e2, if_neg (not_not.mpr ht), if_pos hd]
    rfl
  have hd20 : (symbolInfo a n).dim.toNat ≤ 20 := by
    have := H.dim
    rw [H.info]
    omega
  obtain ⟨k1, k2⟩ := doms_iff (o := o) f1 f2 hn hn' hd20
  by_cases hs : SameDoms o a b n n' (symbolInfo a n).dim.toNat
  swap
  · refine ⟨x, (none, some ((symbolInfo b n').name, .domain)), ?_, .dom ht hd hs, Leaves.nothing hg, nofun⟩
    have hok : ∃ x' c, domsDiffer o x n n' (symbolInfo a n).dim.toNat = .ok (x', c) := by
      unfold domsDiffer
      split
      · rename_i hc
        obtain ⟨q, ds, j1⟩ := t1.doms hc.1
        obtain ⟨q', ds', j2⟩ := t2.doms hc.1
        rw [(domX_iff (congrArg Fixed.names f1) (congrArg Fixed.strs f1) hn _).mpr j1, (domX_iff (congrArg Fixed.names f2) (congrArg Fixed.strs f2) hn' _).mpr j2]
        exact ⟨_, _, rfl⟩
      · exact ⟨_, _, rfl⟩
    obtain ⟨x', c, hok⟩ := hok
    obtain rfl := k2 _ _ hok
    cases c with
    | false => exact absurd (k1.mp hok) hs
    | true =>
      unfold compareSy
      dsimp only
      rw [e1, e2, if_neg (not_not.mpr ht), if_neg (not_not.mpr hd), hok]
      rfl
  obtain ⟨defs, hde⟩ := t1.defs
  have hc : Comparable o x n n' defs := ⟨by rw [e1, e2]; exact ht, by rw [e1, e2]; exact hd, by rw [e1]; exact k1.mpr hs, by rw [e1, e3]; exact hde⟩
  obtain ⟨po, na, A, gA, p1, p2, p3, p4⟩ := reads_own hz ha s1 H
  obtain ⟨qo, nb, B, gB, q1, q2, q3, q4⟩ := reads_own hz hb s2 H'
  rw [delivered_pairs (loaded_sv H) p1 hP] at p3
  rw [delivered_pairs (loaded_sv H') q1 hQ] at q3
  rw [if_neg (by rw [hm]; simp)] at p4 q4
  obtain ⟨j1, j2⟩ := holds_keys H hP
  obtain ⟨j3, j4⟩ := holds_keys H' hQ
  have hk : ∀ r ∈ recPairs outs, ∀ q ∈ recPairs outs', (r.1.map na = q.1.map nb ↔ SameKey o a b r.1 q.1) := by
    intro r hr q hq
    unfold SameKey
    rw [if_neg (by rw [hm]; simp)]
    exact same_keys hu p4 q4 (j1 r hr) (j3 q hq)
  have iA : ∀ r ∈ recPairs outs, ∀ q ∈ recPairs outs, r.1.map na = q.1.map na → r.1 = q.1 := by
    intro r hr q hq h
    refine sameKey_self (o := o) ha.good ?_
    unfold SameKey
    rw [if_neg (by rw [hm]; simp)]
    exact (same_keys hu p4 p4 (j1 r hr) (j1 q hq)).mp h
  have iB : ∀ r ∈ recPairs outs', ∀ q ∈ recPairs outs', r.1.map nb = q.1.map nb → r.1 = q.1 := by
    intro r hr q hq h
    refine sameKey_self (o := o) hb.good ?_
    unfold SameKey
    rw [if_neg (by rw [hm]; simp)]
    exact (same_keys hu q4 q4 (j3 r hr) (j3 q hq)).mp h
  have hdd : d.dim = d'.dim := by
    rw [H.info, H'.info] at hd
    exact hd
  have hlen : A.length = xs.length ∧ B.length = ys.length := by
    have l1 := p3.length_eq
    have l2 := q3.length_eq
    unfold recPairs at l1 l2
    simp only [List.length_map] at l1 l2
    omega
  have hc1 : (symbolInfo x.g1 n).dim.toNat = d.dim.toNat := by rw [e1, H.info]
  have hsy : syOf x n n' defs = diffSy a b n n' defs := by
    unfold syOf diffSy
    rw [e1, e2, e3]
  have conv : ∀ {A : List (RecOut Int)} {P : List Record} {n : Int → Int}, (recPairs A).Perm (P.map fun x => (x.1.map n, x.2)) →
      ∀ x ∈ A, ∃ r ∈ P, x.key = r.1.map n ∧ x.vals = r.2 := by
    intro A P n h x hx
    obtain ⟨r, hr, he⟩ := List.mem_map.mp (h.mem_iff.mp (List.mem_map_of_mem hx))
    exact ⟨r, hr, (congrArg Prod.fst he).symm, (congrArg Prod.snd he).symm⟩
  have v1 : ∀ r ∈ A, ValsOk (diffSy a b n n' defs).typ a r.vals := by
    intro r hr
    obtain ⟨p, w1, _, w3⟩ := conv p3 r hr
    rw [w3]
    exact t1.vals p w1
  have v2 : ∀ r ∈ B, ValsOk (diffSy a b n n' defs).typ b r.vals := by
    intro r hr
    obtain ⟨p, w1, _, w3⟩ := conv q3 r hr
    rw [w3]
    have := t2.vals p w1
    rw [← ht] at this
    exact this
  have fit : ∀ {G : Gx} {A : List (RecOut Int)} {P : List Record} {num : Int → Int} {k : Nat}, (recPairs A).Perm (P.map fun x => (x.1.map num, x.2)) →
      (∀ r ∈ P, InFile G r.1) → (∀ e, 1 ≤ e → e ≤ (systemInfo G).2 → ∃ s, umUelGet G e = .ok (true, s, num e) ∧ 0 ≤ num e ∧ lookup false s U = some (num e).toNat) →
      (∀ r ∈ A, ValsOk (diffSy a b n n' defs).typ G r.vals) → Sorted k A → ∀ r ∈ A, RecFit U G (diffSy a b n n' defs).typ k r := by
    intro G A P num k h1 h2 h3 h4 h5 r hr
    obtain ⟨p, w1, w2, w3⟩ := conv h1 r hr
    refine ⟨h5.len r hr, ?_, (h4 r hr).1, fun hset => ?_⟩
    · intro m hm'
      rw [w2] at hm'
      obtain ⟨i, hi, rfl⟩ := List.mem_map.mp hm'
      obtain ⟨i1, i2⟩ := h2 p w1 i hi
      obtain ⟨s, _, i3, i4⟩ := h3 i i1 i2
      have := lookup_lt i4
      omega
    · have := (h4 r hr).2
      rw [if_pos hset] at this
      exact this
  have hD : Defd o (syOf x n n' defs) a b A B := by
    rw [hsy]
    refine ⟨fun r hr => ignored_defined c1 c2 t1.typ ⟨_, hde⟩ (v1 r hr), fun r hr => ignored_defined c1 c2 t1.typ ⟨_, hde⟩ (v2 r hr), ?_, ?_⟩
    · intro r hr q hq _
      exact sameRec_defined hU.fld c1 c2 t1.typ (v1 r hr) (v2 q hq)
    · intro r hr q hq _ hb t ht
      exact field_defined c1 c2 hb (v1 r hr) (v2 q hq) ht
  obtain ⟨x', W, w1, w2, w3, w4, w5⟩ := compareSy_writes (e := e) (N := N) (L := L) (T := T) (G1 := a) (G2 := b) hz hU hu hc (by
      rw [hsy]
      exact ⟨t2.ident, hN, t1.typ, t1.vet, fun hb => by
        have := t1.room (byField_iff.mp hb)
        show (symbolInfo a n).dim.toNat ≠ 19
        omega⟩) (by rw [e1, H.info]; exact H.dim.1) (by rw [hc1]; exact p2) (by rw [hc1, hdd]; exact q2) (.of_fixed f1) (.of_fixed f2)
      (by
        rw [hsy]
        refine fit p3 j1 p4 v1 ?_
        show Sorted (symbolInfo a n).dim.toNat A
        rw [H.info]
        exact p2.sorted) (by
        rw [hsy]
        refine fit q3 j3 q4 v2 ?_
        show Sorted (symbolInfo a n).dim.toNat B
        rw [H.info, hdd]
        exact q2.sorted) hD hg (fuel := fuel) (by omega) (by rw [hlen.1, hlen.2]; exact hmax)
  obtain ⟨Es, rfl, k4⟩ := entries_spec p3 q3 hk iA iB hD w4
  rw [hsy] at w1 w4 w5 k4
  have hnil : Es.map (DiffEntry.ev na nb) = [] ↔ Es = [] := List.map_eq_nil_iff
  refine ⟨x', _, ?_, .recs defs Es na nb ⟨ht, hd, hs, hde⟩ k4 (numbers_own ha.good p4) (numbers_own hb.good q4) w4.ord, ?_, ?_⟩
  · rw [w1, e2]
    simp only [hnil]
    rfl
  · simp only [hnil] at w5
    exact w5
  · intro q hq
    dsimp only at hq
    split at hq
    · cases hq
    · cases hq
      rfl

end Gdx.Props
