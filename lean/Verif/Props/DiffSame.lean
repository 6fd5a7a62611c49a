import Verif.Proofs.DiffReady

/-!
C57: gdxdiff reports no difference if and only if the files have the same content.
-/

namespace Gdx.Props
open Gdx Gdx.Diff Gdx.Spec

/-! ### records with the same labels -/

/-- `s` is the string of element `e` (gdxUMUelGet) -/
def Label (g : Gx) (e : Int) (s : Str) : Prop := ∃ k, umUelGet g e = .ok (true, s, k)

/-- the two elements, in two files, have the same string; upper and lower case are the same -/
def SameLabel (a b : Gx) (e e' : Int) : Prop := ∃ s s', Label a e s ∧ Label b e' s' ∧ SameNoCase s s'

/-- two records have the same keys: the same strings; with the option MatrixFile the same numbers -/
def SameKey (o : Opt) (a b : Gx) (k k' : List Int) : Prop := if o.matrix then k = k' else List.Forall₂ (SameLabel a b) k k'

/-- the elements of `k` are elements of the file -/
def InFile (g : Gx) (k : List Int) : Prop := ∀ e ∈ k, 1 ≤ e ∧ e ≤ (systemInfo g).2

/-! ### the numbers that the program uses -/

theorem ready_label {us : List Str} {g : Gx} (h : Ready us g) {e : Int} (he : 1 ≤ e ∧ e ≤ (systemInfo g).2) :
    ∃ s k, umUelGet g e = .ok (true, s, k) ∧ 0 ≤ k ∧ lookup false s us = some k.toNat := by
  obtain ⟨u, hu, hr, _⟩ := h.uel
  have hs : (systemInfo g).2 = u.size := by simp [systemInfo, hu]
  rw [hs] at he
  unfold Uel.size at he
  have hi : (e - 1).toNat < u.ents.length := by omega
  obtain ⟨⟨s, k⟩, hk⟩ : ∃ x, u.ents[(e - 1).toNat]? = some x := ⟨_, List.getElem?_eq_getElem hi⟩
  obtain ⟨h1, h2⟩ := hr.done _ s k hi hk
  have := umUelGet_in h.good hu hk
  rw [show (((e - 1).toNat : Nat) : Int) + 1 = e by omega] at this
  exact ⟨s, k, this, h1, h2⟩

theorem same_number {us : List Str} (hd : Distinct false us) {s s' : Str} {n n' : Nat} (h : lookup false s us = some n) (h' : lookup false s' us = some n') :
    n = n' ↔ SameNoCase s s' := by
  obtain ⟨w, w1, w2⟩ := lookup_some h
  obtain ⟨w', w1', w2'⟩ := lookup_some h'
  constructor
  · rintro rfl
    rw [w1] at w1'
    cases w1'
    exact sameName_tr (cs := false) (sameName_comm (cs := false) w2) w2'
  · intro hs
    exact hd.eq w1 w1' (sameName_tr (cs := false) w2 (sameName_tr (cs := false) hs (sameName_comm (cs := false) w2')))

theorem same_keys {us : List Str} (hd : Distinct false us) {a b : Gx} {na nb : Int → Int}
    (ha : ∀ e, 1 ≤ e → e ≤ (systemInfo a).2 → ∃ s, umUelGet a e = .ok (true, s, na e) ∧ 0 ≤ na e ∧ lookup false s us = some (na e).toNat)
    (hb : ∀ e, 1 ≤ e → e ≤ (systemInfo b).2 → ∃ s, umUelGet b e = .ok (true, s, nb e) ∧ 0 ≤ nb e ∧ lookup false s us = some (nb e).toNat) :
    ∀ {k k' : List Int}, InFile a k → InFile b k' → (k.map na = k'.map nb ↔ List.Forall₂ (SameLabel a b) k k')
  | [], [], _, _ => by simp
  | [], _ :: _, _, _ => by simp
  | _ :: _, [], _, _ => by simp
  | e :: k, e' :: k', h, h' => by
    have ih := same_keys hd ha hb (k := k) (k' := k') (fun x hx => h x (List.mem_cons_of_mem _ hx)) (fun x hx => h' x (List.mem_cons_of_mem _ hx))
    obtain ⟨i1, i2⟩ := h e (List.mem_cons_self ..)
    obtain ⟨j1, j2⟩ := h' e' (List.mem_cons_self ..)
    obtain ⟨s, a1, a2, a3⟩ := ha e i1 i2
    obtain ⟨s', b1, b2, b3⟩ := hb e' j1 j2
    rw [List.map_cons, List.map_cons, List.cons.injEq, ih, List.forall₂_cons]
    refine and_congr_left fun _ => ?_
    have hn := same_number hd a3 b3
    constructor
    · intro hx
      exact ⟨s, s', ⟨_, a1⟩, ⟨_, b1⟩, hn.mp (by rw [hx])⟩
    · rintro ⟨t, t', ⟨_, c1⟩, ⟨_, c2⟩, hs⟩
      rw [a1] at c1
      rw [b1] at c2
      cases c1
      cases c2
      have := hn.mpr hs
      omega

/-! ### what the program reads -/

/-- what is known about a symbol of a file: its records are `xs`, with elements of the file -/
structure HoldsSym (z : Cz) (g : Gx) (nr : Int) (d : SymDesc) (xs : List RawEntry) : Prop where
  sym : ∃ m, Loaded z g m d xs ∧ Targets g nr m
  dim : 0 ≤ d.dim ∧ d.dim ≤ 20
  els : ∀ x ∈ xs, InFile g x.key
  one : d.dim = 0 → xs.length = 1
  info : (symbolInfo g nr).dim = d.dim

theorem forall₂_mem {α β : Type} {R : α → β → Prop} {l : List α} {m : List β} (h : List.Forall₂ R l m) : ∀ y ∈ m, ∃ x ∈ l, R x y := by
  induction h with
  | nil => intro y hy; cases hy
  | cons h _ ih =>
    intro y hy
    rcases List.mem_cons.mp hy with rfl | hy
    · exact ⟨_, List.mem_cons_self .., h⟩
    · obtain ⟨x, hx, hr⟩ := ih y hy
      exact ⟨x, List.mem_cons_of_mem _ hx, hr⟩

theorem pairwise_one {l : List (List Int)} (h : l.length = 1) : l.Pairwise (· < ·) := by
  match l, h with
  | [a], _ => exact List.pairwise_singleton _ _

theorem mapKeys_strict {us : Users} : ∀ {n : Nat} {k : List Int}, k.length = n → mapKeys us (List.replicate n .mapped) k = k.map us.num
  | 0, [], _ => rfl
  | n + 1, e :: k, h => by
    have := mapKeys_strict (us := us) (n := n) (k := k) (by simpa using h)
    unfold mapKeys at this ⊢
    rw [List.replicate_succ, List.zipWith_cons_cons, this]
    rfl

theorem allAdmit_strict {us : Users} : ∀ {n : Nat} {k : List Int}, (∀ e ∈ k, 0 ≤ us.num e) → allAdmit us (List.replicate n .mapped) k = true
  | 0, _, _ => rfl
  | n + 1, [], _ => rfl
  | n + 1, e :: k, h => by
    rw [List.replicate_succ]
    unfold allAdmit
    rw [allAdmit_strict fun x hx => h x (List.mem_cons_of_mem _ hx), Bool.and_true]
    exact decide_eq_true (h e (List.mem_cons_self ..))

/-- The program gets all records of the symbol, sorted by the numbers of the strings in UELTable. -/
theorem reads_own {us : List Str} {o : Opt} {z : Cz} (hz : z.Good) {g0 g : Gx} {k : Option (List Int)} (h0 : Ready us g0) (hs : Seen o z g0 k g) {nr : Int}
    {d : SymDesc} {xs : List RawEntry} (h : HoldsSym z g0 nr d xs) : ∃ outs num A gE, Delivered g0.rsv (acrOf g0) d xs outs ∧
      Diff.Reads o z g nr d.dim.toNat A gE ∧ (recPairs A).Perm ((recPairs outs).map fun x => (x.1.map num, x.2)) ∧
      (if o.matrix then num = id else ∀ e, 1 ≤ e → e ≤ (systemInfo g0).2 → ∃ s, umUelGet g0 e = .ok (true, s, num e) ∧ 0 ≤ num e ∧
        lookup false s us = some (num e).toNat) := by
  have hf := (hs.fixed h0.auto h0.nrm).1
  have hr := hs.ready h0
  have hi := ready_idle hr
  obtain ⟨m, hl, ht⟩ := h.sym
  have hl' := loaded_idle hl hf
  have ht' := targets_fixed ht hf
  have hsz : (systemInfo (idle g)).2 = (systemInfo g0).2 := by
    show (g.uel.map Uel.size).getD 0 = (g0.uel.map Uel.size).getD 0
    have : g.uel.map (fun u => (u.ents, u.usr)) = g0.uel.map (fun u => (u.ents, u.usr)) := congrArg Fixed.uel hf
    have h2 : ∀ g : Gx, g.uel.map Uel.size = (g.uel.map (fun u => (u.ents, u.usr))).map (fun p => (p.1.length : Int)) := by
      intro g
      cases g.uel <;> rfl
    rw [h2, h2, this]
  have hrsv : (idle g).rsv = g0.rsv := congrArg Fixed.rsv hf
  have hacr : acrOf (idle g) = acrOf g0 := by
    have e1 : (idle g).acros = g0.acros := congrArg Fixed.acros hf
    have e2 : (idle g).acrNaN = g0.acrNaN := congrArg Fixed.nan hf
    funext x
    have e3 : (idle g).sv = g0.sv := congrArg Fixed.sv hf
    unfold acrOf plainRemap
    rw [e1, e2, e3]
  have hget : ∀ e, umUelGet (idle g) e = umUelGet g0 e := by
    intro e
    have : g.uel.map (fun u => (u.ents, u.usr)) = g0.uel.map (fun u => (u.ents, u.usr)) := congrArg Fixed.uel hf
    unfold umUelGet
    rw [show (idle g).uel = g.uel from rfl]
    cases hu : g.uel with
    | none =>
      rw [hu] at this
      cases hu0 : g0.uel with
      | none => rfl
      | some v => rw [hu0] at this; cases this
    | some u =>
      rw [hu] at this
      cases hu0 : g0.uel with
      | none => rw [hu0] at this; cases this
      | some v =>
        rw [hu0] at this
        have he : u.ents = v.ents := congrArg Prod.fst (Option.some.inj this)
        obtain ⟨e1, e2, e3⟩ := u
        obtain ⟨f1, f2, f3⟩ := v
        dsimp only at he
        rw [he]
        rfl
  obtain ⟨u, hu, _, hroom⟩ := hi.uel
  have hne : d.dim ≠ 0 ∨ xs ≠ [] := by
    by_cases hd : d.dim = 0
    · right
      intro hx
      have := h.one hd
      rw [hx] at this
      cases this
    · exact Or.inl hd
  have hsu : (systemInfo (idle g)).2 = u.size := by simp [systemInfo, hu]
  have hu0 := (hi.inv.usr u hu).hi0
  have hbound : ∀ e, e ≤ (systemInfo g0).2 → e < 2147483648 := by
    intro e he
    rw [← hsz, hsu] at he
    have : intMax = 2147483647 := rfl
    omega
  by_cases ho : o.matrix = true
  · obtain ⟨outs, b1, ⟨g1, g2, b2, b3, _, _⟩, _⟩ := hl'.reads hz ht'
    rw [hrsv, hacr] at b1
    have hw : AsWritten g0.rsv (acrOf g0) d.dim xs outs := by
      unfold Delivered at b1
      rwa [if_neg (by rintro ⟨c1, c2⟩; rcases hne with h | h; exact h c1; exact h c2)] at b1
    refine ⟨outs, id, outs, g2, b1, ?_, by simp, by rw [if_pos ho]⟩
    rw [← rawStart_idle hr.mode hr.nrm] at b2
    refine reads_raw ho b2 b3 hr.auto hr.nrm ⟨hw.len, ?_⟩ ?_
    · by_cases hd : d.dim = 0
      · refine pairwise_one ?_
        rw [List.length_map, ← hw.recs.length_eq]
        exact h.one hd
      · exact hw.sorted hd
    · intro a ha e he
      obtain ⟨x, hx, hxa⟩ := forall₂_mem hw.recs a ha
      rw [hxa.key] at he
      have := h.els x hx e he
      exact ⟨by omega, hbound e this.2⟩
  · obtain ⟨outs, g1, n, us', got, g2, b1, b2, b3, b4⟩ := C22_mapped_partial z hz (idle g) m d xs hl'
      ⟨hi.good, hi.inv, fun x hx => by rw [show (systemInfo (idle g)).2 = (systemInfo g0).2 from hsz]; exact h.els x hx,
        fun w hw => by rw [hu] at hw; cases hw; rw [hsu]; exact hroom⟩ nr ht' hne (List.replicate d.dim.toNat 0) (by simp) h.dim.2
    rw [hrsv, hacr] at b1
    have hw : AsWritten g0.rsv (acrOf g0) d.dim xs outs := by
      unfold Delivered at b1
      rwa [if_neg (by rintro ⟨c1, c2⟩; rcases hne with h | h; exact h c1; exact h c2)] at b1
    have hnum : ∀ e, 1 ≤ e → e ≤ (systemInfo g0).2 → ∃ s, umUelGet g0 e = .ok (true, s, us'.num e) ∧ 0 ≤ us'.num e ∧
        lookup false s us = some (us'.num e).toNat := by
      intro e e1 e2
      obtain ⟨s, k1, c1, c2, c3⟩ := ready_label h0 ⟨e1, e2⟩
      obtain ⟨s', c4⟩ := b3.nums.num e e1 (by rw [hsz]; exact e2)
      rw [hget, c1] at c4
      cases c4
      exact ⟨s, c1, c2, c3⟩
    have hin : ∀ x ∈ outs, InFile g0 x.key := by
      intro a ha e he
      obtain ⟨x, hx, hxa⟩ := forall₂_mem hw.recs a ha
      rw [hxa.key] at he
      exact h.els x hx e he
    have hperm : (recPairs got).Perm ((recPairs outs).map fun x => (x.1.map us'.num, x.2)) := by
      have := (b3.admitted (by simp)).1
      rw [List.filter_eq_self.mpr] at this
      · refine this.trans (List.Perm.of_eq (List.map_congr_left ?_))
        intro x hx
        obtain ⟨a, ha, rfl⟩ := List.mem_map.mp hx
        rw [mapKeys_strict (hw.len a ha)]
      · intro x hx
        obtain ⟨a, ha, rfl⟩ := List.mem_map.mp hx
        refine allAdmit_strict fun e he => ?_
        obtain ⟨i1, i2⟩ := hin a ha e he
        obtain ⟨_, _, i3, _⟩ := hnum e i1 i2
        exact i3
    have hgot : ∀ a ∈ got, ∃ b ∈ outs, a.key = b.key.map us'.num := by
      intro a ha
      have : (a.key, a.vals) ∈ recPairs got := List.mem_map_of_mem ha
      have := hperm.mem_iff.mp this
      obtain ⟨x, hx, hxa⟩ := List.mem_map.mp this
      obtain ⟨b, hb, rfl⟩ := List.mem_map.mp hx
      exact ⟨b, hb, (congrArg Prod.fst hxa).symm⟩
    refine ⟨outs, us'.num, got, g2, b1, ?_, hperm, by rw [if_neg ho]; exact hnum⟩
    rw [← mapStart_idle hr.mode hr.nrm] at b2
    refine reads_map (by simpa using ho) b2 b3.gets hr.auto hr.nrm ⟨?_, ?_⟩ ?_
    · intro a ha
      obtain ⟨b, hb, hk⟩ := hgot a ha
      rw [hk, List.length_map]
      exact hw.len b hb
    · by_cases hd : d.dim = 0
      · refine pairwise_one ?_
        have := hperm.length_eq
        unfold recPairs at this
        rw [List.length_map, List.length_map, List.length_map] at this
        rw [List.length_map, this, ← hw.recs.length_eq]
        exact h.one hd
      · exact b3.order (by have := h.dim.1; omega)
    · intro a ha e he
      obtain ⟨b, hb, hk⟩ := hgot a ha
      rw [hk] at he
      obtain ⟨e', he', rfl⟩ := List.mem_map.mp he
      obtain ⟨i1, i2⟩ := hin b hb e' he'
      obtain ⟨s, i3, i4, _⟩ := hnum e' i1 i2
      refine ⟨i4, ?_⟩
      have h1 := (hi.inv.usr u hu)
      obtain ⟨s', c4⟩ := b3.nums.num e' i1 (by rw [hsz]; exact i2)
      have hsz' : e' ≤ u.size := by rw [← hsu, hsz]; exact i2
      unfold Uel.size at hsz'
      obtain ⟨⟨t, q⟩, hq⟩ : ∃ x, u.ents[(e' - 1).toNat]? = some x := ⟨_, List.getElem?_eq_getElem (by omega)⟩
      have := umUelGet_in hi.good hu hq
      rw [show (((e' - 1).toNat : Nat) : Int) + 1 = e' by omega, c4] at this
      cases this
      rcases h1.bwd _ _ _ hq with hx | ⟨hx1, hx2⟩
      · omega
      · have := h1.hi (us'.num e') (by rw [hx2]; omega)
        have hx : intMax = 2147483647 := rfl
        unfold Uel.size at hroom
        omega

/-! ### records with the same values -/

/-- a record: key and values -/
abbrev Record := List Int × List Dbl

/-- the values with these positions are equal for the program (C56) -/
def FieldsAgree (o : Opt) (a b : Gx) (v w : List Dbl) (ts : List Nat) : Prop :=
  ∀ t ∈ ts, ∃ x y, v[t]? = some x ∧ w[t]? = some y ∧ doublesEqual o a b x y = .ok true

/-- the fields (level, marginal, lower, upper, scale) that the user has not excluded -/
def activeFields (o : Opt) : List Nat := [0, 1, 2, 3, 4].filter fun t => o.active.contains t

theorem fieldsOf_eq (o : Opt) : fieldsOf o = activeFields o := rfl

/-- the values that are compared: of a parameter the value, otherwise the active fields -/
def compared (o : Opt) (typ : Nat) : List Nat :=
  if typ = dtPar then [0] else match o.fldOnly with
    | some f => [f]
    | none => activeFields o

/-- two records with the same key do not differ: for a set the texts are the same, if they are compared, otherwise the values -/
def ValsAgree (o : Opt) (typ : Nat) (a b : Gx) (v w : List Dbl) : Prop :=
  if typ = dtSet then o.compText = true → ∃ x y t, v.head? = some x ∧ w.head? = some y ∧ setText a x = .ok t ∧ setText b y = .ok t
  else FieldsAgree o a b v w (compared o typ)

/-- a record that is in one file only does not count: it has the default values, and these are not to be shown -/
def Negligible (o : Opt) (typ : Nat) (defs : List Dbl) (a b : Gx) (v : List Dbl) : Prop :=
  o.showDef = false ∧ (if typ = dtPar then FieldsAgree o a b v [Dbl.zero] [0] else isVarEqu typ = true ∧ FieldsAgree o a b v defs (activeFields o))

/-- The records `P` of a symbol in file `a` and the records `Q` of a symbol in file `b` do not differ. -/
structure Agree (o : Opt) (typ : Nat) (defs : List Dbl) (a b : Gx) (P Q : List Record) : Prop where
  both : ∀ r ∈ P, ∀ q ∈ Q, SameKey o a b r.1 q.1 → ValsAgree o typ a b r.2 q.2
  left : ∀ r ∈ P, (∀ q ∈ Q, ¬ SameKey o a b r.1 q.1) → Negligible o typ defs a b r.2
  right : ∀ q ∈ Q, (∀ r ∈ P, ¬ SameKey o a b r.1 q.1) → Negligible o typ defs a b q.2

theorem fieldsEqual_iff {o : Opt} {a b : Gx} {v w : List Dbl} : ∀ {ts : List Nat}, fieldsEqual o a b v w ts = .ok true ↔ FieldsAgree o a b v w ts
  | [] => by simp [fieldsEqual, FieldsAgree]
  | t :: ts => by
    unfold fieldsEqual
    have ih := fieldsEqual_iff (o := o) (a := a) (b := b) (v := v) (w := w) (ts := ts)
    constructor
    · intro h
      obtain ⟨x, h1, h⟩ := Res.bind_eq_ok.mp h
      obtain ⟨y, h2, h⟩ := Res.bind_eq_ok.mp h
      obtain ⟨e, h3, h⟩ := Res.bind_eq_ok.mp h
      split at h
      · rename_i he
        subst he
        intro t' ht
        rcases List.mem_cons.mp ht with rfl | ht
        · exact ⟨x, y, need_some h1, need_some h2, h3⟩
        · exact ih.mp h t' ht
      · cases h
    · intro h
      obtain ⟨x, y, h1, h2, h3⟩ := h t (List.mem_cons_self ..)
      rw [h1, h2]
      simp only [need, Res.bind_ok, h3, if_true]
      exact ih.mpr fun t' ht => h t' (List.mem_cons_of_mem _ ht)

theorem sameRec_iff {o : Opt} {s : Sy} {a b : Gx} {v w : List Dbl} : sameRec o s a b v w = .ok true ↔ ValsAgree o s.typ a b v w := by
  unfold sameRec ValsAgree
  by_cases ht : s.typ = dtSet
  · rw [if_pos ht, if_pos ht]
    by_cases hc : o.compText = true
    · rw [if_pos hc]
      constructor
      · intro h _
        obtain ⟨x, h1, h⟩ := Res.bind_eq_ok.mp h
        obtain ⟨y, h2, h⟩ := Res.bind_eq_ok.mp h
        obtain ⟨t, h3, h⟩ := Res.bind_eq_ok.mp h
        obtain ⟨t', h4, h⟩ := Res.bind_eq_ok.mp h
        have : t = t' := by
          injection h with h
          exact of_decide_eq_true h
        subst this
        exact ⟨x, y, t, need_some h1, need_some h2, h3, h4⟩
      · intro h
        obtain ⟨x, y, t, h1, h2, h3, h4⟩ := h hc
        rw [h1, h2]
        simp only [need, Res.bind_ok, h3, h4, decide_true, Res.pure_eq]
    · rw [if_neg hc]
      exact ⟨fun _ h => absurd h hc, fun _ => rfl⟩
  · rw [if_neg ht, if_neg ht, ← fieldsEqual_iff]
    unfold valuesEqual compared
    split
    · exact Iff.rfl
    · split
      · rename_i f hf
        rw [hf]
      · rename_i hf
        rw [hf, fieldsOf_eq]

theorem ignored_iff {o : Opt} {s : Sy} {a b : Gx} {v : List Dbl} : ignored o s a b v = .ok true ↔ Negligible o s.typ s.defs a b v := by
  unfold ignored Negligible isDefault
  constructor
  · intro h
    obtain ⟨d, h1, h⟩ := Res.bind_eq_ok.mp h
    have h2 : (d && !o.showDef) = true := by injection h
    rw [Bool.and_eq_true] at h2
    obtain ⟨rfl, h3⟩ := h2
    refine ⟨by simpa using h3, ?_⟩
    split at h1
    · rename_i ht
      rw [if_pos ht]
      exact fieldsEqual_iff.mp h1
    · rename_i ht
      rw [if_neg ht]
      split at h1
      · rename_i hv
        exact ⟨hv, fieldsEqual_iff.mp h1⟩
      · cases h1
  · rintro ⟨h1, h2⟩
    rw [h1]
    split at h2
    · rename_i ht
      rw [if_pos ht, fieldsEqual_iff.mpr h2]
      rfl
    · rename_i ht
      rw [if_neg ht, if_pos h2.1, fieldsOf_eq, fieldsEqual_iff.mpr h2.2]
      rfl

theorem delivered_pairs {r : SVTab} {acr : Dbl → Dbl} {d : SymDesc} {xs : List RawEntry} {outs outs' : List (RecOut Int)} (hs : ∀ x ∈ xs, Spec.Distinct x.sv)
    (h : Delivered r acr d xs outs) (h' : Delivered r acr d xs outs') : recPairs outs = recPairs outs' := by
  unfold Delivered at h h'
  split at h
  · rename_i hc
    rw [if_pos hc] at h'
    rw [h, h']
  · rename_i hc
    rw [if_neg hc] at h'
    have h1 := h.recs
    have h2 := h'.recs
    clear h h' hc
    induction h1 generalizing outs' with
    | nil => cases h2; rfl
    | cons k1 _ ih =>
      cases h2 with
      | cons k2 t2 =>
        rename_i x o _ _ _ o' _
        unfold recPairs
        rw [List.map_cons, List.map_cons, k1.key, k2.key]
        have hv : o.vals = o'.vals := by
          have v1 := k1.vals
          have v2 := k2.vals
          have hx := hs x (List.mem_cons_self ..)
          generalize x.vals = l at v1 v2
          generalize o.vals = p at v1
          generalize o'.vals = q at v2
          induction v1 generalizing q with
          | nil => cases v2; rfl
          | cons w1 _ ih2 =>
            cases v2 with
            | cons w2 t2 => rw [C04_unique _ _ hx _ _ _ _ w1 w2, ih2 _ t2]
        rw [hv]
        exact congrArg _ (ih (fun y hy => hs y (List.mem_cons_of_mem _ hy)) t2)

/-! ### one symbol -/

/-- the domains of the two symbols are the same, if they are compared -/
def SameDoms (o : Opt) (a b : Gx) (n n' : Int) (dim : Nat) : Prop :=
  o.compDom = true → 0 < dim → ∃ c ds c' ds', symbolGetDomainX a n = .ok (a, (c, ds)) ∧ symbolGetDomainX b n' = .ok (b, (c', ds')) ∧
    ∀ i < dim, SameNoCase (ds.getD i []) (ds'.getD i [])

/-- Symbol `n` of file `a` and symbol `n'` of file `b`, with the records `P` and `Q`, have the same type, dimension, domains and records. -/
structure SameSym (o : Opt) (a b : Gx) (n n' : Int) (P Q : List Record) : Prop where
  typ : symTyp (symbolInfo a n).typ = symTyp (symbolInfo b n').typ
  dim : (symbolInfo a n).dim = (symbolInfo b n').dim
  doms : SameDoms o a b n n' (symbolInfo a n).dim.toNat
  recs : ∃ defs, defRecord (symTyp (symbolInfo a n).typ) (symbolInfoX a n).userInfo = .ok defs ∧ Agree o (symTyp (symbolInfo a n).typ) defs a b P Q

theorem domX_same {g g' : Gx} {n : Int} {r : Int × List Str} (hn : (g.symAt n).isSome = true) (h : symbolGetDomainX g n = .ok (g', r)) : g' = g := by
  unfold symbolGetDomainX at h
  obtain ⟨l, _, h⟩ := Res.bind_eq_ok.mp h
  split at h
  · rename_i hs
    rw [hs] at hn
    cases hn
  · split at h
    · obtain ⟨_, _, h⟩ := Res.bind_eq_ok.mp h
      obtain ⟨_, _, h⟩ := Res.bind_eq_ok.mp h
      cases h
      rfl
    · cases h
      rfl
    · obtain ⟨_, _, h⟩ := Res.bind_eq_ok.mp h
      cases h
      rfl

theorem symAt_fixed {g g' : Gx} (h : g'.fixed = g.fixed) (n : Int) : g'.symAt n = g.symAt n := by
  unfold Gx.symAt
  rw [show g'.names = g.names from congrArg Fixed.names h]

theorem domX_iff {g g' : Gx} (e1 : g'.names = g.names) (e2 : g'.domStrs = g.domStrs) {n : Int} (hn : (g.symAt n).isSome = true) (r : Int × List Str) :
    symbolGetDomainX g' n = .ok (g', r) ↔ symbolGetDomainX g n = .ok (g, r) := by
  obtain ⟨s, hs⟩ := Option.isSome_iff_exists.mp hn
  unfold symbolGetDomainX
  rw [show g'.symAt n = g.symAt n by unfold Gx.symAt; rw [e1], e1, e2, hs]
  have key : ∀ (A : Res (Int × List Str)) (g g' : Gx), ((do let r ← A; pure (g, r)) = Res.ok (g, r)) ↔ ((do let r ← A; pure (g', r)) = Res.ok (g', r)) := by
    intro A g g'
    cases A with
    | ub => exact ⟨fun h => (by cases h), fun h => (by cases h)⟩
    | ok x =>
      constructor
      · intro h
        cases h
        rfl
      · intro h
        cases h
        rfl
  dsimp only
  cases g.names with
  | none => exact ⟨fun h => (by cases h), fun h => (by cases h)⟩
  | some l =>
    simp only [need, Res.bind_ok]
    split
    · cases g.domStrs with
      | none => exact ⟨fun h => (by cases h), fun h => (by cases h)⟩
      | some dl =>
        simp only [Res.bind_ok]
        generalize namesAt dl _ = w
        cases w with
        | ub => exact ⟨fun h => (by cases h), fun h => (by cases h)⟩
        | ok w => exact key (.ok (2, w)) g' g
    · exact key (.ok _) g' g
    · generalize namesAt (l.map Sym.name) _ = w
      cases w with
      | ub => exact ⟨fun h => (by cases h), fun h => (by cases h)⟩
      | ok w => exact key (.ok (3, w)) g' g

theorem pad_all {d : Nat} (hd : d ≤ 20) (l m : List Str) :
    (List.zipWith (sameText false) ((l ++ List.replicate 20 []).take d) ((m ++ List.replicate 20 []).take d)).all id = true ↔
      ∀ i < d, SameNoCase (l.getD i []) (m.getD i []) := by
  have hl : ∀ (l : List Str) (i : Nat), i < d → ((l ++ List.replicate 20 []).take d)[i]? = some (l.getD i []) := by
    intro l i hi
    rw [List.getElem?_take_of_lt hi, List.getElem?_append]
    split
    · rename_i h
      simp [List.getD, List.getElem?_eq_getElem h]
    · rename_i h
      rw [List.getElem?_replicate, if_pos (by omega)]
      simp [List.getD, List.getElem?_eq_none (by omega : l.length ≤ i)]
  have hlen : ∀ l : List Str, ((l ++ List.replicate 20 []).take d).length = d := by
    intro l
    rw [List.length_take, List.length_append, List.length_replicate]
    omega
  rw [List.all_eq_true]
  constructor
  · intro h i hi
    have := h (sameText false (l.getD i []) (m.getD i [])) (by
      refine List.mem_of_getElem? (i := i) ?_
      rw [List.getElem?_zipWith, hl l i hi, hl m i hi])
    exact (sameText_iff false _ _).mp this
  · intro h x hx
    obtain ⟨i, hi⟩ := List.getElem?_of_mem hx
    rw [List.getElem?_zipWith] at hi
    by_cases hid : i < d
    · rw [hl l i hid, hl m i hid] at hi
      cases hi
      exact (sameText_iff false _ _).mpr (h i hid)
    · rw [List.getElem?_eq_none (by rw [hlen]; omega)] at hi
      cases hi

theorem doms_iff {o : Opt} {x : Objs} {a b : Gx} {n n' : Int} {d : Nat} (h1 : x.g1.fixed = a.fixed) (h2 : x.g2.fixed = b.fixed)
    (hn : (a.symAt n).isSome = true) (hn' : (b.symAt n').isSome = true) (hd : d ≤ 20) :
    (domsDiffer o x n n' d = .ok (x, false) ↔ SameDoms o a b n n' d) ∧ ∀ x' e, domsDiffer o x n n' d = .ok (x', e) → x' = x := by
  unfold domsDiffer SameDoms
  by_cases hc : o.compDom = true ∧ 0 < d
  · simp only [if_pos hc]
    have s1 : (x.g1.symAt n).isSome = true := by rw [symAt_fixed h1]; exact hn
    have s2 : (x.g2.symAt n').isSome = true := by rw [symAt_fixed h2]; exact hn'
    constructor
    · constructor
      · intro h _ _
        obtain ⟨⟨g1, c, ds⟩, j1, h⟩ := Res.bind_eq_ok.mp h
        obtain ⟨⟨g2, c', ds'⟩, j2, h⟩ := Res.bind_eq_ok.mp h
        have e1 := domX_same s1 j1
        have e2 := domX_same s2 j2
        subst e1
        subst e2
        refine ⟨c, ds, c', ds', (domX_iff (congrArg Fixed.names h1) (congrArg Fixed.strs h1) hn _).mp j1, (domX_iff (congrArg Fixed.names h2) (congrArg Fixed.strs h2) hn' _).mp j2, (pad_all hd ds ds').mp ?_⟩
        have : (!(List.zipWith (sameText false) ((ds ++ List.replicate 20 []).take d) ((ds' ++ List.replicate 20 []).take d)).all id) = false := by
          injection h with h
          exact congrArg Prod.snd h
        simpa only [Bool.not_eq_false'] using this
      · intro h
        obtain ⟨c, ds, c', ds', j1, j2, j3⟩ := h hc.1 hc.2
        rw [(domX_iff (congrArg Fixed.names h1) (congrArg Fixed.strs h1) hn _).mpr j1, (domX_iff (congrArg Fixed.names h2) (congrArg Fixed.strs h2) hn' _).mpr j2]
        simp only [Res.bind_ok, (pad_all hd ds ds').mpr j3, Bool.not_true]
        rfl
    · intro x' e h
      obtain ⟨⟨g1, c, ds⟩, j1, h⟩ := Res.bind_eq_ok.mp h
      obtain ⟨⟨g2, c', ds'⟩, j2, h⟩ := Res.bind_eq_ok.mp h
      have e1 := domX_same s1 j1
      have e2 := domX_same s2 j2
      subst e1
      subst e2
      cases h
      rfl
  · simp only [if_neg hc]
    constructor
    · exact ⟨fun _ k1 k2 => absurd ⟨k1, k2⟩ hc, fun _ => trivial⟩
    · intro x' e h
      cases h
      rfl

theorem agree_iff {o : Opt} {s : Sy} {a b g1 g2 : Gx} {A B : List (RecOut Int)} {P Q : List Record} {na nb : Int → Int} (e1 : Eyes a g1) (e2 : Eyes b g2)
    (hA : (recPairs A).Perm (P.map fun x => (x.1.map na, x.2))) (hB : (recPairs B).Perm (Q.map fun x => (x.1.map nb, x.2)))
    (hk : ∀ r ∈ P, ∀ q ∈ Q, (r.1.map na = q.1.map nb ↔ SameKey o a b r.1 q.1)) :
    NoDiff o s g1 g2 A B ↔ Agree o s.typ s.defs a b P Q := by
  have conv : ∀ {A : List (RecOut Int)} {P : List Record} {n : Int → Int}, (recPairs A).Perm (P.map fun x => (x.1.map n, x.2)) →
      (∀ x ∈ A, ∃ r ∈ P, x.key = r.1.map n ∧ x.vals = r.2) ∧ (∀ r ∈ P, ∃ x ∈ A, x.key = r.1.map n ∧ x.vals = r.2) := by
    intro A P n h
    constructor
    · intro x hx
      obtain ⟨r, hr, he⟩ := List.mem_map.mp (h.mem_iff.mp (List.mem_map_of_mem hx))
      exact ⟨r, hr, (congrArg Prod.fst he).symm, (congrArg Prod.snd he).symm⟩
    · intro r hr
      obtain ⟨x, hx, he⟩ := List.mem_map.mp (h.mem_iff.mpr (List.mem_map_of_mem (f := fun x : Record => (x.1.map n, x.2)) hr))
      exact ⟨x, hx, congrArg Prod.fst he, congrArg Prod.snd he⟩
  obtain ⟨a1, a2⟩ := conv hA
  obtain ⟨b1, b2⟩ := conv hB
  constructor
  · intro h
    refine ⟨fun r hr q hq hs => ?_, fun r hr hn => ?_, fun q hq hn => ?_⟩
    · obtain ⟨x, hx, x1, x2⟩ := a2 r hr
      obtain ⟨y, hy, y1, y2⟩ := b2 q hq
      have := h.both x hx y hy (by rw [x1, y1]; exact (hk r hr q hq).mpr hs)
      rw [sameRec_eyes e1 e2, x2, y2] at this
      exact sameRec_iff.mp this
    · obtain ⟨x, hx, x1, x2⟩ := a2 r hr
      have := h.left x hx (by
        intro y hy hxy
        obtain ⟨q, hq, y1, _⟩ := b1 y hy
        exact hn q hq ((hk r hr q hq).mp (by rw [← x1, ← y1, hxy])))
      rw [ignored_eyes e1 e2, x2] at this
      exact ignored_iff.mp this
    · obtain ⟨y, hy, y1, y2⟩ := b2 q hq
      have := h.right y hy (by
        intro x hx hxy
        obtain ⟨r, hr, x1, _⟩ := a1 x hx
        exact hn r hr ((hk r hr q hq).mp (by rw [← x1, ← y1, hxy])))
      rw [ignored_eyes e1 e2, y2] at this
      exact ignored_iff.mp this
  · intro h
    refine ⟨fun x hx y hy hxy => ?_, fun x hx hn => ?_, fun y hy hn => ?_⟩
    · obtain ⟨r, hr, x1, x2⟩ := a1 x hx
      obtain ⟨q, hq, y1, y2⟩ := b1 y hy
      rw [sameRec_eyes e1 e2, x2, y2]
      exact sameRec_iff.mpr (h.both r hr q hq ((hk r hr q hq).mp (by rw [← x1, ← y1, hxy])))
    · obtain ⟨r, hr, x1, x2⟩ := a1 x hx
      rw [ignored_eyes e1 e2, x2]
      refine ignored_iff.mpr (h.left r hr fun q hq hs => ?_)
      obtain ⟨y, hy, y1, _⟩ := b2 q hq
      exact hn y hy (by rw [x1, y1]; exact (hk r hr q hq).mpr hs)
    · obtain ⟨q, hq, y1, y2⟩ := b1 y hy
      rw [ignored_eyes e1 e2, y2]
      refine ignored_iff.mpr (h.right q hq fun r hr hs => ?_)
      obtain ⟨x, hx, x1, _⟩ := a2 r hr
      exact hn x hx (by rw [x1, y1]; exact (hk r hr q hq).mpr hs)

theorem loaded_sv {z : Cz} {g : Gx} {nr : Int} {d : SymDesc} {xs : List RawEntry} (h : HoldsSym z g nr d xs) : ∀ x ∈ xs, Spec.Distinct x.sv := by
  obtain ⟨_, hl, _⟩ := h.sym
  exact hl.sv

theorem holds_keys {z : Cz} {g : Gx} {nr : Int} {d : SymDesc} {xs : List RawEntry} {r : SVTab} {acr : Dbl → Dbl} {outs : List (RecOut Int)} (h : HoldsSym z g nr d xs)
    (hd : Delivered r acr d xs outs) : (∀ x ∈ recPairs outs, InFile g x.1) ∧ outs.length = xs.length := by
  unfold Delivered at hd
  rw [if_neg (by
    rintro ⟨c1, c2⟩
    have := h.one c1
    rw [c2] at this
    cases this)] at hd
  refine ⟨fun x hx => ?_, hd.recs.length_eq.symm⟩
  obtain ⟨a, ha, rfl⟩ := List.mem_map.mp hx
  obtain ⟨e, he, hr⟩ := forall₂_mem hd.recs a ha
  show InFile g a.key
  rw [hr.key]
  exact h.els e he

/-- the two symbols can be compared unless the first test fails -/
theorem compareSy_cases {o : Opt} {z : Cz} {fuel : Nat} {x x' : Objs} {n n' : Int} {r : Option (Str × Status)}
    (hx : ∀ x1 e, domsDiffer o x n n' (symbolInfo x.g1 n).dim.toNat = .ok (x1, e) → x1 = x) (h : compareSy o z fuel x n n' = .ok (x', r)) :
    (r ≠ none ∧ ¬ ∃ defs, Comparable o x n n' defs) ∨ ∃ defs, Comparable o x n n' defs := by
  by_cases ht : symTyp (symbolInfo x.g1 n).typ = symTyp (symbolInfo x.g2 n').typ
  swap
  · left
    unfold compareSy at h
    dsimp only at h
    rw [if_pos ht] at h
    obtain ⟨_, rfl⟩ := Prod.mk.inj (Res.ok.inj h)
    exact ⟨nofun, fun ⟨_, hc⟩ => ht hc.typ⟩
  by_cases hd : (symbolInfo x.g1 n).dim = (symbolInfo x.g2 n').dim
  swap
  · left
    unfold compareSy at h
    dsimp only at h
    rw [if_neg (not_not.mpr ht), if_pos hd] at h
    obtain ⟨_, rfl⟩ := Prod.mk.inj (Res.ok.inj h)
    exact ⟨nofun, fun ⟨_, hc⟩ => hd hc.dim⟩
  unfold compareSy at h
  dsimp only at h
  rw [if_neg (not_not.mpr ht), if_neg (not_not.mpr hd)] at h
  obtain ⟨⟨x1, e⟩, h1, h⟩ := Res.bind_eq_ok.mp h
  have := hx _ _ h1
  subst this
  dsimp only at h
  cases e with
  | true =>
    left
    rw [if_pos rfl] at h
    obtain ⟨_, rfl⟩ := Prod.mk.inj (Res.ok.inj h)
    exact ⟨nofun, fun ⟨_, hc⟩ => by have := hc.doms; rw [h1] at this; cases this⟩
  | false =>
    right
    rw [if_neg (by simp)] at h
    obtain ⟨defs, h2, h⟩ := Res.bind_eq_ok.mp h
    exact ⟨defs, ht, hd, h1, h2⟩

/-- One symbol: the program finds no difference if and only if there is none, and in this case it comes to an end. -/
theorem compare_same {us : List Str} (hu : Distinct false us) {o : Opt} {z : Cz} (hz : z.Good) {a b : Gx} (ha : Ready us a) (hb : Ready us b) {fuel : Nat}
    {x : Objs} (s1 : Seen o z a none x.g1) (s2 : Seen o z b none x.g2) {n n' : Int} {d d' : SymDesc} {xs ys : List RawEntry} (H : HoldsSym z a n d xs)
    (H' : HoldsSym z b n' d' ys) (hn : (a.symAt n).isSome = true) (hn' : (b.symAt n').isSome = true) {outs outs' : List (RecOut Int)}
    (hP : Delivered a.rsv (acrOf a) d xs outs) (hQ : Delivered b.rsv (acrOf b) d' ys outs') :
    (∀ x' r, compareSy o z fuel x n n' = .ok (x', r) → (r = none ↔ SameSym o a b n n' (recPairs outs) (recPairs outs'))) ∧
    (SameSym o a b n n' (recPairs outs) (recPairs outs') → xs.length + ys.length < fuel → ∃ x', compareSy o z fuel x n n' = .ok (x', none)) := by
  have f1 := (s1.fixed ha.auto ha.nrm).1
  have f2 := (s2.fixed hb.auto hb.nrm).1
  have e1 := info_fixed f1 n
  have e2 := info_fixed f2 n'
  have e3 := infoX_fixed f1 n
  have hd20 : (symbolInfo a n).dim.toNat ≤ 20 := by
    have := H.dim
    rw [H.info]
    omega
  obtain ⟨k1, k2⟩ := doms_iff (o := o) f1 f2 hn hn' hd20
  obtain ⟨po, na, A, gA, p1, p2, p3, p4⟩ := reads_own hz ha s1 H
  obtain ⟨qo, nb, B, gB, q1, q2, q3, q4⟩ := reads_own hz hb s2 H'
  rw [delivered_pairs (loaded_sv H) p1 hP] at p3
  rw [delivered_pairs (loaded_sv H') q1 hQ] at q3
  obtain ⟨j1, j2⟩ := holds_keys H hP
  obtain ⟨j3, j4⟩ := holds_keys H' hQ
  have hk : ∀ r ∈ recPairs outs, ∀ q ∈ recPairs outs', (r.1.map na = q.1.map nb ↔ SameKey o a b r.1 q.1) := by
    intro r hr q hq
    unfold SameKey
    split
    · rename_i hm
      rw [if_pos hm] at p4 q4
      rw [p4, q4, List.map_id, List.map_id]
    · rename_i hm
      rw [if_neg hm] at p4 q4
      exact same_keys hu p4 q4 (j1 r hr) (j3 q hq)
  have hAgree : ∀ s : Sy, NoDiff o s x.g1 x.g2 A B ↔ Agree o s.typ s.defs a b (recPairs outs) (recPairs outs') := fun s =>
    agree_iff (.of_fixed f1) (.of_fixed f2) p3 q3 hk
  have hcomp : ∀ {defs}, Comparable o x n n' defs → d.dim = d'.dim := by
    intro defs hc
    have := hc.dim
    rw [e1, e2, H.info, H'.info] at this
    exact this
  have hlen : A.length = xs.length ∧ B.length = ys.length := by
    have l1 := p3.length_eq
    have l2 := q3.length_eq
    unfold recPairs at l1 l2
    simp only [List.length_map] at l1 l2
    omega
  constructor
  · intro x' r h
    rcases compareSy_cases (by rw [e1]; exact k2) h with ⟨hr, hnc⟩ | ⟨defs, hc⟩
    · refine ⟨fun h => absurd h hr, fun hs => absurd ?_ hnc⟩
      obtain ⟨defs, h1, h2⟩ := hs.recs
      refine ⟨defs, ?_, ?_, ?_, ?_⟩
      · rw [e1, e2]; exact hs.typ
      · rw [e1, e2]; exact hs.dim
      · rw [e1]; exact k1.mpr hs.doms
      · rw [e1, e3]; exact h1
    · have hdd := hcomp hc
      have hc1 : (symbolInfo x.g1 n).dim.toNat = d.dim.toNat := by rw [e1, H.info]
      obtain ⟨_, _, hr, _⟩ := compareSy_diff hc (by rw [hc1]; exact p2) (by rw [hc1, hdd]; exact q2) h
      rw [hr, hAgree]
      have ht : (syOf x n n' defs).typ = symTyp (symbolInfo a n).typ := by
        show symTyp (symbolInfo x.g1 n).typ = _
        rw [e1]
      rw [ht]
      have hde : defRecord (symTyp (symbolInfo a n).typ) (symbolInfoX a n).userInfo = .ok defs := by
        have := hc.defs
        rw [e1, e3] at this
        exact this
      constructor
      · intro hag
        refine ⟨?_, ?_, ?_, defs, hde, hag⟩
        · have := hc.typ; rw [e1, e2] at this; exact this
        · have := hc.dim; rw [e1, e2] at this; exact this
        · have := hc.doms; rw [e1] at this; exact k1.mp this
      · intro hs
        obtain ⟨defs', h1, h2⟩ := hs.recs
        rw [hde] at h1
        cases h1
        exact h2
  · intro hs hf
    obtain ⟨defs, h1, h2⟩ := hs.recs
    have hc : Comparable o x n n' defs := by
      refine ⟨?_, ?_, ?_, ?_⟩
      · rw [e1, e2]; exact hs.typ
      · rw [e1, e2]; exact hs.dim
      · rw [e1]; exact k1.mpr hs.doms
      · rw [e1, e3]; exact h1
    have hdd := hcomp hc
    have hc1 : (symbolInfo x.g1 n).dim.toNat = d.dim.toNat := by rw [e1, H.info]
    have ht : (syOf x n n' defs).typ = symTyp (symbolInfo a n).typ := by
      show symTyp (symbolInfo x.g1 n).typ = _
      rw [e1]
    exact ⟨_, compareSy_same hc (by rw [hc1]; exact p2) (by rw [hc1, hdd]; exact q2) ((hAgree _).mpr (by rw [ht]; exact h2)) (by omega)⟩

end Gdx.Props
