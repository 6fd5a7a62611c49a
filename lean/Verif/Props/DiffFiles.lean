import Verif.Props.DiffSame

/-!
C57: gdxdiff reports no difference if and only if the files have the same content: the whole program.
-/

namespace Gdx.Props
open Gdx Gdx.Diff Gdx.Spec

/-! ### the object after OpenGDX and the object that only opened the file -/

/-- `g` is `a` with user numbers for the elements -/
structure Like (a g : Gx) : Prop where
  fix : g.fixed = a.fixed.withUel g.fixed
  strs : g.uel.map Uel.strs = a.uel.map Uel.strs
  mode : g.mode = a.mode

theorem Like.names {a g : Gx} (h : Like a g) : g.names = a.names := congrArg Fixed.names h.fix

theorem Like.eyes {a g : Gx} (h : Like a g) : Eyes a g := ⟨congrArg Fixed.sv h.fix, congrArg Fixed.acros h.fix, congrArg Fixed.texts h.fix⟩

theorem Like.info {a g : Gx} (h : Like a g) (n : Int) : symbolInfo g n = symbolInfo a n := by
  unfold symbolInfo Gx.symAt
  rw [h.names]

theorem Like.infoX {a g : Gx} (h : Like a g) (n : Int) : (symbolInfoX g n).userInfo = (symbolInfoX a n).userInfo := by
  unfold symbolInfoX Gx.symAt
  rw [h.names]
  split <;> rfl

theorem Like.symAt {a g : Gx} (h : Like a g) (n : Int) : g.symAt n = a.symAt n := by
  unfold Gx.symAt
  rw [h.names]

theorem Like.acrOf {a g : Gx} (h : Like a g) : acrOf g = acrOf a := by
  have e1 : g.acros = a.acros := congrArg Fixed.acros h.fix
  have e2 : g.acrNaN = a.acrNaN := congrArg Fixed.nan h.fix
  have e3 : g.sv = a.sv := congrArg Fixed.sv h.fix
  funext x
  unfold Gdx.Props.acrOf plainRemap
  rw [e1, e2, e3]

theorem size_strs (g : Gx) : (systemInfo g).2 = (((g.uel.map Uel.strs).getD []).length : Int) := by
  unfold systemInfo
  cases g.uel with
  | none => rfl
  | some u => simp [Uel.size, Uel.strs]

theorem label_iff {g : Gx} (hg : GoodElems g) {e : Int} {s : Str} : Label g e s ↔ 1 ≤ e ∧ ((g.uel.map Uel.strs).getD [])[(e - 1).toNat]? = some s := by
  cases hu : g.uel with
  | none =>
    constructor
    · rintro ⟨k, h⟩
      unfold umUelGet at h
      rw [hu] at h
      cases h
    · rintro ⟨_, h⟩
      cases h
  | some u =>
    simp only [Option.map_some, Option.getD_some]
    constructor
    · rintro ⟨k, h⟩
      have hr : 1 ≤ e ∧ e ≤ u.size := by
        by_contra hc
        unfold umUelGet at h
        rw [hu] at h
        simp only [if_neg hc] at h
        cases h
      refine ⟨hr.1, ?_⟩
      have hi : (e - 1).toNat < u.ents.length := by
        have := hr.2
        unfold Uel.size at this
        omega
      obtain ⟨⟨t, q⟩, hq⟩ : ∃ x, u.ents[(e - 1).toNat]? = some x := ⟨_, List.getElem?_eq_getElem hi⟩
      have := umUelGet_in hg hu hq
      rw [show (((e - 1).toNat : Nat) : Int) + 1 = e by omega, h] at this
      cases this
      unfold Uel.strs
      rw [List.getElem?_map, hq]
      rfl
    · rintro ⟨h1, h2⟩
      unfold Uel.strs at h2
      rw [List.getElem?_map] at h2
      obtain ⟨⟨t, q⟩, hq, rfl⟩ := Option.map_eq_some_iff.mp h2
      have := umUelGet_in hg hu hq
      rw [show (((e - 1).toNat : Nat) : Int) + 1 = e by omega] at this
      exact ⟨q, this⟩

theorem Like.label {a g : Gx} (h : Like a g) (ha : GoodElems a) (hg : GoodElems g) (e : Int) (s : Str) : Label g e s ↔ Label a e s := by
  rw [label_iff ha, label_iff hg, h.strs]

theorem Like.key {o : Opt} {a g b g' : Gx} (h : Like a g) (h' : Like b g') (ha : GoodElems a) (hg : GoodElems g) (hb : GoodElems b) (hg' : GoodElems g')
    (k k' : List Int) : SameKey o g g' k k' ↔ SameKey o a b k k' := by
  have : SameLabel g g' = SameLabel a b := by
    funext e e'
    unfold SameLabel
    simp only [h.label ha hg, h'.label hb hg']
  unfold SameKey
  rw [this]

theorem Like.fields {o : Opt} {a g b g' : Gx} (h : Like a g) (h' : Like b g') (v w : List Dbl) (ts : List Nat) :
    FieldsAgree o g g' v w ts ↔ FieldsAgree o a b v w ts := by
  rw [← fieldsEqual_iff, ← fieldsEqual_iff, fieldsEqual_eyes h.eyes h'.eyes]

theorem Like.vals {o : Opt} {t : Nat} {a g b g' : Gx} (h : Like a g) (h' : Like b g') (v w : List Dbl) : ValsAgree o t g g' v w ↔ ValsAgree o t a b v w := by
  unfold ValsAgree
  simp only [h.fields h', setText_eyes h.eyes, setText_eyes h'.eyes]

theorem Like.negl {o : Opt} {t : Nat} {defs : List Dbl} {a g b g' : Gx} (h : Like a g) (h' : Like b g') (v : List Dbl) :
    Negligible o t defs g g' v ↔ Negligible o t defs a b v := by
  unfold Negligible
  simp only [h.fields h']

theorem Like.agree {o : Opt} {t : Nat} {defs : List Dbl} {a g b g' : Gx} (h : Like a g) (h' : Like b g') (ha : GoodElems a) (hg : GoodElems g)
    (hb : GoodElems b) (hg' : GoodElems g') (P Q : List Record) : Agree o t defs g g' P Q ↔ Agree o t defs a b P Q := by
  have e1 := h.key (o := o) h' ha hg hb hg'
  have e2 := h.vals (o := o) (t := t) h'
  have e3 := h.negl (o := o) (t := t) (defs := defs) h'
  constructor
  · rintro ⟨h1, h2, h3⟩
    simp only [e1, e2, e3] at h1 h2 h3
    exact ⟨h1, h2, h3⟩
  · rintro ⟨h1, h2, h3⟩
    simp only [← e1, ← e2, ← e3] at h1 h2 h3
    exact ⟨h1, h2, h3⟩

theorem Like.doms {o : Opt} {a g b g' : Gx} (h : Like a g) (h' : Like b g') {n n' : Int} (hn : (a.symAt n).isSome = true) (hn' : (b.symAt n').isSome = true)
    (d : Nat) : SameDoms o g g' n n' d ↔ SameDoms o a b n n' d := by
  unfold SameDoms
  simp only [domX_iff h.names (congrArg Fixed.strs h.fix) hn, domX_iff h'.names (congrArg Fixed.strs h'.fix) hn']

theorem Like.sym {o : Opt} {a g b g' : Gx} (h : Like a g) (h' : Like b g') (ha : GoodElems a) (hg : GoodElems g) (hb : GoodElems b) (hg' : GoodElems g')
    {n n' : Int} (hn : (a.symAt n).isSome = true) (hn' : (b.symAt n').isSome = true) (P Q : List Record) :
    SameSym o g g' n n' P Q ↔ SameSym o a b n n' P Q := by
  constructor
  · rintro ⟨h1, h2, h3, defs, h4, h5⟩
    rw [h.info, h'.info] at h1 h2
    rw [h.info, h.doms h' hn hn'] at h3
    rw [h.info, h.infoX] at h4
    rw [h.info, h.agree h' ha hg hb hg'] at h5
    exact ⟨h1, h2, h3, defs, h4, h5⟩
  · rintro ⟨h1, h2, h3, defs, h4, h5⟩
    rw [← h.info, ← h'.info] at h1 h2
    rw [← h.info, ← h.doms h' hn hn'] at h3
    rw [← h.info, ← h.infoX] at h4
    rw [← h.info, ← h.agree h' ha hg hb hg'] at h5
    exact ⟨h1, h2, h3, defs, h4, h5⟩

theorem Like.holds {z : Cz} {a g : Gx} (h : Like a g) {n : Int} {d : SymDesc} {xs : List RawEntry} (H : HoldsSym z a n d xs) : HoldsSym z g n d xs := by
  obtain ⟨⟨m, hl, syms, ht1, ht2⟩, h2, h3, h4, h5⟩ := H
  refine ⟨⟨m, ?_, syms, h.names.trans ht1, ht2⟩, h2, ?_, h4, by rw [h.info]; exact h5⟩
  · obtain ⟨l1, l2, ⟨s, l3, l4, l5⟩, u, l6, l7⟩ := hl
    have hs := h.strs
    rw [l6] at hs
    obtain ⟨u', hu', he⟩ := Option.map_eq_some_iff.mp hs
    refine ⟨h.mode.trans l1, l2, ⟨s, l3, l4, ?_⟩, u', hu', ?_⟩
    · exact ⟨by rw [h.names]; exact l5.names,
        by rw [show g.file = a.file from congrArg Fixed.file h.fix]; exact l5.data, l5.typ,
        (congrArg Fixed.opn h.fix).trans l5.opn, (congrArg Fixed.ver h.fix).trans l5.ver,
        by rw [show g.filters = a.filters from congrArg Fixed.filt h.fix]; exact l5.filt,
        by rw [show g.acros = a.acros from congrArg Fixed.acros h.fix]; exact l5.acros,
        by rw [show g.nextAuto = a.nextAuto from congrArg Fixed.auto h.fix]; exact l5.auto,
        (congrArg Fixed.mapText h.fix).trans l5.text⟩
    · intro x hx
      have : x.1 ∈ u.strs := he ▸ List.mem_map_of_mem hx
      obtain ⟨y, hy, hxy⟩ := List.mem_map.mp this
      rw [← hxy]
      exact l7 y hy
  · intro x hx e he
    have := h3 x hx e he
    rw [size_strs, h.strs, ← size_strs]
    exact this

/-! ### the symbols of the files -/

/-- symbol number `n` of the file has the name `s` -/
def NameOf (g : Gx) (n : Int) (s : Str) : Prop := ∃ y, g.symAt n = some y ∧ y.name = s

/-- the symbol takes part in the comparison (options Id and SkipId) -/
def Selected (o : Opt) (s : Str) : Prop := (∀ l, o.ids = some l → ∃ t ∈ l, SameNoCase s t) ∧ (∀ l, o.skip = some l → ∀ t ∈ l, ¬ SameNoCase s t)

/-- The two files have the same content, as far as the options ask for it: every symbol of the first file that takes part has a
    counterpart with the same name in the second one, with the same content, and every symbol of the second file that takes part has one in the
    first. `P` and `Q` are the records of the symbols. -/
structure SameFiles (o : Opt) (a b : Gx) (P Q : Int → List Record) : Prop where
  left : ∀ n s, NameOf a n s → Selected o s → ∃ n' s', NameOf b n' s' ∧ SameNoCase s s' ∧ SameSym o a b n n' (P n) (Q n')
  right : ∀ n' s', NameOf b n' s' → Selected o s' → ∃ n s, NameOf a n s ∧ SameNoCase s' s

theorem nameOf_iff {g : Gx} {n : Int} {s : Str} : NameOf g n s ↔ ∃ i : Nat, ((g.names.getD []).map Sym.name)[i]? = some s ∧ n = i + 1 := by
  unfold NameOf Gx.symAt
  cases g.names with
  | none => simp
  | some l =>
    simp only [Option.getD_some]
    constructor
    · rintro ⟨y, h, rfl⟩
      split at h
      · rename_i hn
        exact ⟨(n - 1).toNat, by rw [List.getElem?_map, h]; rfl, by omega⟩
      · cases h
    · rintro ⟨i, h, rfl⟩
      rw [List.getElem?_map] at h
      obtain ⟨y, hy, rfl⟩ := Option.map_eq_some_iff.mp h
      have := (List.getElem?_eq_some_iff.mp hy).1
      refine ⟨y, ?_, rfl⟩
      rw [if_pos (by omega), show ((i : Int) + 1 - 1).toNat = i by omega, hy]

theorem find_iff {g : Gx} (hn : NamesOk g) {s : Str} (hs : s ≠ star) {n : Int} : findSymbol g s = (true, n) ↔ ∃ s', NameOf g n s' ∧ SameNoCase s s' := by
  simp only [nameOf_iff]
  unfold findSymbol
  rw [if_neg hs]
  cases hl : g.names with
  | none => simp
  | some l =>
    simp only [Option.getD_some, Prod.mk.injEq, decide_eq_true_eq]
    unfold symIndex indexOf1
    constructor
    · intro h
      cases hk : lookup false s (l.map Sym.name) with
      | none =>
        rw [hk] at h
        simp at h
      | some k =>
        rw [hk] at h
        obtain ⟨x, h1, h2⟩ := lookup_some hk
        exact ⟨x, ⟨k, h1, h.2.symm⟩, sameName_comm (cs := false) h2⟩
    · rintro ⟨s', ⟨i, h1, rfl⟩, h2⟩
      rw [(hn.distinct l hl).lookup h1 (sameName_comm (cs := false) h2)]
      simp only [and_true]
      omega

theorem insMap_keep {α : Type} {k : Str} {v : α} {p : Str × α} : ∀ {l : List (Str × α)}, p ∈ l → p ∈ insMap k v l
  | (a, b) :: l, h => by
    unfold insMap
    split
    · exact h
    · split
      · exact List.mem_cons_of_mem _ h
      · rcases List.mem_cons.mp h with rfl | h
        · exact List.mem_cons_self ..
        · exact List.mem_cons_of_mem _ (insMap_keep h)

theorem insMap_self {α : Type} {k : Str} {v : α} : ∀ {l : List (Str × α)}, (∀ p ∈ l, p.1 ≠ k) → (k, v) ∈ insMap k v l
  | [], _ => List.mem_singleton.mpr rfl
  | (a, b) :: l, h => by
    unfold insMap
    rw [if_neg (fun hc => h (a, b) (List.mem_cons_self ..) hc.symm)]
    split
    · exact List.mem_cons_self ..
    · exact List.mem_cons_of_mem _ (insMap_self fun p hp => h p (List.mem_cons_of_mem _ hp))

theorem insMap_ne {α : Type} {k : Str} {v : α} : ∀ {l : List (Str × α)}, insMap k v l ≠ []
  | [] => by simp [insMap]
  | (a, b) :: l => by
    unfold insMap
    split
    · simp
    · split <;> simp

theorem selected_iff {o : Opt} {s : Str} : ((match o.ids with | none => true | some is => (lookup false s is).isSome) &&
    (match o.skip with | none => true | some is => (lookup false s is).isNone)) = true ↔ Selected o s := by
  rw [Bool.and_eq_true]
  unfold Selected
  refine and_congr ?_ ?_
  · cases o.ids with
    | none => simp
    | some l =>
      simp only [Option.some.injEq, forall_eq']
      constructor
      · intro h
        obtain ⟨k, hk⟩ := Option.isSome_iff_exists.mp h
        obtain ⟨x, h1, h2⟩ := lookup_some hk
        exact ⟨x, List.mem_of_getElem? h1, sameName_comm (cs := false) h2⟩
      · rintro ⟨t, h1, h2⟩
        cases hk : lookup false s l with
        | none => exact absurd (sameName_comm (cs := false) h2) (lookup_none.mp hk t h1)
        | some k => rfl
  · cases o.skip with
    | none => simp
    | some l =>
      simp only [Option.some.injEq, forall_eq', Option.isNone_iff_eq_none]
      rw [lookup_none]
      exact ⟨fun h t ht hs => h t ht (sameName_comm (cs := false) hs), fun h t ht hs => h t ht (sameName_comm (cs := false) hs)⟩

theorem idTable_iff {o : Opt} {g : Gx} (hn : NamesOk g) {p : Str × Int} : p ∈ idTable o g ↔ NameOf g p.2 p.1 ∧ Selected o p.1 := by
  rw [nameOf_iff]
  have hd : Distinct false ((g.names.getD []).map Sym.name) := by
    cases hl : g.names with
    | none => exact .nil
    | some l => exact hn.distinct l hl
  unfold idTable
  dsimp only
  generalize (g.names.getD []).map Sym.name = l at hd ⊢
  have key : ∀ (cond : Str → Bool), (∀ s, cond s = true ↔ Selected o s) → ∀ (w : List (Str × Nat)) (t : List (Str × Int)),
      (w.map Prod.fst).Pairwise (· ≠ ·) → (∀ q ∈ w, ∀ r ∈ t, r.1 ≠ q.1) →
      (p ∈ w.foldl (fun t (p : Str × Nat) => if cond p.1 then insMap p.1 (p.2 : Int) t else t) t ↔
        p ∈ t ∨ Selected o p.1 ∧ ∃ i : Nat, (p.1, i) ∈ w ∧ p.2 = i) := by
    intro cond hcond
    intro w
    induction w with
    | nil => intro t _ _; simp
    | cons a w ih =>
      intro t hw ht
      rw [List.foldl_cons]
      rw [List.map_cons, List.pairwise_cons] at hw
      rw [ih _ hw.2 ?_]
      · constructor
        · rintro (h | ⟨h1, i, h2, h3⟩)
          · split at h
            · rename_i hs
              rcases insMap_mem h with rfl | h
              · exact Or.inr ⟨(hcond _).mp hs, a.2, List.mem_cons_self .., rfl⟩
              · exact Or.inl h
            · exact Or.inl h
          · exact Or.inr ⟨h1, i, List.mem_cons_of_mem _ h2, h3⟩
        · rintro (h | ⟨h1, i, h2, h3⟩)
          · left
            split
            · exact insMap_keep h
            · exact h
          · rcases List.mem_cons.mp h2 with h2 | h2
            · left
              subst h2
              rw [if_pos ((hcond _).mpr h1)]
              have := insMap_self (k := p.1) (v := ((i : Nat) : Int)) (l := t) fun r hr => ht _ (List.mem_cons_self ..) r hr
              rw [← h3] at this
              exact h3 ▸ this
            · exact Or.inr ⟨h1, i, h2, h3⟩
      · intro q hq r hr
        split at hr
        · rcases insMap_mem hr with rfl | hr
          · exact hw.1 _ (List.mem_map_of_mem hq)
          · exact ht q (List.mem_cons_of_mem _ hq) r hr
        · exact ht q (List.mem_cons_of_mem _ hq) r hr
  refine (key _ (fun s => selected_iff) _ _ (by
    rw [List.zipIdx_map_fst]
    exact List.Pairwise.imp (fun {a b} (h : ¬ SameName false a b) (hc : a = b) => h (hc ▸ sameName_refl false a)) hd) (fun _ _ _ hr => by cases hr)).trans ?_
  constructor
  · rintro (h | ⟨h1, i, h2, h3⟩)
    · cases h
    · obtain ⟨k1, k2⟩ := List.mem_zipIdx_iff_le_and_getElem?_sub.mp h2
      exact ⟨⟨i - 1, k2, by simp only at k1; omega⟩, h1⟩
  · rintro ⟨⟨i, h1, h2⟩, h3⟩
    refine Or.inr ⟨h3, i + 1, List.mem_zipIdx_iff_le_and_getElem?_sub.mpr ⟨by simp, by simpa using h1⟩, by rw [h2]; rfl⟩

/-! ### all symbols -/

theorem all_same {o : Opt} {z : Cz} {a b : Gx} (ha : a.nextAuto ≤ 0) (ha0 : a.nrMapped = 0) (hb : b.nextAuto ≤ 0) (hb0 : b.nrMapped = 0) {fuel : Nat}
    {S : Int → Int → Prop} (hS : ∀ p ∈ idTable o a, (findSymbol b p.1).1 = true → ∀ x x' r, Seen o z a none x.g1 → Seen o z b none x.g2 →
      compareSy o z fuel x p.2 (findSymbol b p.1).2 = .ok (x', r) → (r = none ↔ S p.2 (findSymbol b p.1).2)) :
    ∀ {l : List (Str × Int)} {x x' : Objs} {t t' : List (Str × Status)}, (∀ p ∈ l, p ∈ idTable o a ∧ p.1 ≠ star) → Seen o z a none x.g1 →
      Seen o z b none x.g2 → compareAll o z fuel l x t = .ok (x', t') →
      (Seen o z a none x'.g1 ∧ Seen o z b none x'.g2) ∧ (t' = [] ↔ t = [] ∧ ∀ p ∈ l, (findSymbol b p.1).1 = true ∧ S p.2 (findSymbol b p.1).2)
  | [], x, x', t, t', _, h1, h2, h => by
    cases h
    exact ⟨⟨h1, h2⟩, by simp⟩
  | (id, n) :: l, x, x', t, t', hl, h1, h2, h => by
    unfold compareAll at h
    obtain ⟨hl1, hl2⟩ := hl _ (List.mem_cons_self ..)
    have hl' : ∀ p ∈ l, p ∈ idTable o a ∧ p.1 ≠ star := fun p hp => hl p (List.mem_cons_of_mem _ hp)
    rw [find_fixed (h2.fixed hb hb0).1] at h
    split at h
    · rename_i hf
      obtain ⟨⟨x1, r⟩, k1, h⟩ := Res.bind_eq_ok.mp h
      obtain ⟨j1, j2⟩ := compare_seen ha ha0 hb hb0 h1 h2 (symAt_table hl1) (find_some hl2 hf) k1
      have hr := hS _ hl1 hf _ _ _ h1 h2 k1
      obtain ⟨i1, i2⟩ := all_same ha ha0 hb hb0 hS hl' j1 j2 h
      refine ⟨i1, ?_⟩
      rw [i2, List.forall_mem_cons]
      cases r with
      | none =>
        simp only [note]
        simp only [true_iff] at hr
        exact ⟨fun ⟨q1, q2⟩ => ⟨q1, ⟨hf, hr⟩, q2⟩, fun ⟨q1, _, q2⟩ => ⟨q1, q2⟩⟩
      | some p =>
        simp only [note]
        exact ⟨fun ⟨q1, _⟩ => absurd q1 insMap_ne, fun ⟨_, ⟨_, q2⟩, _⟩ => by have := hr.mpr q2; cases this⟩
    · rename_i hf
      obtain ⟨i1, i2⟩ := all_same ha ha0 hb hb0 hS hl' h1 h2 h
      refine ⟨i1, ?_⟩
      rw [i2, List.forall_mem_cons]
      exact ⟨fun ⟨q1, _⟩ => absurd q1 insMap_ne, fun ⟨_, ⟨q1, _⟩, _⟩ => absurd q1 hf⟩

theorem all_none {o : Opt} {z : Cz} {a b : Gx} (ha : a.nextAuto ≤ 0) (ha0 : a.nrMapped = 0) (hb : b.nextAuto ≤ 0) (hb0 : b.nrMapped = 0) {fuel : Nat} :
    ∀ {l : List (Str × Int)} {x : Objs} {t : List (Str × Status)}, (∀ p ∈ l, p ∈ idTable o a ∧ p.1 ≠ star) → Seen o z a none x.g1 →
      Seen o z b none x.g2 → (∀ p ∈ l, (findSymbol b p.1).1 = true ∧ ∀ x : Objs, Seen o z a none x.g1 → Seen o z b none x.g2 →
        ∃ x', compareSy o z fuel x p.2 (findSymbol b p.1).2 = .ok (x', none)) →
      ∃ x', compareAll o z fuel l x t = .ok (x', t) ∧ Seen o z a none x'.g1 ∧ Seen o z b none x'.g2
  | [], x, t, _, h1, h2, _ => ⟨x, rfl, h1, h2⟩
  | (id, n) :: l, x, t, hl, h1, h2, h => by
    obtain ⟨hl1, hl2⟩ := hl _ (List.mem_cons_self ..)
    obtain ⟨hf, hc⟩ := h _ (List.mem_cons_self ..)
    obtain ⟨x1, k1⟩ := hc x h1 h2
    obtain ⟨j1, j2⟩ := compare_seen ha ha0 hb hb0 h1 h2 (symAt_table hl1) (find_some hl2 hf) k1
    obtain ⟨x', i1, i2⟩ := all_none ha ha0 hb hb0 (t := t) (fun p hp => hl p (List.mem_cons_of_mem _ hp)) j1 j2 (fun p hp => h p (List.mem_cons_of_mem _ hp))
    refine ⟨x', ?_, i2⟩
    unfold compareAll
    rw [find_fixed (h2.fixed hb hb0).1, if_pos hf, k1]
    simp only [Res.bind_ok, note]
    exact i1

theorem only_iff {g1 : Gx} : ∀ {l : List (Str × Int)} {t : List (Str × Status)}, onlyIn2 g1 l t = [] ↔ t = [] ∧ ∀ p ∈ l, (findSymbol g1 p.1).1 = true
  | [], t => by simp [onlyIn2]
  | (id, n) :: l, t => by
    unfold onlyIn2
    rw [only_iff, List.forall_mem_cons]
    split
    · rename_i h
      exact ⟨fun ⟨q1, q2⟩ => ⟨q1, h, q2⟩, fun ⟨q1, _, q2⟩ => ⟨q1, q2⟩⟩
    · rename_i h
      exact ⟨fun ⟨q1, _⟩ => absurd q1 insMap_ne, fun ⟨_, q1, _⟩ => absurd q1 h⟩

/-! ### the program -/

/-- What is known about a file: `a` is the object that opened it, `D` the symbols and `P` their records as a reader gets them. -/
structure Content (z : Cz) (a : Gx) (D : Int → SymDesc × List RawEntry) (P : Int → List Record) : Prop where
  fresh : Fresh a
  names : NamesOk a
  holds : ∀ n, (a.symAt n).isSome = true → HoldsSym z a n (D n).1 (D n).2
  recs : ∀ n, (a.symAt n).isSome = true → ∃ outs, Delivered a.rsv (acrOf a) (D n).1 (D n).2 outs ∧ P n = recPairs outs

theorem NamesOk.like {a g : Gx} (h : NamesOk a) (hl : Like a g) : NamesOk g :=
  ⟨fun l h' => h.distinct l (hl.names.symm.trans h'), fun l h' => h.star l (hl.names.symm.trans h')⟩

theorem table_like {o : Opt} {a g : Gx} (h : g.names = a.names) : idTable o g = idTable o a := by
  unfold idTable
  rw [h]

theorem find_like {a g : Gx} (h : g.names = a.names) (s : Str) : findSymbol g s = findSymbol a s := by
  unfold findSymbol
  rw [h]

theorem table_star {o : Opt} {a : Gx} (hn : NamesOk a) {p : Str × Int} (hp : p ∈ idTable o a) : p.1 ≠ star := by
  obtain ⟨i, h1, _⟩ := idTable_mem hp
  cases hl : a.names with
  | none => rw [hl] at h1; simp at h1
  | some l =>
    rw [hl] at h1
    intro hc
    exact hn.star l hl (hc ▸ List.mem_of_getElem? h1)

/-- the sum of the numbers of records of the symbols -/
def totalRecs (a : Gx) (D : Int → SymDesc × List RawEntry) : Nat :=
  (((a.names.getD []).zipIdx 1).map fun p => (D (p.2 : Int)).2.length).sum

theorem le_totalRecs {a : Gx} (D : Int → SymDesc × List RawEntry) {n : Int} (h : (a.symAt n).isSome = true) : (D n).2.length ≤ totalRecs a D := by
  obtain ⟨y, hy⟩ := Option.isSome_iff_exists.mp h
  obtain ⟨i, h1, rfl⟩ := nameOf_iff.mp ⟨y, hy, rfl⟩
  rw [List.getElem?_map] at h1
  obtain ⟨w, hw, _⟩ := Option.map_eq_some_iff.mp h1
  refine List.single_le_sum (by simp) _ (List.mem_map.mpr ⟨(w, i + 1), ?_, by simp⟩)
  exact List.mem_zipIdx_iff_le_and_getElem?_sub.mpr ⟨by simp, by simpa using hw⟩

/-- UELTable after both files are opened -/
def allUels (o : Opt) (a b : Gx) : List Str := addUels (addUels (startUels o) ((a.uel.map Uel.strs).getD [])) ((b.uel.map Uel.strs).getD [])

/-- the objects of the program, after both files are opened -/
theorem prepare_full {o : Opt} {e : Env} {z : Cz} {f f' : List UInt8} {a b gd : Gx} {b1 b2 b3 : Bool} {D D' : Int → SymDesc × List RawEntry}
    {P Q : Int → List Record} (hw : openWriteEx e Gx.new false 0 producer 0 = .ok (gd, (b3, 0)))
    (ho : openRead z Gx.new (.content f) = .ok (a, (b1, 0))) (ho' : openRead z Gx.new (.content f') = .ok (b, (b2, 0))) (ha : Content z a D P)
    (hb : Content z b D' Q) (hsz : (systemInfo a).2 + (systemInfo b).2 ≤ 999999991) :
    ∃ g1 g2, prepare o e z f f' = .ok (some { g1 := g1, g2 := g2, gd := { gd with storeDom := false }, uels := allUels o a b, static := (startUels o).length }) ∧
      Distinct false (allUels o a b) ∧ ((allUels o a b).length : Int) ≤ 1000000000 ∧ Ready (allUels o a b) g1 ∧ Ready (allUels o a b) g2 ∧ Like a g1 ∧ Like b g2 := by
  have h9 := startUels_length o
  have p2 : 0 ≤ (systemInfo b).2 := by rw [size_strs]; omega
  obtain ⟨g, us1, c1, c2, c3, c4, c5, c6, c7, c8, c9⟩ := openGDX_own ho ha.fresh (startUels_distinct o) (by omega)
  obtain ⟨g', us2, d1, d2, d3, d4, d5, d6, d7, d8, d9⟩ := openGDX_own ho' hb.fresh c3 (by omega)
  have hus : us2 = allUels o a b := by rw [d9, c9]; rfl
  subst hus
  refine ⟨g, g', ?_, d3, by omega, c2.ext d4, d2, ⟨c6, c8, c7.trans ha.fresh.mode.symm⟩, ⟨d6, d8, d7.trans hb.fresh.mode.symm⟩⟩
  unfold prepare
  rw [hw]
  simp only [Res.bind_ok, ne_eq, not_true_eq_false, if_false, c1, d1, Res.pure_eq]

theorem prepare_own {o : Opt} {e : Env} {z : Cz} {f f' : List UInt8} {a b gd : Gx} {b1 b2 b3 : Bool} {D D' : Int → SymDesc × List RawEntry}
    {P Q : Int → List Record} (hw : openWriteEx e Gx.new false 0 producer 0 = .ok (gd, (b3, 0)))
    (ho : openRead z Gx.new (.content f) = .ok (a, (b1, 0))) (ho' : openRead z Gx.new (.content f') = .ok (b, (b2, 0))) (ha : Content z a D P)
    (hb : Content z b D' Q) (hsz : (systemInfo a).2 + (systemInfo b).2 ≤ 999999991) :
    ∃ us x, prepare o e z f f' = .ok (some x) ∧ Distinct false us ∧ Ready us x.g1 ∧ Ready us x.g2 ∧ Like a x.g1 ∧ Like b x.g2 := by
  obtain ⟨g1, g2, h1, h2, _, h3, h4, h5, h6⟩ := prepare_full (o := o) hw ho ho' ha hb hsz
  exact ⟨_, _, h1, h2, h3, h4, h5, h6⟩

/-- C57: If gdxdiff compares two files and comes to an end, the table of differences is empty if and only if the files have the same content. -/
theorem C57_files {o : Opt} {e : Env} {z : Cz} (hz : z.Good) {fuel : Nat} {f f' : List UInt8} {a b : Gx} {b1 b2 : Bool}
    {D D' : Int → SymDesc × List RawEntry} {P Q : Int → List Record}
    (ho : openRead z Gx.new (.content f) = .ok (a, (b1, 0))) (ho' : openRead z Gx.new (.content f') = .ok (b, (b2, 0))) (ha : Content z a D P)
    (hb : Content z b D' Q) (hsz : (systemInfo a).2 + (systemInfo b).2 ≤ 999999991) {x : Objs} {t : List (Str × Status)}
    (h : statusTable o e z fuel f f' = .ok (some (x, t))) : t = [] ↔ SameFiles o a b P Q := by
  have hw : ∃ gd b3, openWriteEx e Gx.new false 0 producer 0 = .ok (gd, (b3, 0)) := by
    unfold statusTable prepare at h
    obtain ⟨p, h1, h⟩ := Res.bind_eq_ok.mp h
    obtain ⟨⟨gd, b3, err⟩, h2, h1⟩ := Res.bind_eq_ok.mp h1
    dsimp only at h1
    split at h1
    · cases h1
      cases h
    · rename_i he
      rw [not_not] at he
      subst he
      exact ⟨gd, b3, h2⟩
  obtain ⟨gd, b3, hw⟩ := hw
  obtain ⟨us, y, y1, y2, y3, y4, y5, y6⟩ := prepare_own (o := o) hw ho ho' ha hb hsz
  unfold statusTable at h
  rw [y1] at h
  simp only [Res.bind_ok] at h
  obtain ⟨⟨x1, t1⟩, h3, h⟩ := Res.bind_eq_ok.mp h
  cases h
  have hall : ∀ p ∈ idTable o y.g1, (findSymbol y.g2 p.1).1 = true → ∀ x x' r, Seen o z y.g1 none x.g1 → Seen o z y.g2 none x.g2 →
      compareSy o z fuel x p.2 (findSymbol y.g2 p.1).2 = .ok (x', r) →
      (r = none ↔ SameSym o a b p.2 (findSymbol y.g2 p.1).2 (P p.2) (Q (findSymbol y.g2 p.1).2)) := by
    intro p hp hf x x' r s1 s2 hc
    have n1 := symAt_table hp
    have n2 := find_some (table_star (ha.names.like y5) hp) hf
    rw [y5.symAt] at n1
    rw [y6.symAt] at n2
    obtain ⟨o1, o2, o3⟩ := ha.recs _ n1
    obtain ⟨q1, q2, q3⟩ := hb.recs _ n2
    have hc' := (compare_same y2 hz y3 y4 (fuel := fuel) s1 s2 (y5.holds (ha.holds _ n1)) (y6.holds (hb.holds _ n2)) (by rw [y5.symAt]; exact n1)
      (by rw [y6.symAt]; exact n2) (by rw [y5.acrOf, show y.g1.rsv = a.rsv from congrArg Fixed.rsv y5.fix]; exact o2)
      (by rw [y6.acrOf, show y.g2.rsv = b.rsv from congrArg Fixed.rsv y6.fix]; exact q2)).1 x' r hc
    rw [hc', y5.sym y6 ha.fresh.good y3.good hb.fresh.good y4.good n1 n2, o3, q3]
  obtain ⟨⟨s1, s2⟩, hi⟩ := all_same y3.auto y3.nrm y4.auto y4.nrm
    (S := fun n n' => SameSym o a b n n' (P n) (Q n')) hall (fun p hp => ⟨hp, table_star (ha.names.like y5) hp⟩) .init .init h3
  have m1 : x1.g1.names = a.names := (congrArg Fixed.names (s1.fixed y3.auto y3.nrm).1).trans y5.names
  have m2 : x1.g2.names = b.names := (congrArg Fixed.names (s2.fixed y4.auto y4.nrm).1).trans y6.names
  rw [only_iff, hi, table_like m2, table_like y5.names]
  constructor
  · rintro ⟨⟨_, hA⟩, hB⟩
    constructor
    · intro n s hn hs
      have hp : (s, n) ∈ idTable o a := (idTable_iff ha.names).mpr ⟨hn, hs⟩
      obtain ⟨k1, k2⟩ := hA _ hp
      rw [find_like y6.names] at k1 k2
      obtain ⟨s', j1, j2⟩ := (find_iff hb.names (table_star ha.names hp) (n := (findSymbol b s).2)).mp (Prod.ext k1 rfl)
      exact ⟨_, s', j1, j2, k2⟩
    · intro n s hn hs
      have hp : (s, n) ∈ idTable o b := (idTable_iff hb.names).mpr ⟨hn, hs⟩
      have k1 := hB _ hp
      rw [find_like m1] at k1
      obtain ⟨s', j1, j2⟩ := (find_iff ha.names (table_star hb.names hp) (n := (findSymbol a s).2)).mp (Prod.ext k1 rfl)
      exact ⟨_, s', j1, j2⟩
  · rintro ⟨hA, hB⟩
    refine ⟨⟨rfl, fun p hp => ?_⟩, fun p hp => ?_⟩
    · obtain ⟨hn, hs⟩ := (idTable_iff ha.names).mp hp
      obtain ⟨n', s', j1, j2, j3⟩ := hA _ _ hn hs
      have := (find_iff hb.names (table_star ha.names hp)).mpr ⟨s', j1, j2⟩
      rw [find_like y6.names, this]
      exact ⟨rfl, j3⟩
    · obtain ⟨hn, hs⟩ := (idTable_iff hb.names).mp hp
      obtain ⟨n', s', j1, j2⟩ := hB _ _ hn hs
      have := (find_iff ha.names (table_star hb.names hp)).mpr ⟨s', j1, j2⟩
      rw [find_like m1, this]

/-- C57: For two files with the same content gdxdiff comes to an end. -/
theorem C57_same {o : Opt} {e : Env} {z : Cz} (hz : z.Good) {fuel : Nat} {f f' : List UInt8} {a b gd : Gx} {b1 b2 b3 : Bool}
    {D D' : Int → SymDesc × List RawEntry} {P Q : Int → List Record} (hw : openWriteEx e Gx.new false 0 producer 0 = .ok (gd, (b3, 0)))
    (ho : openRead z Gx.new (.content f) = .ok (a, (b1, 0))) (ho' : openRead z Gx.new (.content f') = .ok (b, (b2, 0))) (ha : Content z a D P)
    (hb : Content z b D' Q) (hsz : (systemInfo a).2 + (systemInfo b).2 ≤ 999999991) (hs : SameFiles o a b P Q)
    (hfuel : totalRecs a D + totalRecs b D' < fuel) : ∃ x, statusTable o e z fuel f f' = .ok (some (x, [])) := by
  obtain ⟨us, y, y1, y2, y3, y4, y5, y6⟩ := prepare_own (o := o) hw ho ho' ha hb hsz
  have hall : ∀ p ∈ idTable o y.g1, (findSymbol y.g2 p.1).1 = true ∧ ∀ x : Objs, Seen o z y.g1 none x.g1 → Seen o z y.g2 none x.g2 →
      ∃ x', compareSy o z fuel x p.2 (findSymbol y.g2 p.1).2 = .ok (x', none) := by
    intro p hp
    rw [table_like y5.names] at hp
    obtain ⟨hn, hsel⟩ := (idTable_iff ha.names).mp hp
    obtain ⟨n', s', j1, j2, j3⟩ := hs.left _ _ hn hsel
    have hfd := (find_iff hb.names (table_star ha.names hp)).mpr ⟨s', j1, j2⟩
    rw [find_like y6.names, hfd]
    refine ⟨rfl, fun x s1 s2 => ?_⟩
    have n1 : (a.symAt p.2).isSome = true := symAt_table hp
    have n2 : (b.symAt n').isSome = true := by
      obtain ⟨w, hw, _⟩ := j1
      rw [hw]
      rfl
    obtain ⟨o1, o2, o3⟩ := ha.recs _ n1
    obtain ⟨q1, q2, q3⟩ := hb.recs _ n2
    refine (compare_same y2 hz y3 y4 (fuel := fuel) s1 s2 (y5.holds (ha.holds _ n1)) (y6.holds (hb.holds _ n2)) (by rw [y5.symAt]; exact n1)
      (by rw [y6.symAt]; exact n2) (by rw [y5.acrOf, show y.g1.rsv = a.rsv from congrArg Fixed.rsv y5.fix]; exact o2)
      (by rw [y6.acrOf, show y.g2.rsv = b.rsv from congrArg Fixed.rsv y6.fix]; exact q2)).2 ?_ ?_
    · rw [y5.sym y6 ha.fresh.good y3.good hb.fresh.good y4.good n1 n2, ← o3, ← q3]
      exact j3
    · have t1 := le_totalRecs D n1
      have t2 := le_totalRecs D' n2
      omega
  obtain ⟨x', k1, k2, k3⟩ := all_none y3.auto y3.nrm y4.auto y4.nrm (t := []) (fun p hp => ⟨hp, table_star (ha.names.like y5) hp⟩) .init .init hall
  have : ∃ x t, statusTable o e z fuel f f' = .ok (some (x, t)) := by
    unfold statusTable
    rw [y1]
    simp only [Res.bind_ok, k1]
    exact ⟨_, _, rfl⟩
  obtain ⟨x, t, h⟩ := this
  have ht := (C57_files hz ho ho' ha hb hsz h).mpr hs
  rw [ht] at h
  exact ⟨x, h⟩

#print axioms C57_files
#print axioms C57_same

end Gdx.Props
