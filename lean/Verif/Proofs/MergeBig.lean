import Verif.Proofs.MergePass

/-! gdxmerge with the option for big symbols: the big symbols are collected one by one. -/

namespace Gdx.Merge
open Gdx Gdx.Spec Gdx.Props

theorem open_auto {z : Cz} {d : Disk} {a : Gx} {r : Bool × Int} (h : openReadXX z Gx.new d 0 = .ok (a, r)) (hm : a.mode = .rInit) : a.nextAuto = 0 := by
  cases d with
  | noName => cases h; cases hm
  | ioErr e => cases h; cases hm
  | content f =>
    have := (Gdx.Diff.openReadXX_still (z := z) (g := Gx.new) (f := f) (m := 0)).of_ok h
    exact congrArg Prod.fst this

theorem goodLabel_nil : GoodLabel [] := ⟨by decide, by decide⟩

/-- the array of strings behind position `dim` was never used -/
def Fresh (dim : Nat) (w : Bufs) : Prop := w.strs.length = 20 ∧ w.strs.drop dim = List.replicate (20 - dim) []

theorem Fresh.overwrite {dim : Nat} {w : Bufs} (h : Fresh dim w) (hd : dim ≤ 20) {key : List Str} (hk : key.length = dim) :
    (overwrite w.strs key).length = 20 ∧ (overwrite w.strs key).drop dim = List.replicate (20 - dim) [] := by
  refine ⟨by rw [overwrite_len (by rw [h.1, hk]; exact hd), h.1], ?_⟩
  unfold Merge.overwrite
  rw [List.drop_left' hk, hk]
  exact h.2

theorem takeRecBig_ok (e : Env) (z : Cz) {A X : List Str} (h0 : [] ∈ A) {b : Gx} (hm : b.mode = .strElem) (hA : A.length < 2147483647) (hX : X.length < 2147483648)
    {u : Uel} (hu : Labels A u) {P : List Str} (hp : Texts X P) {y : MSym} {dim typ : Nat} (hd0 : 1 ≤ dim) (hd : dim ≤ 17) (hy : y.dim = dim + 1) (ht : y.typ = typ)
    {id : Str} {k k' : List Str} {w : Bufs} (hkk : k <+: k') (hw : Arr u.strs id k' w) (hfr : Fresh dim w) {r : RecOut Str} {rs : List (RecOut Str)}
    (hf : Firsts dim k (r :: rs)) {g : Gx} (hv : ValsOk X g typ r.vals) (hg : ∀ s ∈ r.key, GoodLabel s ∧ s ∈ A) :
    ∃ u' P' w' x, takeRec g y typ (some (dim + 2)) { b with uel := some u } P w r = .ok ({ b with uel := some u' }, P', w', x) ∧ Labels A u' ∧
      u.strs <+: u'.strs ∧ Texts X P' ∧ P <+: P' ∧ Arr u'.strs id (r.key ++ [[], []]) w' ∧ Fresh dim w' ∧ Taken u'.strs P' g typ id r x ∧
      StaysIn e z { b with uel := some u } { b with uel := some u' } := by
  obtain ⟨f1, f2, _⟩ := hf
  obtain ⟨g1, g2, g3, g4⟩ := f2.resolve_left (by omega)
  obtain ⟨P', v', p1, p2, p3, p4, p5⟩ := poolText_ok hX hp hv hw.nval
  have hrec : ∀ (ss : List Str) (ix : List Int), record y ⟨ss, ix, v'⟩ = .ok (ix.take (dim + 1), v'.take r.vals.length) := by
    intro ss ix
    unfold record
    rw [ht, hv.1]
    simp only [Res.bind_ok]
    rw [if_neg (by omega), hy]
    rfl
  obtain ⟨o1, o2⟩ := hfr.overwrite (by omega) f1
  have hst : (overwrite w.strs r.key).take (dim + 2) = r.key ++ [[], []] := by
    have : overwrite w.strs r.key = r.key ++ List.replicate (20 - dim) [] := by
      rw [← o2]
      conv_lhs => rw [← List.take_append_drop dim (overwrite w.strs r.key)]
      rw [overwrite_take f1]
    rw [this, show 20 - dim = (18 - dim) + 2 by omega]
    rw [List.take_append, f1, List.take_of_length_le (by omega), show dim + 2 - dim = 2 by omega, List.take_replicate, Nat.min_eq_left (by omega)]
    rfl
  have hkl : k.length ≤ k'.length := hkk.length_le
  obtain ⟨u', idx, a1, a2, a3, a4, a5, a6⟩ := setIndex_ok e z hm hA hu (dim := dim + 2) (by omega) (by omega) (id := id) (k := k') (key := r.key ++ [[], []]) (frst := r.frst)
    (w := { w with strs := overwrite w.strs r.key, vals := overwrite w.vals r.vals })
    ⟨hw.nidx, by rw [overwrite_len (by rw [hw.nval]; exact typSize_le hv.1)]; exact hw.nval, hw.key⟩ hst (by simp [f1])
    ⟨g1, by omega, by omega, by
      obtain ⟨q, rfl⟩ := hkk
      rw [List.take_append_of_le_length (by omega), List.take_append_of_le_length (by omega)]
      exact g4⟩ (by
      intro s hs
      rcases List.mem_append.mp hs with hs | hs
      · exact hg s hs
      · simp at hs
        subst hs
        exact ⟨goodLabel_nil, h0⟩)
  have hkey : List.Forall₂ (Label u'.strs) (idx.take (dim + 1)) (id :: r.key) := by
    have := List.forall₂_take (dim + 1) a5
    rw [List.take_take, Nat.min_eq_left (by omega), List.take_succ_cons, List.take_left' f1] at this
    exact this
  refine ⟨u', P', { strs := overwrite w.strs r.key, idx := idx, vals := v' }, (idx.take (dim + 1), v'.take r.vals.length), ?_, a2, a3, p3, p4, ?_, ⟨o1, o2⟩, ?_, a6⟩
  · unfold takeRec
    simp only [a1, Res.bind_ok, p1, hrec]
    rfl
  · refine ⟨a4, p2, ?_⟩
    rw [List.length_append, f1]
    exact a5
  · exact ⟨hkey, p5⟩

theorem takeRecsBig_ok (e : Env) (z : Cz) {A X : List Str} (h0 : [] ∈ A) {b : Gx} (hm : b.mode = .strElem) (hA : A.length < 2147483647) (hX : X.length < 2147483648)
    {y : MSym} {dim typ : Nat} (hd0 : 1 ≤ dim) (hd : dim ≤ 17) (hy : y.dim = dim + 1) (ht : y.typ = typ) {id : Str} {a : Gx} {rs : List (RecOut Str)} :
    ∀ {fuel : Nat} {g g' : Gx} {u : Uel} {P : List Str} {w : Bufs} {k k' : List Str}, DeliversStr g rs g' → rs.length < fuel → g.nrMapped = 0 → g.mode = .rStr →
      g.texts = a.texts → Labels A u → Texts X P → k <+: k' → Arr u.strs id k' w → Fresh dim w → Firsts dim k rs →
      (∀ r ∈ rs, ValsOk X a typ r.vals ∧ ∀ s ∈ r.key, GoodLabel s ∧ s ∈ A) →
      ∃ u' P' w' xs, takeRecs y typ (some (dim + 2)) fuel g { b with uel := some u } P w =
          .ok ({ g' with sort := none, cur := .none, mode := .rInit }, { b with uel := some u' }, P', w', xs) ∧ g'.nrMapped = 0 ∧ Labels A u' ∧
        u.strs <+: u'.strs ∧ Texts X P' ∧ P <+: P' ∧ (w'.idx.length = 20 ∧ w'.vals.length = 5 ∧ Fresh dim w') ∧ AllTaken u'.strs P' a typ id rs xs ∧
        StaysIn e z { b with uel := some u } { b with uel := some u' } := by
  induction rs with
  | nil =>
    intro fuel g g' u P w k k' hdl hfu hn hmo htx hu hp hkk hw hfr _ _
    obtain ⟨fuel, rfl⟩ : ∃ f, fuel = f + 1 := ⟨fuel - 1, by simp at hfu; omega⟩
    cases hdl with
    | done h =>
      obtain ⟨q1, q2⟩ := dataReadStr_none hn hmo h
      refine ⟨u, P, w, [], ?_, q1, hu, List.prefix_refl _, hp, List.prefix_refl _, ⟨hw.nidx, hw.nval, hfr⟩, .nil, .refl _⟩
      unfold takeRecs
      simp only [h, Res.bind_ok, dataReadDone_plain (g := g') (by rw [q2]; decide) q1]
      rfl
  | cons r rs ih =>
    intro fuel g g' u P w k k' hdl hfu hn hmo htx hu hp hkk hw hfr hf hv
    obtain ⟨fuel, rfl⟩ : ∃ f, fuel = f + 1 := ⟨fuel - 1, by simp at hfu; omega⟩
    cases hdl with
    | next h hr =>
      rename_i g1
      have hs := (dataReadStr_some h).1
      have ht1 : g1.texts = a.texts := by rw [← htx, hs]
      obtain ⟨v1, v2⟩ := hv r (by simp)
      have v1' : ValsOk X g1 typ r.vals := ⟨v1.1, fun h => by
        obtain ⟨d, t, c1, c2, c3⟩ := v1.2 h
        exact ⟨d, t, c1, c2.congr ht1, c3⟩⟩
      obtain ⟨u1, P1, w1, x, a1, a2, a3, a4, a5, a6, a6', a7, a8⟩ := takeRecBig_ok e z h0 hm hA hX hu hp hd0 hd hy ht hkk hw hfr hf v1' v2
      obtain ⟨u2, P2, w2, xs, b1, b2, b3, b4, b5, b6, b7, b9, b10⟩ := ih (fuel := fuel) hr (by simp at hfu; omega) (by rw [hs.nrMapped]; exact hn)
        (by rw [hs.mode]; exact hmo) ht1 a2 a4 (List.prefix_append r.key [[], []]) a6 a6' hf.2.2 fun r hr => hv r (by simp [hr])
      refine ⟨u2, P2, w2, x :: xs, ?_, b2, b3, a3.trans b4, b5, a5.trans b6, b7, .cons (a7.mono b4 b6 ht1.symm) b9, a8.trans b10⟩
      unfold takeRecs
      simp only [h, Res.bind_ok, a1, b1]
      rfl

theorem collectBig_ok (e : Env) (z : Cz) {A X : List Str} (h0 : [] ∈ A) {b : Gx} (hm : b.mode = .strElem) (hA : A.length < 2147483647) (hX : X.length < 2147483648)
    {u : Uel} (hu : Labels A u) {st : MState} (ho : st.out = { b with uel := some u }) (hp : Texts X st.pool) {y : MSym} {sr : Src} (hs : SrcOk A X sr)
    (hd0 : 1 ≤ sr.dim) (hd : sr.dim ≤ 17) (hy : y.dim = sr.dim + 1) (ht : y.typ = sr.typ) {a : Gx} {nr : Int} (hat : SymAt z a nr sr) {g : Gx} (hg : Between a g)
    {w : Bufs} (hw : w.idx.length = 20 ∧ w.vals.length = 5 ∧ Fresh sr.dim w) (n : Nat) :
    ∃ u' P' g' w' xs, collect z sr.id st g w nr n y sr.typ (some (y.dim + 1).toNat) =
        .ok ({ st with out := { b with uel := some u' }, pool := P', syms := st.syms.set n { y with data := y.data.map (· ++ xs) } }, g', w') ∧
      Labels A u' ∧ u.strs <+: u'.strs ∧ Texts X P' ∧ st.pool <+: P' ∧ (w'.idx.length = 20 ∧ w'.vals.length = 5 ∧ Fresh sr.dim w') ∧ Between a g' ∧
      AllTaken u'.strs P' sr.a sr.typ sr.id sr.recs xs ∧ StaysIn e z { b with uel := some u } { b with uel := some u' } := by
  obtain ⟨u1, f, a1, a2, a3, a4, a5⟩ := addUEL_ok e z hm hA hu hs.id.1 hs.id.2
  obtain ⟨g1, g2, c, h1, h2, h3, h4, h5, h6, h7⟩ := symAt_start hat hg
  have harr : Arr u1.strs sr.id [] { w with idx := overwrite w.idx [f] } := by
    refine ⟨by rw [overwrite_len (by simp [hw.1]), hw.1], hw.2.1, ?_⟩
    show List.Forall₂ _ ((overwrite w.idx [f]).take 1) [sr.id]
    rw [overwrite_take (n := 1) (new := [f]) rfl]
    exact .cons a4 .nil
  have hlast : (y.dim + 1).toNat = sr.dim + 2 := by omega
  obtain ⟨u2, P2, w2, xs, b1, b2, b3, b4, b5, b6, b7, b9, b10⟩ := takeRecsBig_ok e z h0 hm hA hX hd0 hd hy ht (id := sr.id) (a := sr.a) (fuel := g1.fuel + 1) h2
    (by have := h2.len; have := left_lt_fuel g1; omega) h5 h6 h7 a2 hp (List.prefix_refl _) harr hw.2.2 (hs.frst (by omega)) hs.recs
  refine ⟨u2, P2, { g2 with sort := none, cur := .none, mode := .rInit }, w2, xs, ?_, b3, a3.trans b4, b5, b6, b7, ?_, b9, a5.trans b10⟩
  · unfold collect
    rw [hlast]
    simp only [ho, a1, Res.bind_ok, h1, b1]
    rfl
  · exact ⟨⟨h4.names, h4.file, h4.opn, h4.ver, h4.filt, h4.acros, h4.auto, h4.text, h4.uel, h4.orig, h4.sv, h4.rsv, h4.nan, h4.texts, h4.doms, h4.stat, h4.err⟩, rfl, b2⟩

/-- the symbol `y` of the program holds what `r` says, with the text `t` -/
structure RowT (L P : List Str) (r : Row) (t : Str) (y : MSym) : Prop where
  name : y.name = r.name
  dim : y.dim = r.dim + 1
  typ : y.typ = r.typ
  sub : y.sub = r.sub
  expl : y.expl = t
  data : ∃ xss : List (List MRec), y.data = some xss.flatten ∧ List.Forall₂ (fun s xs => AllTaken L P s.a r.typ s.id s.recs xs) r.srcs xss

theorem RowT.mono {L L' P P' : List Str} {r : Row} {t : Str} {y : MSym} (h : RowT L P r t y) (hl : L <+: L') (hp : P <+: P') : RowT L' P' r t y := by
  obtain ⟨h1, h2, h3, h4, h6, xss, h7, h8⟩ := h
  exact ⟨h1, h2, h3, h4, h6, xss, h7, forall₂_map (fun s xs h => h.mono hl hp rfl) h8⟩

/-- looking for a symbol of an input file by its name -/
theorem find_input {z : Cz} {a : Gx} {srs : List Src} (hc : (systemInfo a).1 = srs.length) (hs : ∀ (n : Nat) s, srs[n]? = some s → SymAt z a ((n : Int) + 1) s)
    (hn : srs.Pairwise fun a b => ¬ SameNoCase a.name b.name) {nm : Str} (hid : nm ≠ star) :
    ((findSymbol a nm).1 = false ∧ named nm srs = []) ∨
    ∃ (n : Nat) (s : Src), findSymbol a nm = (true, (n : Int) + 1) ∧ srs[n]? = some s ∧ SameNoCase nm s.name ∧ named nm srs = [s] := by
  have hnames : ∀ l, a.names = some l → l.map Sym.name = srs.map Src.name := by
    intro l hl
    have hlen : l.length = srs.length := by
      unfold systemInfo at hc
      rw [hl] at hc
      simpa using hc
    apply List.ext_getElem?
    intro n
    rw [List.getElem?_map, List.getElem?_map]
    cases hr : srs[n]? with
    | none =>
      rw [List.getElem?_eq_none (by rw [hlen]; exact List.getElem?_eq_none_iff.mp hr)]
      rfl
    | some s =>
      have hlt := (List.getElem?_eq_some_iff.mp hr).1
      have h1 := (hs n s hr).name
      unfold symbolInfo Gx.symAt at h1
      rw [if_neg (by omega), hl] at h1
      dsimp only at h1
      rw [if_pos (by omega), show ((n : Int) + 1 - 1).toNat = n by omega, List.getElem?_eq_getElem (by omega)] at h1
      rw [List.getElem?_eq_getElem (by omega)]
      simp only [Option.map_some, Option.some.injEq]
      exact h1
  have hnil : ∀ (l : List Src), (∀ s ∈ l, ¬ SameNoCase s.name nm) → named nm l = [] := by
    intro l hl
    unfold named
    rw [List.filter_eq_nil_iff]
    intro s hs hx
    exact hl s hs ((sameText_iff false _ _).mp hx : SameNoCase _ _).symm
  unfold findSymbol
  rw [if_neg hid]
  cases hl : a.names with
  | none =>
    left
    refine ⟨rfl, ?_⟩
    unfold systemInfo at hc
    rw [hl] at hc
    have : srs = [] := List.length_eq_zero_iff.mp (by simpa using hc.symm)
    rw [this]
    rfl
  | some l =>
    simp only
    unfold symIndex indexOf1
    rw [hnames l hl]
    cases hf : lookup false nm (srs.map Src.name) with
    | none =>
      left
      refine ⟨by simp, hnil _ fun s hs => ?_⟩
      exact lookup_none.mp hf _ (List.mem_map_of_mem hs)
    | some n =>
      right
      obtain ⟨x, h1, h2⟩ := lookup_some hf
      rw [List.getElem?_map, Option.map_eq_some_iff] at h1
      obtain ⟨s, h3, rfl⟩ := h1
      have h2 : SameNoCase s.name nm := h2
      refine ⟨n, s, by simp, h3, h2.symm, ?_⟩
      obtain ⟨hlt, he⟩ := List.getElem?_eq_some_iff.mp h3
      have hsplit : srs = srs.take n ++ s :: srs.drop (n + 1) := by
        rw [← he, ← List.drop_eq_getElem_cons hlt, List.take_append_drop]
      rw [hsplit, List.pairwise_append, List.pairwise_cons] at hn
      obtain ⟨_, ⟨q1, _⟩, q2⟩ := hn
      rw [hsplit]
      have e1 := hnil (srs.take n) fun t ht hx => q2 t ht s (by simp) (hx.trans h2.symm)
      have e2 := hnil (srs.drop (n + 1)) fun t ht hx => q1 t ht (h2.trans hx.symm)
      unfold named at e1 e2 ⊢
      rw [List.filter_append, List.filter_cons, e1, e2, if_pos ((sameText_iff false _ _).mpr h2.symm)]
      rfl

theorem named_append (s : Str) (a b : List Src) : named s (a ++ b) = named s a ++ named s b := List.filter_append ..

/-- what the symbols with the name of a big one need -/
structure BigRow (A X : List Str) (l : List Src) (r : Row) : Prop where
  ident : r.name ≠ star
  dim : 1 ≤ r.dim ∧ r.dim ≤ 17
  same : ∀ s ∈ l, SameNoCase r.name s.name → s.dim = r.dim ∧ s.typ = r.typ
  ok : ∀ s ∈ l, SrcOk A X s

theorem bigFile_ok (e : Env) (z : Cz) {A X : List Str} (h0 : [] ∈ A) {b : Gx} (hm : b.mode = .strElem) (hA : A.length < 2147483647) (hX : X.length < 2147483648)
    {u : Uel} (hu : Labels A u) {st : MState} (ho : st.out = { b with uel := some u }) (hp : Texts X st.pool) (hac : st.nextAcro = 0)
    {f : InFile} {srs : List Src} (hf : Input z f srs) (hnm : srs.Pairwise fun a b => ¬ SameNoCase a.name b.name) {r : Row} (hr : BigRow A X srs r)
    {n : Nat} {y : MSym} (hy : st.syms[n]? = some y) {pre : List Src} {t : Str} (hrow : RowT u.strs st.pool { r with srcs := named r.name pre } t y)
    {w : Bufs} (hw : w.idx.length = 20 ∧ w.vals.length = 5 ∧ Fresh r.dim w) :
    ∃ u' P' w' y', bigFile z n st w f = .ok (some ({ st with out := { b with uel := some u' }, pool := P', syms := st.syms.set n y' }, w')) ∧ Labels A u' ∧
      Texts X P' ∧ u.strs <+: u'.strs ∧ st.pool <+: P' ∧ RowT u'.strs P' { r with srcs := named r.name (pre ++ srs) } t y' ∧
      (w'.idx.length = 20 ∧ w'.vals.length = 5 ∧ Fresh r.dim w') ∧ StaysIn e z { b with uel := some u } { b with uel := some u' } := by
  obtain ⟨a, bb, f1, f2, f3, f4, f5, f6, f7⟩ := hf.file
  have hna := open_auto f1 f2
  have hself : ({ a with nextAuto := 0 } : Gx) = a := by rw [← hna]
  rw [hself] at f7
  have hbt : Between a a := ⟨⟨rfl, rfl, rfl, rfl, rfl, rfl, rfl, rfl, rfl, rfl, rfl, rfl, rfl, rfl, rfl, rfl, ⟨rfl, rfl, rfl⟩⟩, f2, f3⟩
  have hkeep : ∀ (s : MState) (g : Gx), s.nextAcro = 0 → g.nextAuto = 0 → keepAcronyms s g = .ok s := by
    intro s g h1 h2
    unfold keepAcronyms acronymNextNr
    simp only [if_false]
    rw [if_pos]
    rw [h1, h2]
  have hl := List.getElem?_eq_some_iff.mp hy
  rcases find_input f5 f7 hnm hr.ident with ⟨q1, q2⟩ | ⟨m, s, q1, q2, q3, q4⟩
  · refine ⟨u, st.pool, w, y, ?_, hu, hp, List.prefix_refl _, List.prefix_refl _, ?_, hw, .refl _⟩
    · unfold bigFile
      simp only [f1, Res.bind_ok]
      rw [if_neg (by simp), hy]
      simp only [need, Res.bind_ok, hrow.name, q1, Bool.false_eq_true, if_false]
      simp only [hkeep st a hac hna, close_read z f2, Res.bind_ok, Res.pure_eq]
      rw [← hl.2, List.set_getElem_self, ← ho]
    · rw [named_append, q2, List.append_nil]
      exact hrow
  · have hsm : s ∈ srs := List.mem_of_getElem? q2
    obtain ⟨d1, d2⟩ := hr.same s hsm q3
    have hd1 := hrow.dim
    have ht1 : y.typ = r.typ := hrow.typ
    dsimp only at hd1
    obtain ⟨xss, x1, x2⟩ := hrow.data
    obtain ⟨u', P', g', w', xs, c1, c2, c3, c4, c5, c6, c7, c8, c9⟩ := collectBig_ok e z h0 hm hA hX hu ho hp (y := y) (hr.ok s hsm)
      (by rw [d1]; exact hr.dim.1) (by rw [d1]; exact hr.dim.2) (by rw [hd1, d1]) (by rw [ht1, d2]) (f7 m s q2) hbt (w := w) (by rw [d1]; exact hw) n
    have hfn : findSymbol a y.name = (true, (m : Int) + 1) := by rw [hrow.name]; exact q1
    refine ⟨u', P', w', { y with data := y.data.map (· ++ xs) }, ?_, c2, c4, c3, c5, ?_, by rw [← d1]; exact c6, c9⟩
    · unfold bigFile
      simp only [f1, Res.bind_ok]
      rw [if_neg (by simp), hy]
      simp only [need, Res.bind_ok, hfn, if_true]
      rw [(f6 s hsm).1, d2, ← ht1] at c1
      simp only [c1, Res.bind_ok]
      rw [hkeep _ g' (by exact hac) (by rw [c7.same.auto]; exact hna)]
      simp only [close_read z c7.mode, Res.bind_ok, Res.pure_eq]
    · rw [named_append, q4]
      refine ⟨hrow.name, hrow.dim, hrow.typ, hrow.sub, hrow.expl, xss ++ [xs], ?_, ?_⟩
      · show y.data.map (· ++ xs) = _
        rw [x1]
        simp
      · refine List.rel_append (forall₂_map (fun _ _ h => h.mono c3 c5 rfl) x2) (.cons ?_ .nil)
        show AllTaken _ _ _ r.typ _ _ _
        rw [← d2]
        exact c8

theorem bigFiles_ok (e : Env) (z : Cz) {A X : List Str} (h0 : [] ∈ A) {b : Gx} (hm : b.mode = .strElem) (hA : A.length < 2147483647) (hX : X.length < 2147483648)
    {n : Nat} {r : Row} {t : Str} {fs : List InFile} {srss : List (List Src)}
    (h : List.Forall₂ (fun f srs => Input z f srs ∧ (srs.Pairwise fun a b => ¬ SameNoCase a.name b.name) ∧ BigRow A X srs r) fs srss) :
    ∀ {u : Uel} {st : MState} {y : MSym} {pre : List Src} {w : Bufs}, Labels A u → st.out = { b with uel := some u } → Texts X st.pool → st.nextAcro = 0 →
      st.syms[n]? = some y → RowT u.strs st.pool { r with srcs := named r.name pre } t y → (w.idx.length = 20 ∧ w.vals.length = 5 ∧ Fresh r.dim w) →
      ∃ u' P' y', bigFiles z n st w fs = .ok ({ st with out := { b with uel := some u' }, pool := P', syms := st.syms.set n y' }, true) ∧ Labels A u' ∧
        Texts X P' ∧ u.strs <+: u'.strs ∧ RowT u'.strs P' { r with srcs := named r.name (pre ++ srss.flatten) } t y' ∧
        StaysIn e z { b with uel := some u } { b with uel := some u' } := by
  induction h with
  | nil =>
    intro u st y pre w hu ho hp hac hy hrow hw
    have hl := List.getElem?_eq_some_iff.mp hy
    refine ⟨u, st.pool, y, ?_, hu, hp, List.prefix_refl _, ?_, .refl _⟩
    · unfold bigFiles
      rw [← hl.2, List.set_getElem_self, ← ho]
    · rw [List.flatten_nil, List.append_nil]
      exact hrow
  | cons h _ ih =>
    intro u st y pre w hu ho hp hac hy hrow hw
    rename_i f srs fs srss _
    obtain ⟨h1, h2, h3⟩ := h
    obtain ⟨u1, P1, w1, y1, a1, a2, a3, a4, a5, a6, a7, a8⟩ := bigFile_ok e z h0 hm hA hX hu ho hp hac h1 h2 h3 hy hrow hw
    have hlt := (List.getElem?_eq_some_iff.mp hy).1
    obtain ⟨u2, P2, y2, b1, b2, b3, b4, b5, b6⟩ := ih (st := { st with out := { b with uel := some u1 }, pool := P1, syms := st.syms.set n y1 }) a2 rfl a3 hac
      (by simp [hlt]) a6 a7
    refine ⟨u2, P2, y2, ?_, b2, b3, a4.trans b4, ?_, a8.trans b6⟩
    · unfold bigFiles
      simp only [a1, Res.bind_ok, b1, List.set_set]
    · rw [List.flatten_cons, ← List.append_assoc]
      exact b5

/-- a big symbol is collected -/
theorem collectOne_ok (e : Env) (z : Cz) {A X : List Str} (h0 : [] ∈ A) {st : MState} (hm : st.out.mode = .wInit) (hA : A.length < 2147483647) (hX : X.length < 2147483648)
    {n : Nat} {r : Row} {fs : List InFile} {srss : List (List Src)}
    (h : List.Forall₂ (fun f srs => Input z f srs ∧ (srs.Pairwise fun a b => ¬ SameNoCase a.name b.name) ∧ BigRow A X srs r) fs srss)
    {u : Uel} {y : MSym} (hu : Labels A u) (huo : st.out.uel = some u) (hp : Texts X st.pool) (hac : st.nextAcro = 0) (hy : st.syms[n]? = some y)
    (hn : y.name = r.name) (hd : y.dim = r.dim + 1) (ht : y.typ = r.typ) (hs : y.sub = r.sub) (hda : y.data = some []) (hr : 1 ≤ r.dim ∧ r.dim ≤ 17) :
    ∃ u' P' y', collectBig z fs st n = .ok ({ st with out := { st.out with uel := some u', modeAft := .wInit }, pool := P', syms := st.syms.set n y' }, true) ∧ Labels A u' ∧
      Texts X P' ∧ u.strs <+: u'.strs ∧ RowT u'.strs P' { r with srcs := named r.name srss.flatten } y.expl y' ∧
      StaysIn e z st.out { st.out with uel := some u', modeAft := .wInit } := by
  have hb : ({ st.out with modeAft := .wInit, mode := .strElem } : Gx) = { st.out with modeAft := .wInit, mode := .strElem, uel := some u } := by
    rw [← huo]
  obtain ⟨u', P', y', a1, a2, a3, a4, a5, a6⟩ := bigFiles_ok e z h0 (b := { st.out with modeAft := .wInit, mode := .strElem }) rfl hA hX h (n := n) (t := y.expl) (u := u)
    (st := { st with out := { st.out with modeAft := .wInit, mode := .strElem } }) (y := y) (pre := []) (w := {}) hu hb hp hac hy
    ⟨hn, hd, ht, hs, rfl, [], hda, .nil⟩ ⟨rfl, rfl, rfl, List.drop_replicate ..⟩
  rw [List.nil_append] at a5
  have hdone := regDone_eq hm u'
  refine ⟨u', P', y', ?_, a2, a3, a4, a5, ?_⟩
  · unfold collectBig
    rw [hy]
    simp only [need, Res.bind_ok]
    rw [if_neg (by simp [hda]), regStart_eq hm]
    simp only [a1, Res.bind_ok, Bool.true_eq_false, if_false, hdone]
    rfl
  · have s1 : StaysIn e z st.out { st.out with modeAft := .wInit, mode := .strElem } :=
      .one (c := .uelStrStart) trivial rfl (by show Res.ok (uelRegisterStrStart _).1 = _; rw [regStart_eq hm])
    have s2 : StaysIn e z { st.out with uel := some u', modeAft := .wInit, mode := .strElem } { st.out with uel := some u', modeAft := .wInit } :=
      .one (c := .uelDone) trivial rfl (by show Res.ok (uelRegisterDone _).1 = _; rw [hdone])
    rw [hb] at s1
    exact s1.trans (a6.trans s2)

end Gdx.Merge
