import Verif.Proofs.MergeTake
import Verif.Proofs.ModeFree

/-! gdxmerge: the symbols of the input files are collected. -/

namespace Gdx.Merge
open Gdx Gdx.Spec

/-- A symbol of an input file: the name of the file in the merged file, the object that opened it, and what the file has: name, dimension, type (an
    alias counts as a set), subtype, text, and the records that gdxDataReadStr delivers -/
structure Src where
  id : Str
  a : Gx
  name : Str
  dim : Nat
  typ : Nat
  sub : Int
  expl : Str
  recs : List (RecOut Str)

/-- A symbol of the merged file: name, dimension without the new one, type, subtype, and the symbols it is made of -/
structure Row where
  name : Str
  dim : Nat
  typ : Nat
  sub : Int
  srcs : List Src

/-- may `s` be added to `r`? -/
def Row.fits (r : Row) (s : Src) : Bool := decide (s.dim = r.dim) && decide (s.typ = r.typ) && (!isVarEqu s.typ || decide (s.sub = r.sub))

/-- the symbol `s` finds its place -/
def place (o : Opt) (t : List Row) (s : Src) : List Row :=
  if s.dim < 20 then
    match t.findIdx? fun r => sameText false r.name s.name with
    | some n => t.modify n fun r => if r.fits s then { r with srcs := r.srcs ++ [s] } else r
    | none => if o.takes s.name then t ++ [⟨s.name, s.dim, s.typ, s.sub, [s]⟩] else t
  else t

/-- the symbols of the merged file -/
def table (o : Opt) (l : List Src) : List Row := l.foldl (place o) []

theorem table_snoc (o : Opt) (l : List Src) (s : Src) : table o (l ++ [s]) = place o (table o l) s := by
  unfold table
  rw [List.foldl_append]
  rfl

/-- the first text that is not empty -/
def firstText : List Src → Str
  | [] => []
  | s :: l => if s.expl = [] then firstText l else s.expl

theorem firstText_snoc (l : List Src) (s : Src) : firstText (l ++ [s]) = if firstText l = [] then s.expl else firstText l := by
  induction l with
  | nil =>
    by_cases h : s.expl = []
    · simp [firstText, h]
    · simp [firstText, h]
  | cons x l ih =>
    simp only [List.cons_append, firstText]
    by_cases h : x.expl = []
    · simp only [h, if_true]
      exact ih
    · simp only [h, if_false]

/-- the errors that are counted when `s` comes to the row `r`: it does not fit, or it has another text -/
def Row.faults (r : Row) (s : Src) : Nat :=
  if r.fits s then (if firstText r.srcs ≠ [] ∧ s.expl ≠ [] ∧ firstText r.srcs ≠ s.expl then 1 else 0) else 1

/-- the errors that are counted when `s` comes to the rows `t` -/
def faults (t : List Row) (s : Src) : Nat :=
  if s.dim < 20 then
    match t.findIdx? fun r => sameText false r.name s.name with
    | some n => (t[n]?.map fun r => r.faults s).getD 0
    | none => 0
  else 1

/-- the number of errors -/
def errsOf (o : Opt) (l : List Src) : Nat := (l.foldl (fun p s => (place o p.1 s, p.2 + faults p.1 s)) (([], 0) : List Row × Nat)).2

theorem errsOf_snoc (o : Opt) (l : List Src) (s : Src) : errsOf o (l ++ [s]) = errsOf o l + faults (table o l) s := by
  unfold errsOf
  rw [List.foldl_append]
  simp only [List.foldl_cons, List.foldl_nil]
  have : ∀ (l : List Src) (t : List Row) (n : Nat), (l.foldl (fun p s => (place o p.1 s, p.2 + faults p.1 s)) (t, n)).1 = l.foldl (place o) t := by
    intro l
    induction l with
    | nil => intro t n; rfl
    | cons x l ih => intro t n; exact ih _ _
  rw [this]
  rfl

/-- the symbol `y` of the program holds what `r` says -/
structure RowOk (L P : List Str) (r : Row) (y : MSym) : Prop where
  name : y.name = r.name
  dim : y.dim = r.dim + 1
  typ : y.typ = r.typ
  sub : y.sub = r.sub
  skip : y.skip = false
  expl : y.expl = firstText r.srcs
  data : ∃ xss : List (List MRec), y.data = some xss.flatten ∧ List.Forall₂ (fun s xs => AllTaken L P s.a r.typ s.id s.recs xs) r.srcs xss

theorem forall₂_map {α β : Type} {R S : α → β → Prop} (h : ∀ a b, R a b → S a b) {l : List α} {m : List β} (hl : List.Forall₂ R l m) : List.Forall₂ S l m :=
  hl.imp fun {a b} => h a b

theorem RowOk.mono {L L' P P' : List Str} {r : Row} {y : MSym} (h : RowOk L P r y) (hl : L <+: L') (hp : P <+: P') : RowOk L' P' r y := by
  obtain ⟨h1, h2, h3, h4, h5, h6, xss, h7, h8⟩ := h
  exact ⟨h1, h2, h3, h4, h5, h6, xss, h7, forall₂_map (fun s xs h => h.mono hl hp rfl) h8⟩

/-- the state of the program after the symbols `pre` -/
structure Coll (o : Opt) (X : List Str) (u : Uel) (pre : List Src) (s : MState) : Prop where
  rows : List.Forall₂ (RowOk u.strs s.pool) (table o pre) s.syms
  pool : Texts X s.pool
  acro : s.nextAcro = 0
  errs : s.errs = errsOf o pre

/-- the number of records of these symbols -/
def recsOf (l : List Src) : Nat := (l.map fun s => s.recs.length).sum

/-- every row is made of symbols of `pre` -/
theorem table_recs (o : Opt) (pre : List Src) : ∀ r ∈ table o pre, recsOf r.srcs ≤ recsOf pre := by
  induction pre using List.reverseRecOn with
  | nil => intro r hr; cases hr
  | append_singleton l s ih =>
    intro r hr
    rw [table_snoc] at hr
    have hs : ∀ l : List Src, recsOf (l ++ [s]) = recsOf l + s.recs.length := by
      intro l
      unfold recsOf
      simp
    rw [hs]
    unfold place at hr
    split at hr
    · split at hr
      · rename_i n hn
        obtain ⟨i, hi, he⟩ := List.mem_iff_getElem.mp hr
        rw [List.length_modify] at hi
        rw [List.getElem_modify] at he
        have := ih _ (List.getElem_mem hi)
        split at he
        · split at he
          · subst he
            dsimp only
            rw [hs]
            omega
          · subst he
            omega
        · subst he
          omega
      · split at hr
        · rcases List.mem_append.mp hr with hr | hr
          · have := ih _ hr
            omega
          · rw [List.mem_singleton] at hr
            subst hr
            simp [recsOf]
        · have := ih _ hr
          omega
    · have := ih _ hr
      omega

theorem taken_len {L P : List Str} {typ : Nat} : ∀ {ss : List Src} {xss : List (List MRec)},
    List.Forall₂ (fun s xs => AllTaken L P s.a typ s.id s.recs xs) ss xss → xss.flatten.length = recsOf ss := by
  intro ss xss h
  induction h with
  | nil => rfl
  | cons h _ ih =>
    unfold recsOf at ih ⊢
    simp only [List.flatten_cons, List.length_append, List.map_cons, List.sum_cons, ih, h.length_eq]

/-! ### one symbol -/

/-- what the program needs to know about a symbol of an input file: `A` are labels, `X` texts -/
structure SrcOk (A X : List Str) (s : Src) : Prop where
  typ : ∃ n, typSize s.typ = .ok n
  id : GoodLabel s.id ∧ s.id ∈ A
  frst : s.dim < 20 → Firsts s.dim [] s.recs
  recs : ∀ r ∈ s.recs, ValsOk X s.a s.typ r.vals ∧ ∀ t ∈ r.key, GoodLabel t ∧ t ∈ A

/-- `g` reads the file of `a` and is between two symbols -/
structure Between (a g : Gx) : Prop where
  same : RdSame a g
  mode : g.mode = .rInit
  nrm : g.nrMapped = 0

/-- symbol `nr` of the file that `a` opened is `s` -/
structure SymAt (z : Cz) (a : Gx) (nr : Int) (s : Src) : Prop where
  pos : 1 ≤ nr
  dim : (symbolInfo a nr).dim = s.dim
  name : (symbolInfo a nr).name = s.name
  typ : (if (symbolInfo a nr).typ = dtAlias then dtSet else (symbolInfo a nr).typ) = s.typ
  sub : (if (symbolInfo a nr).typ = dtAlias then 0 else (symbolInfoX a nr).userInfo) = s.sub
  expl : (symbolInfoX a nr).expl = s.expl
  cnt : (symbolInfoX a nr).recs ≤ s.recs.length
  texts : a.texts = s.a.texts
  auto : a.nextAuto ≤ 0
  reads : ∀ g, Between a g → ∃ g1 g2 n, dataReadStrStart z g nr = .ok (g1, (true, n)) ∧ DeliversStr g1 s.recs g2 ∧ g2.mode = .rInit ∧ RdSame g g2

theorem _root_.Gdx.RdSame.info {a g : Gx} (h : RdSame a g) (nr : Int) : symbolInfo g nr = symbolInfo a nr := by
  unfold symbolInfo Gx.symAt
  rw [h.names]

theorem _root_.Gdx.RdSame.infoX {a g : Gx} (h : RdSame a g) (nr : Int) : symbolInfoX g nr = symbolInfoX a nr := by
  unfold symbolInfoX Gx.symAt
  rw [h.names, h.orig]

theorem symAt_start {z : Cz} {a : Gx} {nr : Int} {s : Src} (h : SymAt z a nr s) {g : Gx} (hg : Between a g) :
    ∃ g1 g2 n, dataReadStrStart z g nr = .ok (g1, (true, n)) ∧ DeliversStr g1 s.recs g2 ∧ g2.mode = .rInit ∧ RdSame a g2 ∧ g1.nrMapped = 0 ∧ g1.mode = .rStr ∧
      g1.texts = s.a.texts := by
  obtain ⟨g1, g2, n, h1, h2, h3, h4⟩ := h.reads g hg
  refine ⟨g1, g2, n, h1, h2, h3, hg.same.trans h4, ?_⟩
  unfold dataReadStrStart at h1
  obtain ⟨⟨g3, k⟩, p1, p2⟩ := Res.bind_eq_ok.mp h1
  have hk : g3 = g1 ∧ 0 ≤ k := by
    simp only [Res.pure_eq] at p2
    injection p2 with p2
    injection p2 with e1 p2
    injection p2 with e2 e3
    exact ⟨e1, by simpa using e2⟩
  obtain ⟨rfl, hk⟩ := hk
  have f1 := (prepareRead_fix (by rw [hg.same.auto]; exact h.auto) hg.nrm (fun a h => Or.inl (List.eq_of_mem_replicate h)) p1).1
  refine ⟨?_, ?_, ?_⟩
  · rw [show g3.nrMapped = g.nrMapped from congrArg Fixed.nrm f1]
    exact hg.nrm
  · rcases (prepareRead_ready (z := z) (g := g) nr (List.replicate 20 domcUnmapped) (m := .rStr) (by decide)).of_ok p1 with h | h
    · simp only at h; omega
    · exact h
  · rw [show g3.texts = g.texts from congrArg Fixed.texts f1, hg.same.texts]
    exact h.texts

theorem collect_ok (e : Env) (z : Cz) {A X : List Str} {b : Gx} (hm : b.mode = .strElem) (hA : A.length < 2147483647) (hX : X.length < 2147483648)
    {u : Uel} (hu : Labels A u) {st : MState} (ho : st.out = { b with uel := some u }) (hp : Texts X st.pool) {y : MSym} {sr : Src} (hs : SrcOk A X sr)
    (hd : sr.dim < 20) (hy : y.dim = sr.dim + 1) (ht : y.typ = sr.typ) {a : Gx} {nr : Int} (hat : SymAt z a nr sr) {g : Gx} (hg : Between a g)
    {w : Bufs} (hw : w.idx.length = 20 ∧ w.vals.length = 5) (n : Nat) :
    ∃ u' P' g' w' xs, collect z sr.id st g w nr n y sr.typ (lastPos sr.dim) =
        .ok ({ st with out := { b with uel := some u' }, pool := P', syms := st.syms.set n { y with data := y.data.map (· ++ xs) } }, g', w') ∧
      Labels A u' ∧ u.strs <+: u'.strs ∧ Texts X P' ∧ st.pool <+: P' ∧ (w'.idx.length = 20 ∧ w'.vals.length = 5) ∧ Between a g' ∧
      AllTaken u'.strs P' sr.a sr.typ sr.id sr.recs xs ∧ Props.StaysIn e z { b with uel := some u } { b with uel := some u' } := by
  obtain ⟨u1, f, a1, a2, a3, a4, a5⟩ := addUEL_ok e z hm hA hu hs.id.1 hs.id.2
  obtain ⟨g1, g2, c, h1, h2, h3, h4, h5, h6, h7⟩ := symAt_start hat hg
  have harr : Arr u1.strs sr.id [] { w with idx := overwrite w.idx [f] } := by
    refine ⟨by rw [overwrite_len (by simp [hw.1]), hw.1], hw.2, ?_⟩
    show List.Forall₂ _ ((overwrite w.idx [f]).take 1) [sr.id]
    rw [overwrite_take (n := 1) (new := [f]) rfl]
    exact .cons a4 .nil
  obtain ⟨u2, P2, w2, xs, b1, b2, b3, b4, b5, b6, b7, b8, b9, b10⟩ := takeRecs_ok e z hm hA hX hd hy ht (id := sr.id) (a := sr.a) (fuel := g1.fuel + 1) h2
    (by have := h2.len; have := left_lt_fuel g1; omega) h5 h6 h7 a2 hp harr (hs.frst hd) hs.recs
  refine ⟨u2, P2, { g2 with sort := none, cur := .none, mode := .rInit }, w2, xs, ?_, b3, a3.trans b4, b5, b6, ⟨b7, b8⟩, ?_, b9, a5.trans b10⟩
  · unfold collect
    simp only [ho, a1, Res.bind_ok, h1, b1]
    rfl
  · exact ⟨⟨h4.names, h4.file, h4.opn, h4.ver, h4.filt, h4.acros, h4.auto, h4.text, h4.uel, h4.orig, h4.sv, h4.rsv, h4.nan, h4.texts, h4.doms, h4.stat, h4.err⟩, rfl, b2⟩

/-! ### the list of symbols -/

theorem symIdx_row {L P : List Str} {t : List Row} {l : List MSym} (h : List.Forall₂ (RowOk L P) t l) (s : Str) :
    symIdx l s = t.findIdx? fun r => sameText false r.name s := by
  unfold symIdx
  induction h with
  | nil => rfl
  | cons h _ ih =>
    simp only [List.findIdx?_cons, ih, h.name]

theorem forall₂_get {α β : Type} {R : α → β → Prop} {l : List α} {m : List β} (h : List.Forall₂ R l m) {n : Nat} {x : α} (hx : l[n]? = some x) :
    ∃ y, m[n]? = some y ∧ R x y := by
  induction h generalizing n with
  | nil => cases hx
  | cons h _ ih =>
    cases n with
    | zero =>
      cases hx
      exact ⟨_, rfl, h⟩
    | succ n => exact ih hx

theorem forall₂_set {α β : Type} {R : α → β → Prop} {l : List α} {m : List β} (h : List.Forall₂ R l m) {n : Nat} {f : α → α} {y : β}
    (hy : ∀ x, l[n]? = some x → R (f x) y) : List.Forall₂ R (l.modify n f) (m.set n y) := by
  induction h generalizing n with
  | nil => cases n <;> exact .nil
  | cons h t ih =>
    cases n with
    | zero => exact .cons (hy _ rfl) t
    | succ n => exact .cons h (ih hy)

theorem modify_same {α : Type} {l : List α} {n : Nat} {f : α → α} {x : α} (hx : l[n]? = some x) (hf : f x = x) : l.modify n f = l := by
  induction l generalizing n with
  | nil => cases hx
  | cons a l ih =>
    cases n with
    | zero =>
      cases hx
      simp [hf]
    | succ n =>
      simp only [List.modify_succ_cons]
      rw [ih hx]

theorem listSym_eq {o : Opt} {z : Cz} {st : MState} {a g : Gx} {nr : Int} {sr : Src} (hat : SymAt z a nr sr) (hg : Between a g) (hd : sr.dim < 20) {k : Nat}
    (ht : typSize sr.typ = .ok k) :
    ∃ (i : SymInfo) (x : SymInfoX), i.dim = (sr.dim : Int) ∧ i.typ = sr.typ ∧ i.name = sr.name ∧ x.userInfo = sr.sub ∧ x.expl = sr.expl ∧ x.recs ≤ (sr.recs.length : Int) ∧
    listSym o st g nr = match symIdx st.syms sr.name with
    | some n => .ok (st, some (n, i, x))
    | none =>
      if o.takes sr.name = false then .ok (st, none)
      else .ok ({ st with syms := st.syms ++ [{ name := sr.name, dim := sr.dim + 1, typ := sr.typ, sub := sr.sub }] }, some (st.syms.length, i, x)) := by
  have e1 : (symbolInfo g nr) = symbolInfo a nr := hg.same.info nr
  have e2 : (symbolInfoX g nr) = symbolInfoX a nr := hg.same.infoX nr
  refine ⟨if (symbolInfo a nr).typ = dtAlias then { symbolInfo a nr with typ := dtSet } else symbolInfo a nr,
    if (symbolInfo a nr).typ = dtAlias then { symbolInfoX a nr with userInfo := 0 } else symbolInfoX a nr, ?_⟩
  have h1 := hat.dim
  have h2 := hat.name
  have h3 := hat.typ
  have h4 := hat.sub
  have h5 := hat.expl
  have h6 := hat.cnt
  unfold listSym
  rw [e1, e2]
  dsimp only
  have hlt : ¬ ¬ (symbolInfo a nr).dim < 20 := by rw [h1]; omega
  rw [if_neg hlt]
  by_cases hal : (symbolInfo a nr).typ = dtAlias
  · simp only [hal, if_true] at h3 h4 ⊢
    refine ⟨h1, h3, h2, h4, h5, h6, ?_⟩
    rw [h2]
    cases symIdx st.syms sr.name with
    | some n => rfl
    | none =>
      dsimp only
      by_cases hk : o.takes sr.name = false
      · rw [if_pos hk, if_pos hk]
      · rw [if_neg hk, if_neg hk, h3, ht, h1, h4]
        rfl
  · simp only [hal, if_false] at h3 h4 ⊢
    refine ⟨h1, h3, h2, h4, h5, h6, ?_⟩
    rw [h2]
    cases symIdx st.syms sr.name with
    | some n => rfl
    | none =>
      dsimp only
      by_cases hk : o.takes sr.name = false
      · rw [if_pos hk, if_pos hk]
      · rw [if_neg hk, if_neg hk, h3, ht, h1, h4]
        rfl

/-- the part of `addSym` behind the search for the symbol -/
def addFound (o : Opt) (z : Cz) (p : Pass) (id : Str) (s : MState) (g : Gx) (b : Bufs) (nr : Int) (n : Nat) (a : SymInfo) (x : SymInfoX) : Res (MState × Gx × Bufs) := do
  let y ← need s.syms[n]?
  if y.data.isNone ∨ y.skip then pure (s, g, b) else do
  let y := countSym p y a.typ x.recs
  let s := { s with syms := s.syms.set n y }
  if y.data.isNone then pure ({ s with errs := s.errs + 1 }, g, b)
  else if p = .scan ∨ (p = .small ∧ o.big.getD 10000000 ≤ y.size) ∨ (p = .big ∧ y.size < o.big.getD 10000000) then pure (s, g, b)
  else if agrees y a.dim a.typ x.userInfo = false then pure ({ s with errs := s.errs + 1 }, g, b)
  else
    let (y, e) := explText y x.expl
    collect z id { s with errs := s.errs + e } g b nr n y a.typ (if a.dim > 0 then some a.dim.toNat else none)

theorem addSym_eq (o : Opt) (z : Cz) (p : Pass) (id : Str) (s : MState) (g : Gx) (b : Bufs) (nr : Int) :
    addSym o z p id s g b nr = (listSym o s g nr).bind fun x => match x.2 with
      | none => .ok (x.1, g, b)
      | some (n, a, i) => addFound o z p id x.1 g b nr n a i := by
  unfold addSym addFound
  cases listSym o s g nr with
  | ub => rfl
  | ok x =>
    obtain ⟨s, l⟩ := x
    cases l with
    | none => rfl
    | some q => rfl

theorem fits_agrees {L P : List Str} {r : Row} {y : MSym} (h : RowOk L P r y) (sr : Src) : agrees y sr.dim sr.typ sr.sub = r.fits sr := by
  unfold agrees Row.fits
  rw [h.dim, h.typ, h.sub]
  congr 1
  congr 1
  rw [decide_eq_decide]
  omega

theorem found_ok (o : Opt) (e : Env) (z : Cz) {A X : List Str} {b : Gx} (hm : b.mode = .strElem) (hA : A.length < 2147483647) (hX : X.length < 2147483648)
    {u : Uel} (hu : Labels A u) {st : MState} (ho : st.out = { b with uel := some u }) (hp : Texts X st.pool) {t : List Row}
    (hr : List.Forall₂ (RowOk u.strs st.pool) t st.syms) {sr : Src} (hs : SrcOk A X sr) (hd : sr.dim < 20) {a : Gx} {nr : Int} (hat : SymAt z a nr sr)
    {g : Gx} (hg : Between a g) {w : Bufs} (hw : w.idx.length = 20 ∧ w.vals.length = 5) {n : Nat} {r : Row} (hn : t[n]? = some r)
    {i : SymInfo} {x : SymInfoX} (i1 : i.dim = (sr.dim : Int)) (i2 : i.typ = sr.typ) (x1 : x.userInfo = sr.sub) (x2 : x.expl = sr.expl)
    (x3 : x.recs ≤ (sr.recs.length : Int)) (hb : recsOf r.srcs + sr.recs.length ≤ 2147483647) :
    ∃ st' u' g' w', addFound o z .doAll sr.id st g w nr n i x = .ok (st', g', w') ∧ st'.out = { b with uel := some u' } ∧ Labels A u' ∧
      Texts X st'.pool ∧ (st'.nextAcro = st.nextAcro ∧ st'.errs = st.errs + r.faults sr) ∧
      List.Forall₂ (RowOk u'.strs st'.pool) (t.modify n fun r => if r.fits sr then { r with srcs := r.srcs ++ [sr] } else r) st'.syms ∧
      (w'.idx.length = 20 ∧ w'.vals.length = 5) ∧ Between a g' ∧ Props.StaysIn e z { b with uel := some u } { b with uel := some u' } := by
  obtain ⟨y, hy, hrow⟩ := forall₂_get hr hn
  obtain ⟨y1, hcs, hrow1⟩ : ∃ y1, countSym .doAll y i.typ x.recs = y1 ∧ RowOk u.strs st.pool r y1 := by
    obtain ⟨xss, hd1, hd2⟩ := hrow.data
    have hlen := taken_len hd2
    refine ⟨_, rfl, ?_⟩
    unfold countSym
    rw [if_pos (by simp)]
    dsimp only
    rw [if_neg]
    · exact ⟨hrow.name, hrow.dim, hrow.typ, hrow.sub, hrow.skip, hrow.expl, xss, hd1, hd2⟩
    · rw [hd1]
      simp only [Option.getD_some, hlen]
      omega
  have hnone : (y.data.isNone = true ∨ y.skip = true) = False := by
    obtain ⟨xss, hd1, hd2⟩ := hrow.data
    rw [hd1, hrow.skip]
    simp
  obtain ⟨xss, hd1, hd2⟩ := hrow1.data
  have hdn : y1.data.isNone = false := by rw [hd1]; rfl
  have hag : agrees y1 i.dim i.typ x.userInfo = r.fits sr := by
    rw [i1, i2, x1]
    exact fits_agrees hrow1 sr
  have hlast : (if i.dim > 0 then some i.dim.toNat else none) = lastPos sr.dim := by
    unfold lastPos
    rw [i1]
    by_cases h0 : 0 < sr.dim
    · rw [if_pos h0, if_pos (by omega)]
      rfl
    · rw [if_neg h0, if_neg (by omega)]
  by_cases hf : r.fits sr = true
  · have hft : sr.dim = r.dim ∧ sr.typ = r.typ := by
      unfold Row.fits at hf
      simp only [Bool.and_eq_true, decide_eq_true_eq] at hf
      exact hf.1
    obtain ⟨q, hex, hq⟩ : ∃ q, explText y1 x.expl = ({ y1 with expl := firstText (r.srcs ++ [sr]) }, q) ∧ q = r.faults sr := by
      unfold explText Row.faults
      rw [firstText_snoc, ← hrow1.expl, x2, if_pos hf]
      by_cases h0 : y1.expl = []
      · rw [if_pos h0, if_pos h0]
        exact ⟨_, rfl, by rw [if_neg (by simp [h0])]⟩
      · rw [if_neg h0, if_neg h0]
        exact ⟨_, rfl, by simp [h0]⟩
    obtain ⟨u', P', g', w', xs, c1, c2, c3, c4, c5, c6, c7, c8, c9⟩ := collect_ok e z hm hA hX hu
      (st := { st with syms := st.syms.set n y1, errs := st.errs + q }) ho hp (y := { y1 with expl := firstText (r.srcs ++ [sr]) }) hs hd
      (by show y1.dim = _; rw [hrow1.dim, hft.1]) (by show y1.typ = _; rw [hrow1.typ, hft.2]) hat hg hw n
    refine ⟨{ st with out := { b with uel := some u' }, pool := P', errs := st.errs + q, syms := (st.syms.set n y1).set n { y1 with expl := firstText (r.srcs ++ [sr]), data := y1.data.map (· ++ xs) } }, u', g', w', ?_, rfl, c2, c4, ⟨rfl, by rw [hq]⟩, ?_, c6, c7, c9⟩
    · unfold addFound
      rw [hy]
      simp only [need, Res.bind_ok, hnone, if_false, hcs, hag, hf, hex, hlast, hdn, Bool.false_eq_true, Bool.true_eq_false]
      rw [if_neg (by simp), i2, c1]
    · rw [List.set_set]
      refine forall₂_set (forall₂_map (fun _ _ h => h.mono c3 c5) hr) ?_
      intro r' hr'
      rw [hn] at hr'
      cases hr'
      rw [if_pos hf]
      refine ⟨hrow1.name, hrow1.dim, hrow1.typ, hrow1.sub, hrow1.skip, rfl, xss ++ [xs], ?_, ?_⟩
      · show y1.data.map (· ++ xs) = _
        rw [hd1]
        simp
      · refine List.rel_append (forall₂_map (fun _ _ h => h.mono c3 c5 rfl) hd2) (.cons ?_ .nil)
        rw [← hft.2]
        exact c8
  · refine ⟨{ st with syms := st.syms.set n y1, errs := st.errs + 1 }, u, g, w, ?_, ho, hu, hp, ⟨rfl, by unfold Row.faults; rw [if_neg hf]⟩, ?_, hw, hg, .refl _⟩
    · unfold addFound
      rw [hy]
      simp only [need, Res.bind_ok, hnone, if_false, hcs, hag, hf, hdn, Bool.false_eq_true]
      rw [if_neg (by simp)]
      rfl
    · refine forall₂_set hr ?_
      intro r' hr'
      rw [hn] at hr'
      cases hr'
      rw [if_neg hf]
      exact hrow1

theorem addSym_ok (o : Opt) (e : Env) (z : Cz) {A X : List Str} {b : Gx} (hm : b.mode = .strElem) (hA : A.length < 2147483647) (hX : X.length < 2147483648)
    {u : Uel} (hu : Labels A u) {st : MState} (ho : st.out = { b with uel := some u }) {pre : List Src} (hc : Coll o X u pre st)
    {sr : Src} (hs : SrcOk A X sr) {a : Gx} {nr : Int} (hat : SymAt z a nr sr)
    {g : Gx} (hg : Between a g) {w : Bufs} (hw : w.idx.length = 20 ∧ w.vals.length = 5) (hb : recsOf (pre ++ [sr]) ≤ 2147483647) :
    ∃ st' u' g' w', addSym o z .doAll sr.id st g w nr = .ok (st', g', w') ∧ st'.out = { b with uel := some u' } ∧ Labels A u' ∧ Coll o X u' (pre ++ [sr]) st' ∧
      (w'.idx.length = 20 ∧ w'.vals.length = 5) ∧ Between a g' ∧ Props.StaysIn e z { b with uel := some u } { b with uel := some u' } := by
  rw [addSym_eq]
  by_cases hd : sr.dim < 20
  · obtain ⟨k, hk⟩ := hs.typ
    obtain ⟨i, x, i1, i2, i3, x1, x2, x3, hl⟩ := listSym_eq (o := o) (st := st) hat hg hd hk
    have hbr : recsOf (pre ++ [sr]) = recsOf pre + sr.recs.length := by simp [recsOf]
    rw [hl, symIdx_row hc.rows]
    have hpl : table o (pre ++ [sr]) = place o (table o pre) sr := table_snoc o pre sr
    have her : errsOf o (pre ++ [sr]) = errsOf o pre + faults (table o pre) sr := errsOf_snoc o pre sr
    unfold place at hpl
    rw [if_pos hd] at hpl
    unfold faults at her
    rw [if_pos hd] at her
    cases hfi : (table o pre).findIdx? fun r => sameText false r.name sr.name with
    | some n =>
      rw [hfi] at hpl her
      dsimp only at hpl her
      obtain ⟨hlt, _⟩ := List.findIdx?_eq_some_iff_getElem.mp hfi
      obtain ⟨st', u', g', w', c1, c2, c3, c4, c5, c6, c7, c8, c9⟩ := found_ok o e z hm hA hX hu ho hc.pool hc.rows hs hd hat hg hw (List.getElem?_eq_getElem hlt)
        i1 i2 x1 x2 x3 (by have := table_recs o pre _ (List.getElem_mem hlt); omega)
      exact ⟨st', u', g', w', c1, c2, c3, ⟨by rw [hpl]; exact c6, c4, c5.1.trans hc.acro, by
        rw [her, c5.2, hc.errs, List.getElem?_eq_getElem hlt]
        rfl⟩, c7, c8, c9⟩
    | none =>
      rw [hfi] at hpl her
      dsimp only at hpl her
      by_cases hta : o.takes sr.name = true
      · rw [if_pos hta] at hpl
        dsimp only
        rw [if_neg (by simp [hta])]
        have hrows : List.Forall₂ (RowOk u.strs st.pool) (table o pre ++ [⟨sr.name, sr.dim, sr.typ, sr.sub, []⟩])
            (st.syms ++ [{ name := sr.name, dim := sr.dim + 1, typ := sr.typ, sub := sr.sub }]) :=
          List.rel_append hc.rows (.cons ⟨rfl, rfl, rfl, rfl, rfl, rfl, [], rfl, .nil⟩ .nil)
        obtain ⟨st', u', g', w', c1, c2, c3, c4, c5, c6, c7, c8, c9⟩ := found_ok o e z hm hA hX hu
          (st := { st with syms := st.syms ++ [{ name := sr.name, dim := sr.dim + 1, typ := sr.typ, sub := sr.sub }] }) ho hc.pool hrows hs hd hat hg hw
          (n := st.syms.length) (r := ⟨sr.name, sr.dim, sr.typ, sr.sub, []⟩) (by rw [← hc.rows.length_eq]; simp)
          i1 i2 x1 x2 x3 (by show recsOf [] + _ ≤ _; simp only [recsOf, List.map_nil, List.sum_nil]; omega)
        refine ⟨st', u', g', w', c1, c2, c3, ⟨?_, c4, c5.1.trans hc.acro, ?_⟩, c7, c8, c9⟩
        rotate_left
        · rw [her, c5.2]
          show st.errs + _ = _
          rw [hc.errs]
          unfold Row.faults Row.fits
          simp [firstText]
        rw [hpl]
        have hfit : (⟨sr.name, sr.dim, sr.typ, sr.sub, []⟩ : Row).fits sr = true := by
          unfold Row.fits
          simp
        rw [← hc.rows.length_eq, modify_last, hfit] at c6
        exact c6
      · rw [if_neg hta] at hpl
        dsimp only
        rw [if_pos (by simpa using hta)]
        exact ⟨st, u, g, w, rfl, ho, hu, ⟨by rw [hpl]; exact hc.rows, hc.pool, hc.acro, by rw [her]; exact hc.errs⟩, hw, hg, .refl _⟩
  · refine ⟨{ st with errs := st.errs + 1 }, u, g, w, ?_, ho, hu, ⟨?_, hc.pool, hc.acro, by
      rw [errsOf_snoc]
      unfold faults
      rw [if_neg hd, ← hc.errs]⟩, hw, hg, .refl _⟩
    · unfold listSym
      dsimp only
      have hlt : ¬ (symbolInfo g nr).dim < 20 := by
        rw [hg.same.info, hat.dim]
        omega
      rw [if_pos hlt]
      rfl
    · rw [table_snoc]
      unfold place
      rw [if_neg hd]
      exact hc.rows

end Gdx.Merge
