import Verif.Proofs.Stored

/-!
A finished symbol stays as it is while other symbols are written.
-/

namespace Gdx

/-! ### what the writers do, without interpretation -/

theorem prepareWrite_cases {g g' : Gx} {name text : Str} {dim typ ui : Int} {b : Bool}
    (h : prepareWrite g name text dim typ ui = .ok (g', b)) :
    (b = false ∧ ∃ k, g' = ({ g with cur := .none, errList := none, sort := none } : Gx).raise k) ∨
    (b = true ∧ g.mode = .wInit ∧ ∃ syms sy, g.names = some syms ∧ sy.name = name ∧ sy.dim = dim ∧ sy.typ = typ.toNat ∧
      sy.userInfo = ui ∧ sy.compr = (g.comprOut && decide (dim > 0)) ∧ sy.setText = false ∧ sy.domSyms = none ∧
      sy.bitmap = (if typ = 0 ∧ dim = 1 ∧ g.storeDom = true then some BitArr.empty else none) ∧
      (0 ≤ dim ∧ dim ≤ 20) ∧ (0 ≤ typ ∧ typ ≤ 3) ∧
      g' = { g with
        errList := none
        sort := none
        names := some (syms ++ [sy])
        cur := .sym (syms.length + 1)
        curDim := dim
        dataSize := dataTypSize typ.toNat
        last := List.replicate dim.toNat indexInitial
        bounds := List.replicate dim.toNat (intMax, 0)
        wrBits := List.replicate dim.toNat none }) := by
  unfold prepareWrite at h
  generalize hg0 : ({ g with cur := .none, errList := none, sort := none } : Gx) = g0 at h ⊢
  dsimp only at h
  rcases chk_cases g0 [.wInit] with ⟨hm, hc⟩ | ⟨hm, hc⟩
  swap
  · rw [hc] at h
    cases h
    exact Or.inl ⟨rfl, _, rfl⟩
  rw [hc] at h
  simp only [Bool.true_eq_false, if_false] at h
  obtain ⟨syms, h1, h⟩ := Res.bind_eq_ok.mp h
  obtain ⟨acros, h2, h⟩ := Res.bind_eq_ok.mp h
  rcases isGoodNewSymbol_cases g0 syms acros name with ⟨h3, _⟩ | ⟨n, _, h3⟩
  swap
  · rw [h3] at h
    cases h
    exact Or.inl ⟨rfl, _, rfl⟩
  rw [h3] at h
  simp only [Bool.true_eq_false, if_false] at h
  split at h
  · cases h
    exact Or.inl ⟨rfl, _, rfl⟩
  rename_i hd
  split at h
  · cases h
    exact Or.inl ⟨rfl, _, rfl⟩
  rename_i ht
  cases h
  subst hg0
  refine Or.inr ⟨rfl, List.mem_singleton.mp hm, syms, _, need_ok h1, rfl, rfl, rfl, rfl, rfl, rfl, rfl, rfl, ?_, not_not.mp ht, rfl⟩
  exact not_not.mp hd

theorem sortAdd_ok {g g' : Gx} {key : List Int} {vals : List Dbl} (h : sortAdd g key vals = .ok g') :
    vals.length = g.dataSize ∧ key.length = g.nd ∧ (∀ k ∈ key, I32 k) ∧ ∃ s s', g.sort = some s ∧
      s.add ⟨key, vals⟩ = .ok s' ∧ g' = { g with sort := some s' } := by
  unfold sortAdd at h
  obtain ⟨s, h1, h⟩ := Res.bind_eq_ok.mp h
  split at h
  · cases h
  rename_i hc
  push Not at hc
  obtain ⟨s', h2, h⟩ := Res.bind_eq_ok.mp h
  cases h
  exact ⟨hc.1, hc.2.1, hc.2.2, s, s', need_ok h1, h2, rfl⟩

/-- errors have been raised and the domain bit maps changed -/
def Noted (g g' : Gx) : Prop :=
  ∃ a b c d w, g' = { g with lastErr := a, errCnt := b, errTotal := c, raised := d, wrBits := w }

theorem Noted.refl (g : Gx) : Noted g g := ⟨_, _, _, _, _, rfl⟩
theorem Noted.raise (g : Gx) (n : Int) : Noted g (g.raise n) := ⟨_, _, _, _, g.wrBits, rfl⟩
theorem Noted.trans {a b c : Gx} (h1 : Noted a b) (h2 : Noted b c) : Noted a c := by
  obtain ⟨_, _, _, _, _, rfl⟩ := h1
  obtain ⟨_, _, _, _, _, rfl⟩ := h2
  exact ⟨_, _, _, _, _, rfl⟩

theorem domLoop_noted (syms : List Sym) (cur : Nat) (dim : Int) : ∀ (ss : List Str) (g : Gx) (d : Nat),
    (domLoop syms cur dim g d ss).All fun r => Noted g r.1
  | [], g, d => Noted.refl g
  | s :: ss, g, d => by
    rw [domLoop]
    simp only
    generalize (if s = star then 0 else symIndex syms s) = n
    have hg1 : Noted g (if (decide (s ≠ star) && decide (n ≤ 0)) = true then g.raise Err.unknownDomain else g) := by
      split
      · exact Noted.raise g _
      · exact Noted.refl g
    generalize (if (decide (s ≠ star) && decide (n ≤ 0)) = true then g.raise Err.unknownDomain else g) = g1 at hg1 ⊢
    split
    · refine Res.All.bind (domLoop_noted syms cur dim ss g1 (d + 1)) ?_
      rintro ⟨g2, l, ok, st⟩ h1
      exact hg1.trans h1
    · refine Res.All.bind' ?_
      intro o ho
      cases o with
      | noData => exact hg1.trans (Noted.raise g1 _)
      | notSet =>
        refine Res.All.bind (domLoop_noted syms cur dim ss _ (d + 1)) ?_
        rintro ⟨g2, l, ok, st⟩ h1
        exact (hg1.trans (Noted.raise g1 _)).trans h1
      | «universe» =>
        refine Res.All.bind (domLoop_noted syms cur dim ss _ (d + 1)) ?_
        rintro ⟨g2, l, ok, st⟩ h1
        exact hg1.trans h1
      | set t =>
        simp only
        refine Res.All.bind' ?_
        intro ts hts
        refine Res.All.bind (domLoop_noted syms cur dim ss _ (d + 1)) ?_
        rintro ⟨g2, l, ok, st⟩ h1
        refine (hg1.trans ?_).trans h1
        split
        · exact ⟨_, _, _, _, _, rfl⟩
        · exact Noted.refl g1

/-- gdxSymbolSetDomain: bit maps, error counters, the domain of the current symbol and the mode -/
theorem symbolSetDomain_cases (g : Gx) (ids : List Str) : (symbolSetDomain g ids).All fun r =>
    ∃ g1, Noted g g1 ∧ ((r.1 = g1 ∧ r.2 = false) ∨ ∃ m syms s l, g.cur = .sym (m + 1) ∧ g.names = some syms ∧
      syms[m]? = some s ∧ g.mode ∈ [Mode.wDomRaw, .wDomMap, .wDomStr] ∧
      (r.1 = { g1 with names := some (syms.set m { s with domSyms := some l }) } ∨
       r.1 = { g1 with names := some (syms.set m { s with domSyms := some l }), mode := g.mode.dataOf })) := by
  unfold symbolSetDomain
  rcases chk_cases g [.wDomRaw, .wDomMap, .wDomStr] with ⟨hm, hc⟩ | ⟨hm, hc⟩
  swap
  · rw [hc]
    exact ⟨_, Noted.raise g _, Or.inl ⟨rfl, rfl⟩⟩
  rw [hc]
  simp only [Bool.true_eq_false, if_false]
  split
  · exact ⟨_, Noted.refl g, Or.inl ⟨rfl, rfl⟩⟩
  · trivial
  · rename_i n hn
    refine Res.All.bind' ?_
    intro syms hsy
    refine Res.All.bind' ?_
    intro s hs
    split
    · trivial
    refine Res.All.bind (domLoop_noted syms n s.dim ids g 0) ?_
    rintro ⟨g1, l, ok, st⟩ h1
    simp only at h1 ⊢
    refine Res.All.bind' ?_
    intro g2 hg2
    obtain ⟨m, syms', s', e1, e2, e3, rfl⟩ := modCur_ok hg2
    obtain ⟨a, b, c, d, w, rfl⟩ := h1
    have hsy' := need_ok hsy
    simp only at e1 e2
    refine (?_ : Res.All _ _)
    split
    · exact ⟨_, ⟨a, b, c, d, w, rfl⟩, Or.inr ⟨m, syms', s', _, e1, e2, e3, hm, Or.inl rfl⟩⟩
    · exact ⟨_, ⟨a, b, c, d, w, rfl⟩, Or.inr ⟨m, syms', s', _, e1, e2, e3, hm, Or.inr rfl⟩⟩

/-! ### symbols that are not the current one -/

/-- symbol `m` and its data are as before -/
structure Beside (z : Cz) (m : Nat) (g g' : Gx) : Prop where
  sym : ∀ (syms : List Sym) (s : Sym), g.names = some syms → syms[m]? = some s →
    ∃ syms' s', g'.names = some syms' ∧ syms'[m]? = some s' ∧ SymSame s s'
  data : ∀ (s : Sym) (rs : List Rec), StoredAs z g.file (g.majorPos + 80) g.nextWrite s rs →
    StoredAs z g'.file (g'.majorPos + 80) g'.nextWrite s rs
  stat : g'.stat = g.stat

theorem SymSame.trans {a b c : Sym} (h1 : SymSame a b) (h2 : SymSame b c) : SymSame a c :=
  ⟨h2.name.trans h1.name, h2.pos.trans h1.pos, h2.dim.trans h1.dim, h2.typ.trans h1.typ, h2.ui.trans h1.ui, h2.cnt.trans h1.cnt,
   h2.errs.trans h1.errs, h2.txt.trans h1.txt, h2.compr.trans h1.compr, h2.bits.trans h1.bits⟩

theorem Beside.trans {z : Cz} {m : Nat} {a b c : Gx} (h1 : Beside z m a b) (h2 : Beside z m b c) : Beside z m a c where
  sym := fun syms s hs hm => by
    obtain ⟨syms', s', e1, e2, e3⟩ := h1.sym syms s hs hm
    obtain ⟨syms'', s'', f1, f2, f3⟩ := h2.sym syms' s' e1 e2
    exact ⟨syms'', s'', f1, f2, e3.trans f3⟩
  data := fun s rs h => h2.data s rs (h1.data s rs h)
  stat := h2.stat.trans h1.stat

/-- the file is not touched and the symbol stays -/
theorem Beside.of {z : Cz} {m : Nat} {g g' : Gx} (hf : g'.file = g.file) (hn : g'.nextWrite = g.nextWrite)
    (hm : g'.majorPos = g.majorPos) (hs : g'.stat = g.stat)
    (hy : ∀ (syms : List Sym) (s : Sym), g.names = some syms → syms[m]? = some s →
      ∃ syms' s', g'.names = some syms' ∧ syms'[m]? = some s' ∧ SymSame s s') : Beside z m g g' :=
  ⟨hy, fun s rs h => by rw [hf, hn, hm]; exact h, hs⟩

theorem Beside.same {z : Cz} {m : Nat} {g g' : Gx} (hf : g'.file = g.file) (hn : g'.nextWrite = g.nextWrite)
    (hm : g'.majorPos = g.majorPos) (hs : g'.stat = g.stat) (hy : g'.names = g.names) : Beside z m g g' :=
  Beside.of hf hn hm hs fun syms s h1 h2 => ⟨syms, s, hy.trans h1, h2, SymSame.refl s⟩

/-- another symbol is changed -/
theorem Beside.set {z : Cz} {m k : Nat} {g g' : Gx} (hf : g'.file = g.file) (hn : g'.nextWrite = g.nextWrite)
    (hm : g'.majorPos = g.majorPos) (hs : g'.stat = g.stat) (hk : k ≠ m) {syms : List Sym} {t : Sym} (hsy : g.names = some syms)
    (hy : g'.names = some (syms.set k t)) : Beside z m g g' :=
  Beside.of hf hn hm hs fun syms' s h1 h2 => by
    rw [hsy] at h1
    cases h1
    refine ⟨_, s, hy, ?_, SymSame.refl s⟩
    rw [List.getElem?_set, if_neg hk]
    exact h2

theorem Beside.raise {z : Cz} {m : Nat} (g : Gx) (n : Int) : Beside z m g (g.raise n) := Beside.same rfl rfl rfl rfl rfl

theorem Noted.beside {z : Cz} {m : Nat} {g g' : Gx} (h : Noted g g') : Beside z m g g' := by
  obtain ⟨a, b, c, d, w, rfl⟩ := h
  exact Beside.same rfl rfl rfl rfl rfl

theorem Ses.beside {z : Cz} {m : Nat} {g g' : Gx} (h : Ses g g') : Beside z m g g' := by
  obtain ⟨h1, h2⟩ := h
  have e := fun {α : Type} (f : SesCore → α) => congrArg f h1
  refine Beside.of (e SesCore.file) (e SesCore.nextWrite) (e SesCore.majorPos) (e SesCore.stat) ?_
  intro syms s hs hm
  obtain ⟨syms', f1, _, f3, _⟩ := h2 syms hs
  obtain ⟨s', f4, f5⟩ := f3 m s hm
  exact ⟨syms', s', f1, f4, f5⟩

theorem initDoWrite_beside {z : Cz} {m : Nat} {g g' : Gx} {n : Int} (hc : g.cur ≠ .sym (m + 1)) (h : initDoWrite g n = .ok g') :
    Beside z m g g' ∧ g'.cur = g.cur ∧ g'.mode = g.mode := by
  obtain ⟨_, _, _, k, syms, s, e1, e2, e3, rfl⟩ := initDoWrite_ok h
  refine ⟨Beside.set rfl rfl rfl rfl ?_ e2 rfl, rfl, rfl⟩
  rintro rfl
  exact hc e1

theorem doWrite_beside {z : Cz} {m : Nat} {g g' : Gx} {key : List Int} {vals : List Dbl} {b : Bool} (hc : g.cur ≠ .sym (m + 1))
    (h : doWrite g key vals = .ok (g', b)) : Beside z m g g' ∧ g'.cur = g.cur ∧ g'.mode = g.mode := by
  obtain ⟨_, _, _, syms, bad, _, _, hh⟩ := doWrite_cases h
  rcases hh with ⟨_, rfl, rfl⟩ | ⟨_, o, _, ⟨_, rfl, rfl⟩ | ⟨_, rfl, rfl⟩ | ⟨bs, l, _, ha⟩⟩
  · obtain ⟨l, hl⟩ := addErrDom_same (g.raise Err.domainViolation) (List.zipWith (fun b k => if b then -k else k) bad key) vals
    rw [hl]
    exact ⟨Beside.same rfl rfl rfl rfl rfl, rfl, rfl⟩
  · obtain ⟨l, hl⟩ := addErr_same (g.raise Err.dataDuplicate) key vals
    rw [hl]
    exact ⟨Beside.same rfl rfl rfl rfl rfl, rfl, rfl⟩
  · obtain ⟨l, hl⟩ := addErr_same (g.raise Err.rawNotSorted) key vals
    rw [hl]
    exact ⟨Beside.same rfl rfl rfl rfl rfl, rfl, rfl⟩
  · obtain ⟨rfl, hmax, acros, acros', n, syms, s, s', e1, e2, e3, e4, e5, e6, rfl⟩ := acceptRec_cases ha
    refine ⟨Beside.set rfl rfl rfl rfl ?_ e4 rfl, rfl, rfl⟩
    rintro rfl
    exact hc e3

theorem doWrites_beside {z : Cz} {m : Nat} : ∀ (l : List (LItem (List Dbl))) (g g' : Gx), g.cur ≠ .sym (m + 1) →
    doWrites g l = .ok g' → Beside z m g g' ∧ g'.cur = g.cur ∧ g'.mode = g.mode
  | [], g, g', _, h => by cases h; exact ⟨Beside.same rfl rfl rfl rfl rfl, rfl, rfl⟩
  | r :: l, g, g', hc, h => by
    obtain ⟨⟨g1, b⟩, h1, h⟩ := Res.bind_eq_ok.mp h
    obtain ⟨a1, a2, a3⟩ := doWrite_beside hc h1
    obtain ⟨b1, b2, b3⟩ := doWrites_beside l g1 g' (by rw [a2]; exact hc) h
    exact ⟨a1.trans b1, b2.trans a2, b3.trans a3⟩

theorem finishBlock_beside {z : Cz} {m : Nat} {g g' : Gx} (hc : g.cur ≠ .sym (m + 1)) (h : finishBlock z g = .ok g') :
    Beside z m g g' ∧ g'.mode = .wInit := by
  obtain ⟨h0, k, syms, s, e1, e2, e3, rfl⟩ := finishBlock_ok h
  refine ⟨⟨?_, ?_, rfl⟩, rfl⟩
  · intro syms' t h1 h2
    rw [e2] at h1
    cases h1
    refine ⟨_, t, rfl, ?_, SymSame.refl t⟩
    rw [List.getElem?_set, if_neg ?_]
    · exact h2
    · rintro rfl
      exact hc e1
  · intro t rs h1
    refine StoredAs.behind h1 (by omega) ?_ _
    show g.nextWrite ≤ g.nextWrite + ((z.wr s.compr (g.blk ++ [255])).length : Int)
    omega

/-! ### the writing calls -/

/-- what a writing call does to the other symbols and to the mode -/
structure Moved (z : Cz) (m : Nat) (g g' : Gx) : Prop where
  bes : Beside z m g g'
  ph : (g'.mode = g.mode ∧ g'.modeAft = g.modeAft) ∨ g'.mode = .wInit ∨ (Writing g'.mode ∧ (g.mode = .wInit ∨ Writing g.mode))
  cur : Writing g'.mode → g'.cur ≠ .sym (m + 1)

theorem Moved.raise {z : Cz} {m : Nat} {g : Gx} (hc : Writing g.mode → g.cur ≠ .sym (m + 1)) (n : Int) : Moved z m g (g.raise n) :=
  ⟨Beside.raise g n, Or.inl ⟨rfl, rfl⟩, hc⟩

/-- a symbol is begun: all symbols so far are others -/
theorem prepareWrite_moved {z : Cz} {m : Nat} {g g' : Gx} {name text : Str} {dim typ ui : Int} {b : Bool}
    (hl : ∀ syms, g.names = some syms → m < syms.length) (h : prepareWrite g name text dim typ ui = .ok (g', b)) :
    Beside z m g g' ∧ g'.cur ≠ .sym (m + 1) ∧ g'.mode = g.mode ∧ g'.modeAft = g.modeAft ∧ (b = true → g.mode = .wInit) := by
  rcases prepareWrite_cases h with ⟨rfl, k, rfl⟩ | ⟨rfl, hm, syms, sy, h1, _, _, _, _, _, _, _, _, _, _, rfl⟩
  · exact ⟨Beside.same rfl rfl rfl rfl rfl, fun hx => Cur.noConfusion hx, rfl, rfl, fun hx => Bool.noConfusion hx⟩
  · refine ⟨Beside.of rfl rfl rfl rfl ?_, ?_, rfl, rfl, fun _ => hm⟩
    · intro syms' s e1 e2
      rw [h1] at e1
      cases e1
      refine ⟨_, s, rfl, ?_, SymSame.refl s⟩
      rw [List.getElem?_append_left (hl _ h1)]
      exact e2
    · intro hx
      have := hl _ h1
      simp only [Cur.sym.injEq] at hx
      omega

theorem dataWriteRawStart_moved {z : Cz} {m : Nat} {g : Gx} (name text : Str) (dim typ ui : Int)
    (hl : ∀ syms, g.names = some syms → m < syms.length) :
    (dataWriteRawStart g name text dim typ ui).All fun r => Moved z m g r.1 := by
  unfold dataWriteRawStart
  refine Res.All.bind' ?_
  rintro ⟨g1, ok⟩ h1
  obtain ⟨a1, a2, a3, a4, a5⟩ := prepareWrite_moved (z := z) hl h1
  cases ok with
  | false => exact ⟨a1, Or.inl ⟨a3, a4⟩, fun _ => a2⟩
  | true =>
    simp only [Bool.true_eq_false, if_false]
    refine Res.All.bind' ?_
    intro g2 h2
    obtain ⟨b1, b2, b3⟩ := initDoWrite_beside (z := z) (m := m) (g := { g1 with bounds := List.replicate g1.nd (0, intMax) }) a2 h2
    refine ⟨a1.trans ((Beside.same (g := g1) (g' := { g1 with bounds := List.replicate g1.nd (0, intMax) }) rfl rfl rfl rfl rfl).trans
      (b1.trans (Beside.same (g' := { g2 with mode := .wDomRaw }) rfl rfl rfl rfl rfl))), ?_, ?_⟩
    · exact Or.inr (Or.inr ⟨(show Writing .wDomRaw by decide), Or.inl (a5 rfl)⟩)
    · intro _ hx
      exact a2 (b2.symm.trans hx)

theorem dataWriteRawStartKeyBounds_moved {z : Cz} {m : Nat} {g : Gx} (name text : Str) (dim typ ui : Int) (bs : List (Int × Int))
    (hl : ∀ syms, g.names = some syms → m < syms.length) :
    (dataWriteRawStartKeyBounds g name text dim typ ui bs).All fun r => Moved z m g r.1 := by
  unfold dataWriteRawStartKeyBounds
  refine Res.All.bind' ?_
  rintro ⟨g1, ok⟩ h1
  obtain ⟨a1, a2, a3, a4, a5⟩ := prepareWrite_moved (z := z) hl h1
  cases ok with
  | false => exact ⟨a1, Or.inl ⟨a3, a4⟩, fun _ => a2⟩
  | true =>
    simp only [Bool.true_eq_false, if_false]
    refine (?_ : Res.All _ _)
    split
    · trivial
    refine Res.All.bind' ?_
    intro g2 h2
    obtain ⟨b1, b2, b3⟩ := initDoWrite_beside (z := z) (m := m) (g := { g1 with bounds := bs }) a2 h2
    refine ⟨a1.trans ((Beside.same (g := g1) (g' := { g1 with bounds := bs }) rfl rfl rfl rfl rfl).trans
      (b1.trans (Beside.same (g' := { g2 with mode := .wDomRaw }) rfl rfl rfl rfl rfl))), ?_, ?_⟩
    · exact Or.inr (Or.inr ⟨(show Writing .wDomRaw by decide), Or.inl (a5 rfl)⟩)
    · intro _ hx
      exact a2 (b2.symm.trans hx)

theorem dataWriteMapStart_moved {z : Cz} {m : Nat} {g : Gx} (name text : Str) (dim typ ui : Int)
    (hl : ∀ syms, g.names = some syms → m < syms.length) :
    (dataWriteMapStart g name text dim typ ui).All fun r => Moved z m g r.1 := by
  unfold dataWriteMapStart
  refine Res.All.bind' ?_
  rintro ⟨g1, ok⟩ h1
  obtain ⟨a1, a2, a3, a4, a5⟩ := prepareWrite_moved (z := z) hl h1
  cases ok with
  | false => exact ⟨a1, Or.inl ⟨a3, a4⟩, fun _ => a2⟩
  | true =>
    exact ⟨a1.trans (Beside.same rfl rfl rfl rfl rfl), Or.inr (Or.inr ⟨(show Writing .wDomMap by decide), Or.inl (a5 rfl)⟩),
      fun _ => a2⟩

theorem dataWriteStrStart_moved {z : Cz} {m : Nat} {g : Gx} (name text : Str) (dim typ ui : Int)
    (hl : ∀ syms, g.names = some syms → m < syms.length) :
    (dataWriteStrStart g name text dim typ ui).All fun r => Moved z m g r.1 := by
  unfold dataWriteStrStart
  refine Res.All.bind' ?_
  rintro ⟨g1, ok⟩ h1
  obtain ⟨a1, a2, a3, a4, a5⟩ := prepareWrite_moved (z := z) hl h1
  cases ok with
  | false => exact ⟨a1, Or.inl ⟨a3, a4⟩, fun _ => a2⟩
  | true =>
    exact ⟨a1.trans (Beside.same rfl rfl rfl rfl rfl), Or.inr (Or.inr ⟨(show Writing .wDomStr by decide), Or.inl (a5 rfl)⟩),
      fun _ => a2⟩

theorem dataWriteRaw_moved {z : Cz} {m : Nat} {g : Gx} (key : List Int) (vals : List Dbl)
    (hc : Writing g.mode → g.cur ≠ .sym (m + 1)) : (dataWriteRaw g key vals).All fun r => Moved z m g r.1 := by
  unfold dataWriteRaw
  generalize hg1 : (if g.mode = .wDomRaw then { g with mode := .wRaw } else g) = g1
  dsimp only
  have hx : Moved z m g g1 ∧ (g1.mode = .wRaw → Writing g.mode ∧ g.cur ≠ .sym (m + 1) ∧ g1.cur ≠ .sym (m + 1)) := by
    subst hg1
    by_cases h : g.mode = .wDomRaw
    · have hw : Writing g.mode := by rw [h]; decide
      rw [if_pos h]
      exact ⟨⟨Beside.same rfl rfl rfl rfl rfl, Or.inr (Or.inr ⟨(show Writing .wRaw by decide), Or.inr hw⟩), fun _ => hc hw⟩,
        fun _ => ⟨hw, hc hw, hc hw⟩⟩
    · rw [if_neg h]
      refine ⟨⟨Beside.same rfl rfl rfl rfl rfl, Or.inl ⟨rfl, rfl⟩, hc⟩, fun h' => ?_⟩
      have hw : Writing g.mode := by rw [h']; decide
      exact ⟨hw, hc hw, hc hw⟩
  rcases chk_cases g1 [.wRaw] with ⟨hm, hk⟩ | ⟨hm, hk⟩
  · rw [hk]
    simp only [Bool.true_eq_false, if_false]
    obtain ⟨h1, h2⟩ := hx
    obtain ⟨hw, hc1, hc2⟩ := h2 (List.mem_singleton.mp hm)
    cases hd : doWrite g1 key vals with
    | ub => trivial
    | ok r =>
      obtain ⟨b1, b2, b3⟩ := doWrite_beside (z := z) (m := m) hc2 hd
      refine ⟨h1.bes.trans b1, Or.inr (Or.inr ⟨?_, Or.inr hw⟩), fun _ => by rw [b2]; exact hc2⟩
      rw [b3, List.mem_singleton.mp hm]
      decide
  · rw [hk]
    exact ⟨hx.1.bes.trans (Beside.raise _ _), hx.1.ph, hx.1.cur⟩

theorem dataWriteMap_moved {z : Cz} {m : Nat} {g : Gx} (key : List Int) (vals : List Dbl)
    (hc : Writing g.mode → g.cur ≠ .sym (m + 1)) : (dataWriteMap g key vals).All fun r => Moved z m g r.1 := by
  unfold dataWriteMap
  generalize hg1 : (if g.mode = .wDomMap then { g with mode := .wMap } else g) = g1
  dsimp only
  have hx : Moved z m g g1 := by
    subst hg1
    by_cases h : g.mode = .wDomMap
    · have hw : Writing g.mode := by rw [h]; decide
      rw [if_pos h]
      exact ⟨Beside.same rfl rfl rfl rfl rfl, Or.inr (Or.inr ⟨(show Writing .wMap by decide), Or.inr hw⟩), fun _ => hc hw⟩
    · rw [if_neg h]
      exact ⟨Beside.same rfl rfl rfl rfl rfl, Or.inl ⟨rfl, rfl⟩, hc⟩
  have hcl : ∀ g2 : Gx, g2.file = g1.file → g2.nextWrite = g1.nextWrite → g2.majorPos = g1.majorPos → g2.stat = g1.stat →
      g2.names = g1.names → g2.mode = g1.mode → g2.modeAft = g1.modeAft → g2.cur = g1.cur → Moved z m g g2 := by
    intro g2 e1 e2 e3 e4 e5 e6 e7 e8
    refine ⟨hx.bes.trans (Beside.same e1 e2 e3 e4 e5), ?_, ?_⟩
    · rw [e6, e7]; exact hx.ph
    · rw [e6, e8]; exact hx.cur
  rcases chk_cases g1 [.wMap] with ⟨hm, hk⟩ | ⟨hm, hk⟩
  · rw [hk]
    simp only [Bool.true_eq_false, if_false]
    refine (?_ : Res.All _ _)
    split
    · trivial
    refine Res.All.bind' ?_
    intro u _
    refine (?_ : Res.All _ _)
    split
    · exact hcl _ rfl rfl rfl rfl rfl rfl rfl rfl
    · refine Res.All.bind' ?_
      intro g3 h3
      obtain ⟨_, _, _, s, s', _, _, rfl⟩ := sortAdd_ok h3
      exact hcl _ rfl rfl rfl rfl rfl rfl rfl rfl
  · rw [hk]
    exact hcl _ rfl rfl rfl rfl rfl rfl rfl rfl

theorem dataWriteStr_moved {z : Cz} {m : Nat} {g : Gx} (key : List Str) (vals : List Dbl)
    (hc : Writing g.mode → g.cur ≠ .sym (m + 1)) : (dataWriteStr g key vals).All fun r => Moved z m g r.1 := by
  unfold dataWriteStr
  generalize hg1 : (if g.mode = .wDomStr then { g with mode := .wStr } else g) = g1
  dsimp only
  have hx : Moved z m g g1 := by
    subst hg1
    by_cases h : g.mode = .wDomStr
    · have hw : Writing g.mode := by rw [h]; decide
      rw [if_pos h]
      exact ⟨Beside.same rfl rfl rfl rfl rfl, Or.inr (Or.inr ⟨(show Writing .wStr by decide), Or.inr hw⟩), fun _ => hc hw⟩
    · rw [if_neg h]
      exact ⟨Beside.same rfl rfl rfl rfl rfl, Or.inl ⟨rfl, rfl⟩, hc⟩
  have hcl : ∀ g2 : Gx, g2.file = g1.file → g2.nextWrite = g1.nextWrite → g2.majorPos = g1.majorPos → g2.stat = g1.stat →
      g2.names = g1.names → g2.mode = g1.mode → g2.modeAft = g1.modeAft → g2.cur = g1.cur → Moved z m g g2 := by
    intro g2 e1 e2 e3 e4 e5 e6 e7 e8
    refine ⟨hx.bes.trans (Beside.same e1 e2 e3 e4 e5), ?_, ?_⟩
    · rw [e6, e7]; exact hx.ph
    · rw [e6, e8]; exact hx.cur
  rcases chk_cases g1 [.wStr] with ⟨hm, hk⟩ | ⟨hm, hk⟩
  · rw [hk]
    simp only [Bool.true_eq_false, if_false]
    refine (?_ : Res.All _ _)
    split
    · trivial
    refine Res.All.bind' ?_
    intro u _
    refine Res.All.bind' ?_
    rintro ⟨u', ps, ok⟩ _
    refine (?_ : Res.All _ _)
    split
    · exact hcl _ rfl rfl rfl rfl rfl rfl rfl rfl
    · refine Res.All.bind' ?_
      intro g3 h3
      obtain ⟨_, _, _, s, s', _, _, rfl⟩ := sortAdd_ok h3
      exact hcl _ rfl rfl rfl rfl rfl rfl rfl rfl
  · rw [hk]
    exact hcl _ rfl rfl rfl rfl rfl rfl rfl rfl

theorem dataWriteDone_moved {z : Cz} {m : Nat} {g : Gx} (hc : Writing g.mode → g.cur ≠ .sym (m + 1)) :
    (dataWriteDone z g).All fun r => Moved z m g r.1 := by
  unfold dataWriteDone
  rcases chk_cases g [.wRaw, .wMap, .wStr, .wDomRaw, .wDomMap, .wDomStr] with ⟨hm, hk⟩ | ⟨hm, hk⟩
  swap
  · rw [hk]
    exact Moved.raise hc _
  have hw : Writing g.mode := by
    unfold Writing
    simp only [List.mem_cons, List.not_mem_nil, or_false] at hm ⊢
    tauto
  rw [hk]
  simp only [Bool.true_eq_false, if_false]
  refine (?_ : Res.All _ _)
  split
  · refine Res.All.bind' ?_
    intro g1 h1
    obtain ⟨b1, b2⟩ := finishBlock_beside (z := z) (m := m) (hc hw) h1
    exact ⟨b1, Or.inr (Or.inl b2), fun hx => by rw [b2] at hx; exact absurd hx (by decide)⟩
  · refine Res.All.bind' ?_
    intro s _
    refine Res.All.bind' ?_
    intro g1 h1
    refine Res.All.bind' ?_
    intro recs _
    refine Res.All.bind' ?_
    intro g2 h2
    refine Res.All.bind' ?_
    intro g3 h3
    obtain ⟨a1, a2, a3⟩ := initDoWrite_beside (z := z) (m := m) (hc hw) h1
    obtain ⟨b1, b2, b3⟩ := doWrites_beside (z := z) (m := m) recs g1 g2 (by rw [a2]; exact hc hw) h2
    obtain ⟨c1, c2⟩ := finishBlock_beside (z := z) (m := m)
      (g := { g2 with sort := none, readPtr := if recs = [] then none else some [] }) (by
        show g2.cur ≠ _
        rw [b2, a2]; exact hc hw) h3
    exact ⟨(a1.trans b1).trans ((Beside.same (g := g2) (g' := { g2 with sort := none, readPtr := if recs = [] then none else some [] })
      rfl rfl rfl rfl rfl).trans c1), Or.inr (Or.inl c2),
      fun hx => by rw [c2] at hx; exact absurd hx (by decide)⟩

theorem symbolSetDomain_moved {z : Cz} {m : Nat} {g : Gx} (ids : List Str) (hc : Writing g.mode → g.cur ≠ .sym (m + 1)) :
    (symbolSetDomain g ids).All fun r => Moved z m g r.1 := by
  refine (symbolSetDomain_cases g ids).mono ?_
  rintro ⟨g', b⟩ ⟨g1, ⟨a, b', c, d, w, rfl⟩, ⟨rfl, _⟩ | ⟨k, syms, s, l, e1, e2, e3, e4, e5⟩⟩
  · exact ⟨Beside.same rfl rfl rfl rfl rfl, Or.inl ⟨rfl, rfl⟩, hc⟩
  · have hw : Writing g.mode := by revert e4; generalize g.mode = mm; cases mm <;> decide
    have hw2 : Writing g.mode.dataOf := by revert e4; generalize g.mode = mm; cases mm <;> decide
    have hk : k ≠ m := by
      rintro rfl
      exact hc hw e1
    rcases e5 with e5 | e5
    · simp only at e5
      subst e5
      exact ⟨Beside.set rfl rfl rfl rfl hk e2 rfl, Or.inl ⟨rfl, rfl⟩, hc⟩
    · simp only at e5
      subst e5
      exact ⟨Beside.set rfl rfl rfl rfl hk e2 rfl, Or.inr (Or.inr ⟨hw2, Or.inr hw⟩), fun _ => hc hw⟩

/-- calls that neither open nor close a file -/
def Call.inFile : Call → Bool
  | .openWrite .. | .openRead .. | .openAppend .. | .close => false
  | _ => true

/-! ### the invariant -/

/-- Symbol `m + 1` of the file being written is finished; it is `s0` up to comments and domains and holds the records `rs`. -/
structure Kept (z : Cz) (m : Nat) (s0 : Sym) (rs : List Rec) (g : Gx) : Prop where
  stat : g.stat = .write
  ph : Calm g ∨ Writing g.mode
  cur : Writing g.mode → g.cur ≠ .sym (m + 1)
  sym : ∃ syms s, g.names = some syms ∧ syms[m]? = some s ∧ SymSame s0 s ∧
    StoredAs z g.file (g.majorPos + 80) g.nextWrite s rs

theorem Beside.kept {z : Cz} {m : Nat} {s0 : Sym} {rs : List Rec} {g g' : Gx} (h : Beside z m g g') (hk : Kept z m s0 rs g)
    (hp : Calm g' ∨ Writing g'.mode) (hc : Writing g'.mode → g'.cur ≠ .sym (m + 1)) : Kept z m s0 rs g' := by
  obtain ⟨syms, s, e1, e2, e3, e4⟩ := hk.sym
  obtain ⟨syms', s', f1, f2, f3⟩ := h.sym syms s e1 e2
  exact ⟨h.stat.trans hk.stat, hp, hc, syms', s', f1, f2, e3.trans f3, (h.data s rs e4).same f3⟩

theorem Moved.kept {z : Cz} {m : Nat} {s0 : Sym} {rs : List Rec} {g g' : Gx} (h : Moved z m g g') (hk : Kept z m s0 rs g) :
    Kept z m s0 rs g' := by
  refine h.bes.kept hk ?_ h.cur
  rcases h.ph with ⟨h1, h2⟩ | h1 | ⟨h1, _⟩
  · rcases hk.ph with (h | ⟨h, h'⟩) | h
    · exact Or.inl (Or.inl (by rw [h1]; exact h))
    · exact Or.inl (Or.inr (by rw [h1, h2]; exact ⟨h, h'⟩))
    · exact Or.inr (by rw [h1]; exact h)
  · exact Or.inl (Or.inl h1)
  · exact Or.inr h1

theorem Calm.aftOk {g : Gx} (h : Calm g) : AftOk g := by
  intro he
  rcases h with h | ⟨_, h⟩
  · rw [h] at he
    exact absurd he (by decide)
  · exact Or.inl h

theorem Writing.ne {m : Mode} (h : Writing m) : ¬ ElemMode m := by
  revert h
  cases m <;> decide

theorem Kept.aftOk {z : Cz} {m : Nat} {s0 : Sym} {rs : List Rec} {g : Gx} (h : Kept z m s0 rs g) : AftOk g := by
  rcases h.ph with h | h
  · exact h.aftOk
  · exact fun he => absurd he h.ne

/-- one call -/
theorem Kept.step {z : Cz} {m : Nat} {s0 : Sym} {rs : List Rec} {g : Gx} (h : Kept z m s0 rs g) (e : Env) (c : Call)
    (hc : c.inFile = true) : (step e z g c).All fun g' => Kept z m s0 rs g' ∨ InRead g' := by
  have hl : ∀ syms, g.names = some syms → m < syms.length := by
    intro syms hs
    obtain ⟨syms', s, e1, e2, _⟩ := h.sym
    rw [hs] at e1
    cases e1
    exact (List.getElem?_eq_some_iff.mp e2).1
  have hmv : ∀ {r : Res (Gx × Bool)}, (r.All fun x => Moved z m g x.1) → (stateOf r).All fun g' => Kept z m s0 rs g' ∨ InRead g' :=
    fun hr => stateOf_all (hr.mono fun _ hx => Or.inl (hx.kept h))
  by_cases hq : c.quiet = true
  · refine (step_tame e z g c hq h.aftOk).mono ?_
    intro g' ht
    rcases ht with ht | ⟨ht, hp⟩
    · exact Or.inr ht
    · have hcur : g'.cur = g.cur := congrArg SesCore.cur ht.ses
      refine Or.inl (ht.beside.kept h ?_ ?_)
      · rcases hp with ⟨p1, p2⟩ | ⟨_, p⟩
        · rcases h.ph with (h | ⟨h, h'⟩) | h
          · exact Or.inl (Or.inl (by rw [p1]; exact h))
          · exact Or.inl (Or.inr (by rw [p1, p2]; exact ⟨h, h'⟩))
          · exact Or.inr (by rw [p1]; exact h)
        · exact Or.inl p
      · intro hw
        rw [hcur]
        rcases hp with ⟨p1, p2⟩ | ⟨_, p⟩
        · rw [p1] at hw
          exact h.cur hw
        · rcases p with p | ⟨p, _⟩
          · rw [p] at hw; exact absurd hw (by decide)
          · exact absurd p hw.ne
  · cases c with
    | rawStart n t d ty ui => exact hmv (dataWriteRawStart_moved n t d ty ui hl)
    | rawStartBounds n t d ty ui bs => exact hmv (dataWriteRawStartKeyBounds_moved n t d ty ui bs hl)
    | writeRaw k v => exact hmv (dataWriteRaw_moved k v h.cur)
    | mapStart n t d ty ui => exact hmv (dataWriteMapStart_moved n t d ty ui hl)
    | writeMap k v => exact hmv (dataWriteMap_moved k v h.cur)
    | strStart n t d ty ui => exact hmv (dataWriteStrStart_moved n t d ty ui hl)
    | writeStr k v => exact hmv (dataWriteStr_moved k v h.cur)
    | writeDone => exact hmv (dataWriteDone_moved h.cur)
    | setDomain ids => exact hmv (symbolSetDomain_moved ids h.cur)
    | openWrite => cases hc
    | openRead => cases hc
    | openAppend => cases hc
    | close => cases hc
    | _ => exact absurd rfl hq

/-! ### reading modes are left only by opening and closing -/

theorem InRead.notWrite {g : Gx} (h : InRead g) : g.mode ≠ .wInit ∧ ¬ Writing g.mode := by
  rcases h with h | ⟨h, _⟩
  · revert h; generalize g.mode = mm; cases mm <;> decide
  · revert h; generalize g.mode = mm; cases mm <;> decide

theorem InRead.notCalm {g : Gx} (h : InRead g) : ¬ Calm g := by
  intro hc
  rcases hc with hc | ⟨hc, ha⟩
  · exact h.notWrite.1 hc
  · rcases h with h | ⟨_, h⟩
    · exact h.ne hc
    · rw [ha] at h
      cases h

theorem InRead.aftOk {g : Gx} (h : InRead g) : AftOk g := by
  intro he
  rcases h with h | ⟨_, h⟩
  · exact absurd he h.ne
  · exact Or.inr h

theorem InRead.same {g g' : Gx} (h : InRead g) (h1 : g'.mode = g.mode) (h2 : g'.modeAft = g.modeAft) : InRead g' := by
  unfold InRead
  rw [h1, h2]
  exact h

theorem InRead.start {g g' : Gx} (h : InRead g) {name text : Str} {dim typ ui : Int} {b : Bool}
    (hp : prepareWrite g name text dim typ ui = .ok (g', b)) : b = false ∧ InRead g' := by
  rcases prepareWrite_cases hp with ⟨rfl, k, rfl⟩ | ⟨rfl, hm, _⟩
  · exact ⟨rfl, h.same rfl rfl⟩
  · exact absurd hm h.notWrite.1

theorem InRead.chk {g : Gx} (h : InRead g) (l : List Mode) (hl : ∀ m ∈ l, m = .wInit ∨ Writing m) :
    g.chk l = (g.raise Err.badMode, false) := by
  rcases chk_cases g l with ⟨hm, _⟩ | ⟨_, hc⟩
  · rcases hl _ hm with h1 | h1
    · exact absurd h1 h.notWrite.1
    · exact absurd h1 h.notWrite.2
  · exact hc

theorem InRead.step {g : Gx} (h : InRead g) (e : Env) (z : Cz) (c : Call) (hc : c.inFile = true) :
    (step e z g c).All InRead := by
  have hr : ∀ n, InRead (g.raise n) := fun n => h.same rfl rfl
  by_cases hq : c.quiet = true
  · refine (step_tame e z g c hq h.aftOk).mono ?_
    intro g' ht
    rcases ht with ht | ⟨_, ⟨p1, p2⟩ | ⟨p, _⟩⟩
    · exact ht
    · exact h.same p1 p2
    · exact absurd p h.notCalm
  · cases c with
    | rawStart n t d ty ui =>
      refine stateOf_all ?_
      unfold dataWriteRawStart
      refine Res.All.bind' ?_
      rintro ⟨g1, ok⟩ h1
      obtain ⟨rfl, h2⟩ := h.start h1
      exact h2
    | rawStartBounds n t d ty ui bs =>
      refine stateOf_all ?_
      unfold dataWriteRawStartKeyBounds
      refine Res.All.bind' ?_
      rintro ⟨g1, ok⟩ h1
      obtain ⟨rfl, h2⟩ := h.start h1
      exact h2
    | mapStart n t d ty ui =>
      refine stateOf_all ?_
      unfold dataWriteMapStart
      refine Res.All.bind' ?_
      rintro ⟨g1, ok⟩ h1
      obtain ⟨rfl, h2⟩ := h.start h1
      exact h2
    | strStart n t d ty ui =>
      refine stateOf_all ?_
      unfold dataWriteStrStart
      refine Res.All.bind' ?_
      rintro ⟨g1, ok⟩ h1
      obtain ⟨rfl, h2⟩ := h.start h1
      exact h2
    | writeRaw k v =>
      refine stateOf_all ?_
      unfold dataWriteRaw
      have hm : g.mode ≠ .wDomRaw := fun hx => h.notWrite.2 (by rw [hx]; decide)
      simp only [if_neg hm, h.chk [.wRaw] (by decide)]
      exact hr _
    | writeMap k v =>
      refine stateOf_all ?_
      unfold dataWriteMap
      have hm : g.mode ≠ .wDomMap := fun hx => h.notWrite.2 (by rw [hx]; decide)
      simp only [if_neg hm, h.chk [.wMap] (by decide)]
      exact hr _
    | writeStr k v =>
      refine stateOf_all ?_
      unfold dataWriteStr
      have hm : g.mode ≠ .wDomStr := fun hx => h.notWrite.2 (by rw [hx]; decide)
      simp only [if_neg hm, h.chk [.wStr] (by decide)]
      exact hr _
    | writeDone =>
      refine stateOf_all ?_
      unfold dataWriteDone
      simp only [h.chk [.wRaw, .wMap, .wStr, .wDomRaw, .wDomMap, .wDomStr] (by decide)]
      exact hr _
    | setDomain ids =>
      refine stateOf_all ?_
      unfold symbolSetDomain
      simp only [h.chk [.wDomRaw, .wDomMap, .wDomStr] (by decide)]
      exact hr _
    | openWrite => cases hc
    | openRead => cases hc
    | openAppend => cases hc
    | close => cases hc
    | _ => exact absurd rfl hq

theorem InRead.run (e : Env) (z : Cz) : ∀ (cs : List Call) (g g' : Gx), InRead g → (∀ c ∈ cs, c.inFile = true) →
    run e z g cs = .ok g' → InRead g'
  | [], g, g', h, _, hr => by cases hr; exact h
  | c :: cs, g, g', h, hc, hr => by
    obtain ⟨g1, h1, hr⟩ := Res.bind_eq_ok.mp hr
    exact InRead.run e z cs g1 g' ((h.step e z c (hc c (by simp))).of_ok h1) (fun c hx => hc c (by simp [hx])) hr

/-- a finished symbol over a history inside of one file -/
theorem Kept.run {z : Cz} {m : Nat} {s0 : Sym} {rs : List Rec} (e : Env) : ∀ (cs : List Call) (g g' : Gx), Kept z m s0 rs g →
    (∀ c ∈ cs, c.inFile = true) → run e z g cs = .ok g' → Kept z m s0 rs g' ∨ InRead g'
  | [], g, g', h, _, hr => by cases hr; exact Or.inl h
  | c :: cs, g, g', h, hc, hr => by
    obtain ⟨g1, h1, hr⟩ := Res.bind_eq_ok.mp hr
    rcases (h.step e c (hc c (by simp))).of_ok h1 with h2 | h2
    · exact Kept.run e cs g1 g' h2 (fun c hx => hc c (by simp [hx])) hr
    · exact Or.inr (InRead.run e z cs g1 g' h2 (fun c hx => hc c (by simp [hx])) hr)

end Gdx
