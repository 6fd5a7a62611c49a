import Verif.Proofs.EvoBase

/-! The writing calls are chains of elementary steps. -/

namespace Gdx
open Gdx.Props

/-! ### elements -/

theorem addObject_evo {lc : Lic} (u : Uel) {s : Str} (hg : goodUEL s = true) (ht : trimRight s = s) (hk : u.stat = none ∨ lc .elem) :
    UelEvo lc u (u.addObject s).1 := by
  unfold Uel.addObject
  split
  · exact UelEvo.refl u
  · rename_i h
    exact UelEvo.of_step (.add u s hg ht h hk)

theorem newUsr_evo {lc : Lic} (u : Uel) (en : Nat) {s : Str} {d : Int} (h : at1 u.ents en = .ok (s, d)) (hd : d < 0) :
    (u.newUsr en).All fun r => UelEvo lc u r.1 := by
  unfold Uel.newUsr
  refine Res.All.bind' ?_
  intro m hm
  exact UelEvo.of_step (.newUsr u en s d m h hd hm)

theorem newUsrUel_evo {lc : Lic} (u : Uel) (en : Int) : (u.newUsrUel en).All fun r => UelEvo lc u r.1 := by
  unfold Uel.newUsrUel
  refine Res.All.bind' ?_
  intro v hv
  unfold Uel.userMap at hv
  rw [Res.bind_eq_ok] at hv
  obtain ⟨⟨s, d⟩, h1, h2⟩ := hv
  cases h2
  have hr := at1_ok h1
  simp only
  split
  · rename_i hd
    refine newUsr_evo u en.toNat (s := s) (d := d) ?_ hd
    rw [Int.toNat_of_nonneg (by omega)]
    exact h1
  · exact UelEvo.of_step (.stat u none (Or.inl rfl))

/-- the cached status does not matter -/
theorem addUsrNew_stat (u : Uel) (s : Str) : u.addUsrNew s = ({ u with stat := none } : Uel).addUsrNew s := by
  unfold Uel.addUsrNew Uel.addObject
  rw [show ({ u with stat := none } : Uel).strs = u.strs from rfl]
  cases lookup false s u.strs <;> rfl

theorem addUsrIndxNew_stat (u : Uel) (s : Str) (k : Int) : u.addUsrIndxNew s k = ({ u with stat := none } : Uel).addUsrIndxNew s k := by
  unfold Uel.addUsrIndxNew Uel.addObject
  rw [show ({ u with stat := none } : Uel).strs = u.strs from rfl]
  cases lookup false s u.strs <;> rfl

theorem addUsrNew_evo {lc : Lic} (u : Uel) {s : Str} (hg : goodUEL s = true) (ht : trimRight s = s) :
    (u.addUsrNew s).All fun r => UelEvo lc u r.1 := by
  rw [addUsrNew_stat]
  unfold Uel.addUsrNew
  refine (newUsrUel_evo (lc := lc) _ _).mono ?_
  intro r hr
  exact ((UelEvo.of_step (.stat u none (Or.inl rfl))).trans (addObject_evo _ hg ht (Or.inl rfl))).trans hr

/-! ### starting a symbol -/

theorem isGoodNewSymbol_cases (g : Gx) (syms : List Sym) (acros : List Acr) (s : Str) :
    (isGoodNewSymbol g syms acros s = (g, true) ∧ lookup false s (syms.map Sym.name) = none ∧ acrFindName acros s = none ∧
      isGoodIdent s = true) ∨ (∃ n, n ≠ 0 ∧ isGoodNewSymbol g syms acros s = (g.raise n, false)) := by
  unfold isGoodNewSymbol
  by_cases h1 : symIndex syms s ≥ 1
  · exact Or.inr ⟨Err.duplicateSymbol, by decide, by rw [if_pos h1]⟩
  by_cases h2 : (acrFindName acros s).isSome = true
  · exact Or.inr ⟨Err.duplicateSymbol, by decide, by rw [if_neg h1, if_pos h2]⟩
  by_cases h3 : isGoodIdent s = true
  · refine Or.inl ⟨by rw [if_neg h1, if_neg h2, if_pos h3], ?_, ?_, h3⟩
    · unfold symIndex at h1
      rcases indexOf1_cases false s (syms.map Sym.name) with ⟨h, _⟩ | ⟨n, _, h⟩
      · exact h
      · rw [h] at h1; omega
    · simpa using h2
  · exact Or.inr ⟨Err.badIdentFormat, by decide, by rw [if_neg h1, if_neg h2, if_neg h3]⟩

theorem isGoodNewSymbol_evo (lc : Lic) (g : Gx) (syms : List Sym) (acros : List Acr) (s : Str) :
    Evo lc g (isGoodNewSymbol g syms acros s).1 := by
  rcases isGoodNewSymbol_cases g syms acros s with ⟨h, _⟩ | ⟨n, hn, h⟩
  · rw [h]; exact Evo.refl g
  · rw [h]; exact Evo.raise g hn

/-- state after a successful PrepareSymbolWrite -/
structure Prepared (lc : Lic) (g g' : Gx) (dim : Int) : Prop where
  evo : ∀ m, m ≠ .rFilter → Evo lc g { g' with mode := m }
  mode : g'.mode = .wInit
  nw : g'.nextWrite = g.nextWrite
  dim : g'.curDim = dim ∧ 0 ≤ dim ∧ dim ≤ 20

theorem prepareWrite_evo (lc : Lic) (g : Gx) (name text : Str) (dim typ ui : Int) (hui : I32 ui) :
    (prepareWrite g name text dim typ ui).All fun r => (r.2 = false → Evo lc g r.1) ∧ (r.2 = true → Prepared lc g r.1 dim) := by
  unfold prepareWrite
  generalize hg0 : ({ g with cur := Cur.none, errList := none, sort := none } : Gx) = g0
  have h0 : Evo lc g g0 := by
    subst hg0
    exact Evo.drop rfl rfl
  simp only
  rcases chk_cases g0 [.wInit] with ⟨hm, hc⟩ | ⟨hm, hc⟩
  · rw [hc]
    simp only [Bool.true_eq_false, if_false]
    refine Res.All.bind' ?_
    intro syms hsy
    refine Res.All.bind' ?_
    intro acros hac
    rcases isGoodNewSymbol_cases g0 syms acros name with ⟨h, hf, ha, hgood⟩ | ⟨n, hn, h⟩
    · rw [h]
      simp only [Bool.true_eq_false, if_false]
      split
      · exact ⟨fun _ => h0.snoc (.raise g0 _ (by decide)), fun h => Bool.noConfusion h⟩
      split
      · exact ⟨fun _ => h0.snoc (.raise g0 _ (by decide)), fun h => Bool.noConfusion h⟩
      rename_i hd ht
      have hd : 0 ≤ dim ∧ dim ≤ 20 := by
        have := not_not.mp hd
        unfold maxDim at this
        omega
      have ht : 0 ≤ typ ∧ typ ≤ 3 := not_not.mp ht
      refine ⟨fun h => Bool.noConfusion h, fun _ => ⟨?_, ?_, ?_, rfl, hd⟩⟩
      · intro m hmf
        have hnew : NewSym syms acros
            { name := name, dim := dim, typ := typ.toNat, userInfo := ui, expl := makeGoodExplText (assignExpl text),
              compr := g0.comprOut && decide (dim > 0),
              bitmap := if typ = 0 ∧ dim = 1 ∧ g0.storeDom = true then some BitArr.empty else none } :=
            { fresh := hf, notAcro := ha, good := hgood, typ := by simp only; omega
              plain := fun _ => ⟨hd, hui, zfree_good _, by simp only [makeGood_length]; exact assignExpl_length text, Props.C34_legal _⟩
              zero := ⟨rfl, rfl, rfl, rfl, rfl, rfl, rfl⟩
              ali := fun h => by simp only [dtAlias] at h; omega }
        exact (h0.snoc (.addSym g0 syms acros _ (.sym (syms.length + 1)) m (need_ok hsy) (need_ok hac) hnew
          (Or.inr rfl) (Or.inr hmf))).trans (Evo.keep rfl rfl rfl)
      · simp only [List.mem_singleton] at hm
        exact hm
      · subst hg0; rfl
    · rw [h]
      simp only [if_true]
      exact ⟨fun _ => h0.snoc (.raise g0 _ hn), fun h => Bool.noConfusion h⟩
  · rw [hc]
    simp only [if_true]
    exact ⟨fun _ => h0.snoc (.raise g0 _ (by decide)), fun h => Bool.noConfusion h⟩

theorem initDoWrite_evo (lc : Lic) (g : Gx) (nr : Int) (hw : Writing g.mode) :
    (initDoWrite g nr).All fun g' => Evo lc g g' ∧ g'.mode = g.mode ∧ g'.cur = g.cur ∧ g'.dataCount = 0 := by
  unfold initDoWrite
  split
  · trivial
  refine Res.All.bind (modCur_evo lc (g := g) (f := fun s => { s with pos := g.nextWrite }) ?_) ?_
  · intro n syms s h1 h2 h3
    exact .pos s hw h1
  · rintro g1 ⟨h1, h2, h3, h4, h5⟩
    refine ⟨(h1.snoc (.count g1 0 (Or.inl rfl))).trans (Evo.keep rfl rfl rfl), h2, h3, rfl⟩

theorem modCur_mode (g : Gx) (f : Sym → Sym) (m : Mode) :
    ({ g with mode := m } : Gx).modCur f = (g.modCur f >>= fun g' => .ok { g' with mode := m }) := by
  unfold Gx.modCur
  simp only
  split
  · split <;> rfl
  · rfl

theorem initDoWrite_mode (g : Gx) (nr : Int) (m : Mode) :
    initDoWrite { g with mode := m } nr = (initDoWrite g nr >>= fun g' => .ok { g' with mode := m }) := by
  unfold initDoWrite
  simp only
  split
  · rfl
  · rw [modCur_mode]
    cases g.modCur fun s => { s with pos := g.nextWrite } <;> rfl

theorem start_evo (lc : Lic) {g g1 : Gx} {dim : Int} (h : Prepared lc g g1 dim) (bs : List (Int × Int)) (nr : Int) :
    EvoR lc g (initDoWrite { g1 with bounds := bs } nr >>= fun g2 => Res.ok ({ g2 with mode := .wDomRaw }, true)) := by
  have e : (initDoWrite { g1 with bounds := bs } nr >>= fun g2 => Res.ok (({ g2 with mode := .wDomRaw } : Gx), true)) =
      (initDoWrite { { g1 with bounds := bs } with mode := .wDomRaw } nr >>= fun g2 => Res.ok (g2, true)) := by
    rw [initDoWrite_mode]
    cases initDoWrite { g1 with bounds := bs } nr <;> rfl
  rw [e]
  have hk : Evo lc { g1 with mode := .wDomRaw } { { g1 with bounds := bs } with mode := .wDomRaw } := Evo.keep rfl rfl rfl
  have hw : Writing ({ { g1 with bounds := bs } with mode := .wDomRaw } : Gx).mode := by
    show Writing .wDomRaw
    decide
  refine Res.All.bind (initDoWrite_evo lc _ _ hw) ?_
  rintro g2 ⟨h2, _⟩
  exact ((h.evo .wDomRaw (by decide)).trans hk).trans h2

theorem dataWriteRawStart_evo (lc : Lic) (g : Gx) (name text : Str) (dim typ ui : Int) (hui : I32 ui) :
    EvoR lc g (dataWriteRawStart g name text dim typ ui) := by
  unfold dataWriteRawStart
  refine Res.All.bind (prepareWrite_evo lc g name text dim typ ui hui) ?_
  rintro ⟨g1, ok⟩ ⟨h1, h2⟩
  simp only
  cases ok with
  | false => exact h1 rfl
  | true =>
    simp only [Bool.true_eq_false, if_false]
    exact start_evo lc (h2 rfl) _ _

theorem dataWriteRawStartKeyBounds_evo (lc : Lic) (g : Gx) (name text : Str) (dim typ ui : Int) (bs : List (Int × Int)) (hui : I32 ui) :
    EvoR lc g (dataWriteRawStartKeyBounds g name text dim typ ui bs) := by
  unfold dataWriteRawStartKeyBounds
  refine Res.All.bind (prepareWrite_evo lc g name text dim typ ui hui) ?_
  rintro ⟨g1, ok⟩ ⟨h1, h2⟩
  simp only
  cases ok with
  | false => exact h1 rfl
  | true =>
    simp only [Bool.true_eq_false, if_false]
    split
    · trivial
    · exact start_evo lc (h2 rfl) _ _

theorem dataWriteMapStart_evo (lc : Lic) (g : Gx) (name text : Str) (dim typ ui : Int) (hui : I32 ui) :
    EvoR lc g (dataWriteMapStart g name text dim typ ui) := by
  unfold dataWriteMapStart
  refine Res.All.bind (prepareWrite_evo lc g name text dim typ ui hui) ?_
  rintro ⟨g1, ok⟩ ⟨h1, h2⟩
  simp only
  cases ok with
  | false => exact h1 rfl
  | true =>
    simp only [Bool.true_eq_false, if_false]
    exact ((h2 rfl).evo .wDomMap (by decide)).trans (Evo.keep rfl rfl rfl)

theorem dataWriteStrStart_evo (lc : Lic) (g : Gx) (name text : Str) (dim typ ui : Int) (hui : I32 ui) :
    EvoR lc g (dataWriteStrStart g name text dim typ ui) := by
  unfold dataWriteStrStart
  refine Res.All.bind (prepareWrite_evo lc g name text dim typ ui hui) ?_
  rintro ⟨g1, ok⟩ ⟨h1, h2⟩
  simp only
  cases ok with
  | false => exact h1 rfl
  | true =>
    simp only [Bool.true_eq_false, if_false]
    exact ((h2 rfl).evo .wDomStr (by decide)).trans (Evo.keep rfl rfl rfl)

/-! ### records -/

theorem addErr_evo (lc : Lic) (g : Gx) (k : List Int) (v : List Dbl) : Evo lc g (addErr g k v) := by
  unfold addErr
  split
  · exact Evo.keep rfl rfl rfl
  · split
    · exact Evo.refl g
    · exact Evo.keep rfl rfl rfl

theorem addErrDom_evo (lc : Lic) (g : Gx) (k : List Int) (v : List Dbl) : Evo lc g (addErrDom g k v) := by
  unfold addErrDom
  simp only
  split
  · exact Evo.refl g
  · split
    · exact Evo.keep rfl rfl rfl
    · exact Evo.keep rfl rfl rfl

theorem acrFind_none {l : List Acr} {m : Int} (h : acrFind l m = none) : ∀ b ∈ l, b.map ≠ m := by
  unfold acrFind at h
  rw [List.findIdx?_eq_none_iff] at h
  intro b hb hm
  have := h b hb
  simp [hm] at this

theorem checkAcros_evo (lc : Lic) : ∀ (vs : List SVal) (g : Gx) (l : List Acr), g.acros = some l →
    (checkAcros l vs).All fun l' => Evo lc g { g with acros := some l' }
  | [], g, l, h => by
    show Evo lc g { g with acros := some l }
    rw [← h]
    exact Evo.refl g
  | .code _ :: vs, g, l, h => by
    rw [checkAcros]
    exact checkAcros_evo lc vs g l h
  | .num d :: vs, g, l, h => by
    rw [checkAcros]
    split
    · rename_i hg
      refine Res.All.bind' ?_
      intro n hn
      have hb := acrDiv_bound hg hn
      have h1 : Evo lc g { g with acros := some (acrCheck l n) } := by
        unfold acrCheck
        split
        · rw [← h]; exact Evo.refl g
        · rename_i hf
          refine Evo.of_prim (.acro g l _ h (.add l _ (acrFind_none hf) (Or.inl rfl) ⟨?_, ?_⟩ ?_ (Or.inl (show (-1 : Int) ≤ 0 by decide))))
          · intro c hc; simp [Acr.mk'] at hc
          · exact zfree_good []
          · show I32 n
            unfold I32; omega
      refine (checkAcros_evo lc vs { g with acros := some (acrCheck l n) } (acrCheck l n) rfl).mono ?_
      intro l' h2
      exact h1.trans h2
    · exact checkAcros_evo lc vs g l h

theorem noteElem_ok {key : List Int} {vals : List Dbl} {s s' : Sym} (h : noteElem key vals s = .ok s') :
    ∃ b bm, bm.isSome = s.bitmap.isSome ∧ s' = { s with setText := b, bitmap := bm } := by
  unfold noteElem at h
  split at h
  · rw [Res.bind_eq_ok] at h
    obtain ⟨x, _, h⟩ := h
    by_cases hx : nonZero x = true
    · simp only [hx, if_true] at h
      split at h
      · rename_i b0 hb0
        rw [Res.bind_eq_ok] at h
        obtain ⟨b, _, h⟩ := h
        cases h
        exact ⟨_, _, by rw [show s.bitmap = some b0 from hb0]; rfl, rfl⟩
      · cases h
        exact ⟨_, _, rfl, rfl⟩
    · simp only [hx, Bool.false_eq_true, if_false] at h
      split at h
      · rename_i b0 hb0
        rw [Res.bind_eq_ok] at h
        obtain ⟨b, _, h⟩ := h
        cases h
        exact ⟨_, _, by rw [show s.bitmap = some b0 from hb0]; rfl, rfl⟩
      · cases h
        exact ⟨_, _, rfl, rfl⟩
  · cases h
    exact ⟨_, _, rfl, rfl⟩

/-- evolution that keeps mode and current symbol -/
def EvoW (lc : Lic) (g g' : Gx) : Prop := Evo lc g g' ∧ g'.mode = g.mode ∧ g'.cur = g.cur

theorem EvoW.refl (g : Gx) : EvoW lc g g := ⟨Evo.refl g, rfl, rfl⟩

theorem EvoW.trans {a b c : Gx} (h1 : EvoW lc a b) (h2 : EvoW lc b c) : EvoW lc a c :=
  ⟨h1.1.trans h2.1, h2.2.1.trans h1.2.1, h2.2.2.trans h1.2.2⟩

theorem addErr_mode (g : Gx) (k : List Int) (v : List Dbl) :
    (addErr g k v).mode = g.mode ∧ (addErr g k v).cur = g.cur := by
  unfold addErr
  split
  · exact ⟨rfl, rfl⟩
  · split <;> exact ⟨rfl, rfl⟩

theorem addErrDom_mode (g : Gx) (k : List Int) (v : List Dbl) :
    (addErrDom g k v).mode = g.mode ∧ (addErrDom g k v).cur = g.cur := by
  unfold addErrDom
  simp only
  split
  · exact ⟨rfl, rfl⟩
  · split <;> exact ⟨rfl, rfl⟩

theorem acceptRec_evo (lc : Lic) (g : Gx) (key : List Int) (vals : List Dbl) (bs : List UInt8) (hw : Writing g.mode) :
    (acceptRec g key vals bs).All fun r => EvoW lc g r.1 := by
  unfold acceptRec
  split
  · trivial
  rename_i hcnt
  refine Res.All.bind' ?_
  intro acros hac
  refine Res.All.bind (checkAcros_evo lc (vals.map (storeVal g.sv)) g acros (need_ok hac)) ?_
  intro acros' h1
  refine Res.All.bind' ?_
  intro s hs
  refine Res.All.bind' ?_
  intro s' hs'
  obtain ⟨b, bm, hbm, rfl⟩ := noteElem_ok hs'
  obtain ⟨n, syms, c1, c2, c3⟩ := curSym_ok hs
  have h2 : Evo lc g { g with acros := some acros', dataCount := g.dataCount + 1 } :=
    h1.snoc (.count { g with acros := some acros' } (g.dataCount + 1) (Or.inr ⟨rfl, by omega⟩))
  have h3 : Evo lc g { g with blk := g.blk ++ bs ++ encSVals (vals.map (storeVal g.sv)), last := key,
                              dataCount := g.dataCount + 1, acros := some acros' } :=
    h2.trans (Evo.keep rfl rfl rfl)
  simp only
  refine Res.All.bind (modCur_evo lc (f := fun _ => { s with setText := b, bitmap := bm }) ?_) ?_
  · intro n' syms' t d1 d2 d3
    simp only at d1 d2
    rw [c1] at d1
    rw [c2] at d2
    cases d1
    cases d2
    rw [c3] at d3
    cases d3
    exact .note _ b bm hw c1 hbm
  · rintro g' ⟨h4, h5, h6, _, _⟩
    exact ⟨h3.trans h4, h5, h6⟩

theorem doWrite_evo (lc : Lic) (g : Gx) (key : List Int) (vals : List Dbl) (hw : Writing g.mode) :
    (doWrite g key vals).All fun r => EvoW lc g r.1 := by
  unfold doWrite
  split
  · trivial
  refine Res.All.bind' ?_
  intro syms _
  refine Res.All.bind' ?_
  intro bad _
  split
  · refine ⟨(Evo.raise g (by decide)).trans (addErrDom_evo lc _ _ _), ?_⟩
    have := addErrDom_mode (g.raise Err.domainViolation) (List.zipWith (fun b k => if b then -k else k) bad key) vals
    exact this
  · refine Res.All.bind' ?_
    intro o _
    cases o with
    | dup =>
      exact ⟨(Evo.raise g (by decide)).trans (addErr_evo lc _ _ _), addErr_mode (g.raise Err.dataDuplicate) key vals⟩
    | unsorted =>
      exact ⟨(Evo.raise g (by decide)).trans (addErr_evo lc _ _ _), addErr_mode (g.raise Err.rawNotSorted) key vals⟩
    | put b last => exact acceptRec_evo lc g last vals b hw

theorem doWrites_evo (lc : Lic) : ∀ (rs : List (LItem (List Dbl))) (g : Gx), Writing g.mode → (doWrites g rs).All fun g' => EvoW lc g g'
  | [], g, _ => EvoW.refl g
  | r :: rs, g, hw => by
    rw [doWrites]
    refine Res.All.bind (doWrite_evo lc g r.key r.val hw) ?_
    rintro ⟨g1, b⟩ h1
    refine (doWrites_evo lc rs g1 (h1.2.1 ▸ hw)).mono ?_
    intro g2 h2
    exact EvoW.trans h1 h2

/-- the change from a domain mode to the corresponding data mode -/
theorem toData_evo (lc : Lic) (g : Gx) (m m' : Mode) (hm : Writing m) (hf : m' ≠ .rFilter) :
    Evo lc g (if g.mode = m then { g with mode := m' } else g) := by
  split
  · rename_i h
    refine Evo.ctrl rfl ?_ (Or.inl ⟨rfl, fun h => absurd h hf⟩)
    intro n hw hc
    exact ⟨h ▸ hm, hc⟩
  · exact Evo.refl g

theorem dataWriteRaw_evo (lc : Lic) (g : Gx) (key : List Int) (vals : List Dbl) : EvoR lc g (dataWriteRaw g key vals) := by
  unfold dataWriteRaw
  have h1 := toData_evo lc g .wDomRaw .wRaw (by decide) (by decide)
  generalize (if g.mode = Mode.wDomRaw then { g with mode := Mode.wRaw } else g) = g1 at h1
  simp only
  rcases chk_cases g1 [.wRaw] with ⟨hm, hc⟩ | ⟨hm, hc⟩
  · rw [hc]
    simp only [Bool.true_eq_false, if_false]
    refine (doWrite_evo lc g1 key vals ?_).mono fun r hr => h1.trans hr.1
    simp only [List.mem_singleton] at hm
    rw [hm]
    decide
  · rw [hc]
    exact h1.snoc (.raise g1 _ (by decide))

theorem sortAdd_evo (lc : Lic) (g : Gx) (key : List Int) (vals : List Dbl) : (sortAdd g key vals).All fun g' => EvoW lc g g' := by
  unfold sortAdd
  refine Res.All.bind' ?_
  intro s _
  split
  · trivial
  refine Res.All.bind' ?_
  intro s' _
  exact ⟨Evo.keep rfl rfl rfl, rfl, rfl⟩

theorem dataWriteMap_evo (lc : Lic) (g : Gx) (key : List Int) (vals : List Dbl) : EvoR lc g (dataWriteMap g key vals) := by
  unfold dataWriteMap
  have h1 := toData_evo lc g .wDomMap .wMap (by decide) (by decide)
  generalize (if g.mode = Mode.wDomMap then { g with mode := Mode.wMap } else g) = g1 at h1
  simp only
  rcases chk_cases g1 [.wMap] with ⟨hm, hc⟩ | ⟨hm, hc⟩
  · rw [hc]
    simp only [Bool.true_eq_false, if_false]
    split
    · trivial
    refine Res.All.bind' ?_
    intro u _
    have h2 : Evo lc g1 { g1 with bounds := (mapKey u key g1.bounds).1 } := Evo.keep rfl rfl rfl
    split
    · exact (h1.trans h2).snoc (.raise _ _ (by decide))
    · refine Res.All.bind (sortAdd_evo lc _ _ _) ?_
      intro g2 h3
      exact (h1.trans h2).trans h3.1
  · rw [hc]
    exact h1.snoc (.raise g1 _ (by decide))

theorem strPos_evo {lc : Lic} (hk : lc .elem) {u u' : Uel} {p p' : StrPos} {s : Str} (ht : trimRight s = s) (h : strPos u p s = some (u', p')) :
    UelEvo lc u u' := by
  unfold strPos at h
  split at h
  · cases h; exact UelEvo.refl u
  · simp only at h
    split at h
    · split at h
      · rename_i hg
        cases h
        exact addObject_evo u hg ht (Or.inr hk)
      · cases h
    · cases h; exact UelEvo.refl u

theorem strKey_evo (lc : Lic) (hk : lc .elem) : ∀ (ps : List StrPos) (ks : List Str) (u : Uel), (strKey u ps ks).All fun r => UelEvo lc u r.1
  | [], ks, u => by cases ks <;> exact UelEvo.refl u
  | p :: ps, [], u => UelEvo.refl u
  | p :: ps, k :: ks, u => by
    rw [strKey]
    refine Res.All.bind' ?_
    intro s hs
    cases h : strPos u p s with
    | none => exact UelEvo.refl u
    | some r =>
      obtain ⟨u1, p1⟩ := r
      simp only
      refine Res.All.bind (strKey_evo lc hk ps ks u1) ?_
      rintro ⟨u2, ps2, ok⟩ h2
      exact (strPos_evo hk (trimR_trimmed hs) h).trans h2

theorem dataWriteStr_evo (lc : Lic) (hk : lc .elem) (g : Gx) (key : List Str) (vals : List Dbl) : EvoR lc g (dataWriteStr g key vals) := by
  unfold dataWriteStr
  have h1 := toData_evo lc g .wDomStr .wStr (by decide) (by decide)
  generalize (if g.mode = Mode.wDomStr then { g with mode := Mode.wStr } else g) = g1 at h1
  simp only
  rcases chk_cases g1 [.wStr] with ⟨hm, hc⟩ | ⟨hm, hc⟩
  · rw [hc]
    simp only [Bool.true_eq_false, if_false]
    split
    · trivial
    refine Res.All.bind' ?_
    intro u hu
    refine Res.All.bind (strKey_evo lc hk _ _ u) ?_
    rintro ⟨u2, ps, ok⟩ h2
    simp only at h2 ⊢
    have h3 : Evo lc g1 { g1 with uel := some u2, lastStr := ps.map StrPos.cache, last := ps.map StrPos.last,
                                  bounds := ps.map StrPos.bnd } :=
      (Evo.uelE (need_ok hu) h2).trans (Evo.keep rfl rfl rfl)
    cases ok with
    | false => exact (h1.trans h3).snoc (.raise _ _ (by decide))
    | true =>
      simp only [Bool.true_eq_false, if_false]
      refine Res.All.bind (sortAdd_evo lc _ _ _) ?_
      intro g2 h4
      exact (h1.trans h3).trans h4.1
  · rw [hc]
    exact h1.snoc (.raise g1 _ (by decide))

theorem finishBlock_evo (lc : Lic) (z : Cz) (g : Gx) (hw : Writing g.mode) : (finishBlock z g).All fun g' => Evo lc g g' := by
  unfold finishBlock
  refine Res.All.bind' ?_
  intro s hs
  split
  · trivial
  rename_i hnw
  simp only
  refine Res.All.bind (modCur_evo lc (f := fun s => { s with dataCount := g.dataCount, errors := g.errCnt }) ?_) ?_
  · intro n syms s h1 h2 h3
    exact .done s hw h1
  · rintro g1 ⟨h1, h2, h3, h4, h5⟩
    generalize z.wr s.compr (g.blk ++ [255]) = bs
    have e1 : Evo lc g { g1.put g.nextWrite.toNat bs with nextWrite := g.nextWrite + bs.length } := by
      rw [← h5]
      exact h1.snoc (.write g1 bs (by omega))
    refine (e1.snoc (.cnt0 _)).trans (Evo.idle ?_ (by show ¬ Writing .wInit; decide))
    unfold Gx.core Gx.put
    simp only
    rw [h5]

theorem dataWriteDone_evo (lc : Lic) (z : Cz) (g : Gx) : EvoR lc g (dataWriteDone z g) := by
  unfold dataWriteDone
  rcases chk_cases g [.wRaw, .wMap, .wStr, .wDomRaw, .wDomMap, .wDomStr] with ⟨hm, hc⟩ | ⟨hm, hc⟩
  · rw [hc]
    simp only [Bool.true_eq_false, if_false]
    have hw : Writing g.mode := by
      unfold Writing
      simp only [List.mem_cons, List.not_mem_nil, or_false] at hm ⊢
      tauto
    split
    · refine Res.All.bind (finishBlock_evo lc z g hw) ?_
      intro g1 h1
      exact h1
    · refine Res.All.bind' ?_
      intro s _
      refine Res.All.bind (initDoWrite_evo lc g _ hw) ?_
      rintro g1 ⟨h1, h2, _, _⟩
      refine Res.All.bind' ?_
      intro recs _
      refine Res.All.bind (doWrites_evo lc recs g1 (h2 ▸ hw)) ?_
      intro g2 h3
      refine Res.All.bind (finishBlock_evo lc z _ ?_) ?_
      · show Writing g2.mode
        rw [h3.2.1, h2]; exact hw
      · intro g3 h4
        have hk : Evo lc g2 { g2 with sort := none, readPtr := if recs = [] then none else some [] } := Evo.keep rfl rfl rfl
        exact ((h1.trans h3.1).trans hk).trans h4
  · rw [hc]
    exact Evo.raise g (by decide)

/-! ### aliases, texts, domains, comments -/

theorem addAliasTo_evo (lc : Lic) (g : Gx) (syms : List Sym) (acros : List Acr) (n : Int) (name : Str) (hsy : g.names = some syms)
    (hac : g.acros = some acros) : EvoR lc g (addAliasTo g syms acros n name) := by
  unfold addAliasTo
  split
  · rcases isGoodNewSymbol_cases g syms acros name with ⟨h, hf, ha, hgood⟩ | ⟨n, hn, h⟩
    · rw [h]
      simp only [Bool.true_eq_false, if_false]
      refine Evo.of_prim (.addSym g syms acros _ g.cur g.mode hsy hac ?_ (Or.inl ⟨rfl, rfl⟩) (Or.inl rfl))
      exact
        { fresh := hf, notAcro := ha, good := hgood, typ := by simp [dtAlias]
          plain := fun h => absurd rfl h
          zero := ⟨rfl, rfl, rfl, rfl, rfl, rfl, rfl⟩
          ali := fun _ => Or.inl ⟨rfl, rfl, rfl⟩ }
    · rw [h]
      simp only [if_true]
      exact Evo.raise g hn
  · rename_i hni
    refine Res.All.bind' ?_
    intro s hs
    obtain ⟨hs1, hs2, hs3⟩ := at1_ok hs
    split
    · exact Evo.raise g (by decide)
    rename_i hst
    rcases isGoodNewSymbol_cases g syms acros name with ⟨h, hf, ha, hgood⟩ | ⟨n, hn, h⟩
    · rw [h]
      simp only [Bool.true_eq_false, if_false]
      split
      · trivial
      refine Evo.of_prim (.addSym g syms acros _ g.cur g.mode hsy hac ?_ (Or.inl ⟨rfl, rfl⟩) (Or.inl rfl))
      exact
        { fresh := hf, notAcro := ha, good := hgood, typ := by simp [dtAlias]
          plain := fun h => absurd rfl h
          zero := ⟨rfl, rfl, rfl, rfl, rfl, rfl, rfl⟩
          ali := fun _ => Or.inr ⟨(n - 1).toNat, s, by simp only; omega, hs3, not_not.mp hst, rfl, rfl, by omega⟩ }
    · rw [h]
      simp only [if_true]
      exact Evo.raise g hn

theorem addAlias_evo (lc : Lic) (g : Gx) (id1 id2 : Str) : EvoR lc g (addAlias g id1 id2) := by
  unfold addAlias
  rcases chk_cases g anyWrite with ⟨hm, hc⟩ | ⟨hm, hc⟩
  · rw [hc]
    simp only [Bool.true_eq_false, if_false]
    refine Res.All.bind' ?_
    intro syms hsy
    split
    · exact Evo.raise g (by decide)
    refine Res.All.bind' ?_
    intro acros hac
    split
    · exact addAliasTo_evo lc g syms acros _ _ (need_ok hsy) (need_ok hac)
    · exact addAliasTo_evo lc g syms acros _ _ (need_ok hsy) (need_ok hac)
  · rw [hc]
    exact Evo.raise g (by decide)

theorem addSetText_evo (lc : Lic) (hk : lc .text) (g : Gx) (txt : Str) : Evo lc g (addSetText g txt).1 := by
  unfold addSetText
  split
  · exact Evo.refl g
  · rename_i l hl
    simp only
    split
    · exact Evo.refl g
    · rename_i hn
      refine Evo.of_prim (.text g l _ hl hn ⟨zfree_good _, ?_, Props.C34_legal _⟩ hk)
      rw [makeGood_length, List.length_take]
      omega

theorem setTextNodeNr_evo (lc : Lic) (hk : lc .node) (g : Gx) (nr node : Int) : Evo lc g (setTextNodeNr g nr node).1 := by
  unfold setTextNodeNr
  split
  · exact Evo.refl g
  · rename_i l hl
    split
    · rename_i h
      exact Evo.of_prim (.node g l nr.toNat node hl h.2.2 hk)
    · exact Evo.refl g

/-- nothing but raised errors and WrBitMaps changes -/
structure DomStepOk (lc : Lic) (g g' : Gx) : Prop where
  evo : Evo lc g g'
  mode : g'.mode = g.mode
  cur : g'.cur = g.cur
  names : g'.names = g.names
  domStrs : g'.domStrs = g.domStrs

theorem DomStepOk.trans {a b c : Gx} (h1 : DomStepOk lc a b) (h2 : DomStepOk lc b c) : DomStepOk lc a c :=
  ⟨h1.evo.trans h2.evo, h2.mode.trans h1.mode, h2.cur.trans h1.cur, h2.names.trans h1.names, h2.domStrs.trans h1.domStrs⟩

theorem DomStepOk.raise (g : Gx) {n : Int} (h : n ≠ 0) : DomStepOk lc g (g.raise n) := ⟨Evo.raise g h, rfl, rfl, rfl, rfl⟩
theorem DomStepOk.refl (g : Gx) : DomStepOk lc g g := ⟨Evo.refl g, rfl, rfl, rfl, rfl⟩

theorem symIndex_le (syms : List Sym) (s : Str) : symIndex syms s ≤ syms.length := by
  unfold symIndex
  rcases indexOf1_cases false s (syms.map Sym.name) with ⟨_, h'⟩ | ⟨k, hk, h'⟩
  · rw [h']; omega
  · have := (lookup_lt hk)
    rw [List.length_map] at this
    rw [h']
    omega

theorem domLoop_evo (lc : Lic) (syms : List Sym) (cur : Nat) (dim : Int) : ∀ (ss : List Str) (g : Gx) (d : Nat),
    (domLoop syms cur dim g d ss).All fun r => DomStepOk lc g r.1 ∧ r.2.1.length ≤ ss.length ∧
      (∀ x ∈ r.2.1, 0 ≤ x ∧ x ≤ (syms.length : Int))
  | [], g, d => ⟨DomStepOk.refl g, by simp, by simp⟩
  | s :: ss, g, d => by
    rw [domLoop]
    simp only
    have hle : (if s = star then 0 else symIndex syms s) ≤ syms.length := by
      split
      · omega
      · exact symIndex_le syms s
    generalize (if s = star then 0 else symIndex syms s) = n at hle ⊢
    have hcons : ∀ (x : Int) (l : List Int), 0 ≤ x ∧ x ≤ syms.length → (∀ y ∈ l, 0 ≤ y ∧ y ≤ (syms.length : Int)) →
        ∀ y ∈ x :: l, 0 ≤ y ∧ y ≤ (syms.length : Int) := by
      intro x l hx hl y hy
      rcases List.mem_cons.mp hy with rfl | h
      · exact hx
      · exact hl y h
    have hg1 : DomStepOk lc g (if (decide (s ≠ star) && decide (n ≤ 0)) = true then g.raise Err.unknownDomain else g) := by
      split
      · exact DomStepOk.raise g (by decide)
      · exact DomStepOk.refl g
    generalize (if (decide (s ≠ star) && decide (n ≤ 0)) = true then g.raise Err.unknownDomain else g) = g1 at hg1 ⊢
    split
    · refine Res.All.bind (domLoop_evo lc syms cur dim ss g1 (d + 1)) ?_
      rintro ⟨g2, l, ok, st⟩ ⟨h1, h2, h3⟩
      exact ⟨hg1.trans h1, by simpa using h2, hcons 0 l (by omega) h3⟩
    · rename_i hx
      refine Res.All.bind' ?_
      intro o ho
      have hn0 : 1 ≤ n := by
        unfold domFollow at ho
        rw [Res.bind_eq_ok] at ho
        obtain ⟨a, ha, _⟩ := ho
        exact (at1_ok ha).1
      cases o with
      | noData => exact ⟨hg1.trans (DomStepOk.raise g1 (by decide)), by simp, by simp⟩
      | notSet =>
        refine Res.All.bind (domLoop_evo lc syms cur dim ss _ (d + 1)) ?_
        rintro ⟨g2, l, ok, st⟩ ⟨h1, h2, h3⟩
        exact ⟨(hg1.trans (DomStepOk.raise g1 (by decide))).trans h1, by simpa using h2, hcons 0 l (by omega) h3⟩
      | «universe» =>
        refine Res.All.bind (domLoop_evo lc syms cur dim ss _ (d + 1)) ?_
        rintro ⟨g2, l, ok, st⟩ ⟨h1, h2, h3⟩
        exact ⟨hg1.trans h1, by simpa using h2, hcons n l (by omega) h3⟩
      | set t =>
        simp only
        refine Res.All.bind' ?_
        intro ts hts
        refine Res.All.bind (domLoop_evo lc syms cur dim ss _ (d + 1)) ?_
        rintro ⟨g2, l, ok, st⟩ ⟨h1, h2, h3⟩
        refine ⟨(hg1.trans ?_).trans h1, by simpa using h2, hcons n l (by omega) h3⟩
        split
        · exact ⟨Evo.keep rfl rfl rfl, rfl, rfl, rfl, rfl⟩
        · exact DomStepOk.refl g1

theorem symbolSetDomain_evo (lc : Lic) (hk : lc .dom) (g : Gx) (ids : List Str) : EvoR lc g (symbolSetDomain g ids) := by
  unfold symbolSetDomain
  rcases chk_cases g [.wDomRaw, .wDomMap, .wDomStr] with ⟨hm, hc⟩ | ⟨hm, hc⟩
  · rw [hc]
    have hw : Writing g.mode := by
      unfold Writing
      simp only [List.mem_cons, List.not_mem_nil, or_false] at hm ⊢
      tauto
    simp only [Bool.true_eq_false, if_false]
    split
    · exact Evo.refl g
    · trivial
    · rename_i n hn
      refine Res.All.bind' ?_
      intro syms hsy
      refine Res.All.bind' ?_
      intro s hs
      obtain ⟨n', syms', c1, c2, c3⟩ := curSym_ok hs
      rw [need_ok hsy] at c2
      cases c2
      split
      · trivial
      rename_i hns
      rw [not_or, not_not] at hns
      refine Res.All.bind (domLoop_evo lc syms n s.dim ids g 0) ?_
      rintro ⟨g1, l, ok, st⟩ ⟨h1, h2, h3⟩
      simp only at h1 h2 h3 ⊢
      refine Res.All.bind (modCur_evo lc (g := g1)
        (f := fun s => { s with domSyms := some (l ++ List.replicate (s.dim.toNat - l.length) 0) }) ?_) ?_
      · intro k syms2 t d1 d2 d3
        rw [h1.cur, c1] at d1
        cases d1
        rw [h1.names, need_ok hsy] at d2
        cases d2
        rw [c3] at d3
        cases d3
        refine .dom s _ (h1.mode ▸ hw) (h1.cur ▸ c1) ?_ ?_ ?_ hk
        · simpa using hns.1
        · rw [List.length_append, List.length_replicate]; omega
        · intro x hx
          rcases List.mem_append.mp hx with hx | hx
          · exact h3 x hx
          · rw [List.eq_of_mem_replicate hx]; omega
      · rintro g2 ⟨e1, e2, e3, _, _⟩
        split
        · exact h1.evo.trans e1
        · refine (h1.evo.trans e1).trans (Evo.ctrl rfl ?_ (Or.inl ⟨rfl, fun h => ?_⟩))
          swap
          · revert h
            show g2.mode.dataOf = .rFilter → g2.mode = .rFilter
            generalize g2.mode = mm
            cases mm <;> first | exact id | exact fun h => nomatch h
          intro m hw' hc'
          refine ⟨?_, hc'⟩
          rw [e2, h1.mode]
          exact hw
  · rw [hc]
    exact Evo.raise g (by decide)

theorem relaxOne_evo (lc : Lic) (hk : lc .relax) (g : Gx) (l : List Str) (s : Str) (h : g.domStrs = some l) :
    Evo lc g { g with domStrs := some (relaxOne l s).1 } ∧ l.length ≤ (relaxOne l s).1.length ∧
    0 ≤ (relaxOne l s).2 ∧ (relaxOne l s).2 ≤ (relaxOne l s).1.length := by
  have hid : Evo lc g { g with domStrs := some l } := by rw [← h]; exact Evo.refl g
  unfold relaxOne
  split
  · exact ⟨hid, by simp, by simp, by simp⟩
  · rename_i hx
    split
    · rename_i n hn
      have := lookup_lt hn
      exact ⟨hid, le_refl _, by simp only; omega, by simp only; omega⟩
    · rename_i hn
      rw [not_or, not_or] at hx
      exact ⟨Evo.of_prim (.domStr g l s h hn (by simpa using hx.2.2) hk), by simp, by simp only; omega, by simp⟩

theorem relaxAll_evo (lc : Lic) (hk : lc .relax) : ∀ (ss : List Str) (g : Gx) (l : List Str), g.domStrs = some l →
    Evo lc g { g with domStrs := some (relaxAll l ss).1 } ∧ l.length ≤ (relaxAll l ss).1.length ∧
    (relaxAll l ss).2.length = ss.length ∧
    ∀ x ∈ (relaxAll l ss).2, 0 ≤ x ∧ x ≤ (relaxAll l ss).1.length
  | [], g, l, h => ⟨by rw [relaxAll, ← h]; exact Evo.refl g, le_refl _, rfl, by simp [relaxAll]⟩
  | s :: ss, g, l, h => by
    rw [relaxAll]
    obtain ⟨h1, h2, h3, h4⟩ := relaxOne_evo lc hk g l s h
    obtain ⟨h5, h6, h7, h8⟩ := relaxAll_evo lc hk ss { g with domStrs := some (relaxOne l s).1 } _ rfl
    refine ⟨h1.trans h5, le_trans h2 h6, by simp [h7], ?_⟩
    intro x hx
    rcases List.mem_cons.mp hx with rfl | hx
    · exact ⟨h3, by simp only; omega⟩
    · exact h8 x hx

theorem symbolSetDomainX_evo (lc : Lic) (hk : lc .relax) (g : Gx) (nr : Int) (ids : List Str) : EvoR lc g (symbolSetDomainX g nr ids) := by
  unfold symbolSetDomainX
  refine Res.All.bind' ?_
  intro syms hsy
  split
  · exact Evo.raise g (by decide)
  · refine Res.All.bind' ?_
    intro s hs
    obtain ⟨hs1, hs2, hs3⟩ := at1_ok hs
    split
    · split
      · trivial
      rename_i hl
      refine Res.All.bind' ?_
      intro l hd
      obtain ⟨h1, h2, h3, h4⟩ := relaxAll_evo lc hk ids g l (need_ok hd)
      simp only
      have e : nr.toNat - 1 = (nr - 1).toNat := by omega
      rw [e, modify_eq_set_of hs3]
      refine h1.snoc (.modSym { g with domStrs := some (relaxAll l ids).1 } syms _ s _ (need_ok hsy) hs3 (.relax s _ ?_ ?_ hk))
      · rw [h3]; exact not_not.mp hl
      · exact h4
    · exact Evo.refl g

theorem symbolAddComment_evo (lc : Lic) (hk : lc .comment) (g : Gx) (nr : Int) (txt : Str) (hz : ZFree txt) : EvoR lc g (symbolAddComment g nr txt) := by
  unfold symbolAddComment
  have hc : ∀ t, (if txt.length ≤ 255 then some txt else none) = some t → ZFree t ∧ t.length ≤ 255 := by
    intro t h
    split at h
    · cases h; exact ⟨hz, by assumption⟩
    · cases h
  rcases chk_cases g anyWrite with ⟨hm, hc'⟩ | ⟨hm, hc'⟩
  · rw [hc']
    simp only [Bool.true_eq_false, if_false]
    split
    · split
      · exact Evo.raise g (by decide)
      · refine Res.All.bind (modCur_evo lc ?_) ?_
        · intro n syms s h1 h2 h3
          exact .comment s _ hc hk
        · intro g2 h2
          exact h2.1
    · rename_i hnr
      split
      · rename_i l hl
        split
        · have hs : l[nr.toNat - 1]? = some (l[nr.toNat - 1]'(by omega)) := List.getElem?_eq_getElem (by omega)
          show Evo lc g _
          rw [modify_eq_set_of hs]
          exact Evo.of_prim (.modSym g l _ _ _ hl hs (.comment _ _ hc hk))
        · exact Evo.raise g (by decide)
      · exact Evo.raise g (by decide)
  · rw [hc']
    exact Evo.raise g (by decide)

/-! ### element registration -/

theorem uelRegisterRawStart_evo (lc : Lic) (g : Gx) : Evo lc g (uelRegisterRawStart g).1 := by
  unfold uelRegisterRawStart
  rcases chk_cases g [.wInit] with ⟨hm, hc⟩ | ⟨hm, hc⟩
  · rw [hc]
    exact (Evo.of_prim (.aft g .wInit (by decide))).trans (Evo.idle rfl (by show ¬ Writing .rawElem; decide))
  · rw [hc]
    exact Evo.raise g (by decide)

theorem uelRegisterStart_evo (lc : Lic) (g : Gx) (m : Mode) (hm' : ¬ Writing m) (hf : m ≠ .rFilter) : Evo lc g (uelRegisterStart g m).1 := by
  unfold uelRegisterStart
  rcases chk_cases g [.rInit, .wInit] with ⟨hm, hc⟩ | ⟨hm, hc⟩
  · rw [hc]
    refine (Evo.of_prim (.aft g (if g.mode = .wInit then .wInit else .rInit) ?_)).trans (Evo.idle rfl hm' (Or.inl ⟨rfl, fun h => absurd h hf⟩))
    split <;> decide
  · rw [hc]
    exact Evo.raise g (by decide)

theorem uelRegisterDone_evo (lc : Lic) (g : Gx) (ha : ¬ Writing g.modeAft ∧ g.modeAft ≠ .rFilter) : Evo lc g (uelRegisterDone g).1 := by
  unfold uelRegisterDone
  rcases chk_cases g [.rawElem, .mapElem, .strElem] with ⟨hm, hc⟩ | ⟨hm, hc⟩
  · rw [hc]
    exact Evo.idle rfl ha.1 (Or.inl ⟨rfl, fun h => absurd h ha.2⟩)
  · rw [hc]
    exact Evo.raise g (by decide)

theorem uelRegisterRaw_evo (lc : Lic) (hk : lc .elem) (g : Gx) (s : Str) : EvoR lc g (uelRegisterRaw g s) := by
  unfold uelRegisterRaw
  rcases chk_cases g [.rawElem] with ⟨hm, hc⟩ | ⟨hm, hc⟩
  · rw [hc]
    simp only [Bool.true_eq_false, if_false]
    refine Res.All.bind' ?_
    intro t ht
    split
    · exact Evo.raise g (by decide)
    rename_i hg
    refine Res.All.bind' ?_
    intro u hu
    exact Evo.uelE (need_ok hu) (addObject_evo u (by simpa using hg) (trimR_trimmed ht) (Or.inr hk))
  · rw [hc]
    exact Evo.raise g (by decide)

theorem uelRegisterStr_evo (lc : Lic) (g : Gx) (s : Str) : EvoR lc g (uelRegisterStr g s) := by
  unfold uelRegisterStr
  rcases chk_cases g [.strElem] with ⟨hm, hc⟩ | ⟨hm, hc⟩
  · rw [hc]
    simp only [Bool.true_eq_false, if_false]
    refine Res.All.bind' ?_
    intro t ht
    split
    · exact Evo.raise g (by decide)
    rename_i hg
    refine Res.All.bind' ?_
    intro u hu
    refine Res.All.bind (addUsrNew_evo (lc := lc) u (by simpa using hg) (trimR_trimmed ht)) ?_
    rintro ⟨u', n⟩ h
    exact Evo.uelE (need_ok hu) h
  · rw [hc]
    exact Evo.raise g (by decide)

end Gdx
