import Verif.Proofs.EvoWrite

/-! The reading calls are chains of elementary steps. -/

namespace Gdx
open Gdx.Props

/-! ### DoRead -/

theorem remapIndex_evo (lc : Lic) (g : Gx) (org : Int) (ho : I32 org) : (remapIndex g org).All fun r => EvoW lc g r.1 := by
  unfold remapIndex
  refine Res.All.bind' ?_
  intro l hl
  have hl := need_ok hl
  split
  · rename_i hf
    split
    · exact EvoW.refl g
    split
    · trivial
    exact ⟨Evo.of_prim (.remap g l _ hl (by omega) (by omega) (.new l org (acrFind_none hf) ho)), rfl, rfl⟩
  · refine Res.All.bind' ?_
    intro a ha
    have ha := at0_ok ha
    split
    · exact EvoW.refl g
    split
    · exact EvoW.refl g
    split
    · trivial
    have hn := ha.2.2
    simp only [Int.toNat_natCast] at hn
    rw [modify_eq_set_of hn]
    exact ⟨Evo.of_prim (.remap g l _ hl (by omega) (by omega) (.old l _ a hn (by omega))), rfl, rfl⟩

theorem acronymRemap_evo (lc : Lic) (g : Gx) (d : Dbl) (hd : geAcr d = true) : (acronymRemap g d).All fun r => EvoW lc g r.1 := by
  unfold acronymRemap
  split
  · exact EvoW.refl g
  split
  · exact EvoW.refl g
  refine Res.All.bind' ?_
  intro org horg
  have := acrDiv_bound hd horg
  refine Res.All.bind (remapIndex_evo lc g org (by unfold I32; omega)) ?_
  intro r hr
  exact hr

theorem readVal_evo (lc : Lic) (g : Gx) (v : SVal) : (readVal g v).All fun r => EvoW lc g r.1 := by
  cases v with
  | code c => exact EvoW.refl g
  | num d =>
    simp only [readVal]
    split
    · rename_i h; exact acronymRemap_evo lc g d h
    · exact EvoW.refl g

theorem readVals_evo (lc : Lic) : ∀ (vs : List SVal) (g : Gx), (readVals g vs).All fun r => EvoW lc g r.1
  | [], g => EvoW.refl g
  | v :: vs, g => by
    rw [readVals]
    refine Res.All.bind (readVal_evo lc g v) ?_
    rintro ⟨g1, x⟩ h1
    refine Res.All.bind (readVals_evo lc vs g1) ?_
    rintro ⟨g2, xs⟩ h2
    exact EvoW.trans h1 h2

theorem EvoW.keep {g g' : Gx} (h : g'.core = g.core) (hm : g'.mode = g.mode) (hc : g'.cur = g.cur) (hf : g'.filters = g.filters ∨ lc .filt := by exact Or.inl rfl) : EvoW lc g g' :=
  ⟨Evo.keep h hm hc hf, hm, hc⟩

theorem EvoW.raise (g : Gx) {n : Int} (h : n ≠ 0) : EvoW lc g (g.raise n) := ⟨Evo.raise g h, rfl, rfl⟩

theorem EvoW.uel {g : Gx} {u u' : Uel} (h : g.uel = some u) (hu : UelEvo lc u u') : EvoW lc g { g with uel := some u' } :=
  ⟨Evo.uelE h hu, rfl, rfl⟩

theorem doRead_evo (lc : Lic) (g : Gx) : (doRead g).All fun r => EvoW lc g r.1 := by
  unfold doRead
  split
  · split
    · trivial
    split
    · exact EvoW.keep rfl rfl rfl
    · exact EvoW.keep rfl rfl rfl
  · refine Res.All.bind' ?_
    intro s _
    split
    · exact EvoW.keep rfl rfl rfl
    · refine Res.All.bind' ?_
      rintro ⟨o, r⟩ _
      simp only
      cases o with
      | none => exact EvoW.keep rfl rfl rfl
      | some x =>
        obtain ⟨fd, rec⟩ := x
        simp only
        refine Res.All.bind (readVals_evo lc rec.vals { g with rest := r }) ?_
        rintro ⟨g1, vals⟩ h1
        refine Res.All.bind' ?_
        intro vals' _
        have h0 : EvoW lc g { g with rest := r } := EvoW.keep rfl rfl rfl
        exact (h0.trans h1).trans (EvoW.keep rfl rfl rfl)

/-! ### filters -/

theorem mapStat_evo {lc : Lic} (hk : lc .stat) (u : Uel) : UelEvo lc u u.mapStat.1 := by
  unfold Uel.mapStat
  split
  · exact UelEvo.refl u
  · exact UelEvo.of_step (.stat u _ (Or.inr ⟨rfl, hk⟩))

theorem filterExists_evo (lc : Lic) (g : Gx) (nr : Int) : EvoR lc g (filterExists g nr) := by
  unfold filterExists
  rcases chk_cases g [.rInit, .rRaw, .rMap, .rMapR, .rStr] with ⟨hm, hc⟩ | ⟨hm, hc⟩
  · rw [hc]
    simp only [Bool.true_eq_false, if_false]
    refine Res.All.bind' ?_
    intro l _
    exact Evo.refl g
  · rw [hc]
    exact Evo.raise g (by decide)

theorem filterRegisterStart_evo (lc : Lic) (hk : lc .filt) (g : Gx) (nr : Int) : EvoR lc g (filterRegisterStart g nr) := by
  unfold filterRegisterStart
  rcases chk_cases g [.rInit] with ⟨hm, hc⟩ | ⟨hm, hc⟩
  · rw [hc]
    simp only [Bool.true_eq_false, if_false]
    split
    · exact Evo.raise g (by decide)
    refine Res.All.bind' ?_
    intro u _
    refine Res.All.bind' ?_
    intro l _
    exact Evo.idle rfl (by show ¬ Writing .rFilter; decide) (Or.inr hk)
  · rw [hc]
    exact Evo.raise g (by decide)

theorem filterRegister_evo (lc : Lic) (hk : lc .filt) (g : Gx) (um : Int) : EvoR lc g (filterRegister g um) := by
  unfold filterRegister
  rcases chk_cases g [.rFilter] with ⟨hm, hc⟩ | ⟨hm, hc⟩
  · rw [hc]
    simp only [Bool.true_eq_false, if_false]
    refine Res.All.bind' ?_
    intro l _
    refine Res.All.bind' ?_
    intro f _
    refine Res.All.bind' ?_
    intro u _
    split
    · exact Evo.raise g (by decide)
    split
    · refine Res.All.bind' ?_
      intro m _
      exact Evo.keep rfl rfl rfl (Or.inr hk)
    · exact Evo.raise g (by decide)
  · rw [hc]
    exact Evo.raise g (by decide)

theorem filterRegisterDone_evo (lc : Lic) (hk : lc .filt) (hs : lc .stat) (g : Gx) : EvoR lc g (filterRegisterDone g) := by
  unfold filterRegisterDone
  rcases chk_cases g [.rFilter] with ⟨hm, hc⟩ | ⟨hm, hc⟩
  · rw [hc]
    simp only [Bool.true_eq_false, if_false]
    refine Res.All.bind' ?_
    intro l _
    refine Res.All.bind' ?_
    intro f _
    have hi : ¬ Writing Mode.rInit := by decide
    split
    · exact Evo.idle rfl hi (Or.inr hk)
    · rename_i u hu
      exact (Evo.uelE hu (mapStat_evo hs u)).trans (Evo.idle rfl hi (Or.inr hk))
  · rw [hc]
    exact Evo.raise g (by decide)

/-! ### PrepareSymbolRead -/

theorem confirmNew_evo {lc : Lic} : ∀ (n : Nat) (hi : Int) (u : Uel), (confirmNew n hi u).All fun u' => UelEvo lc u u'
  | 0, _, u => UelEvo.refl u
  | n + 1, hi, u => by
    rw [confirmNew]
    split
    · trivial
    rename_i h1
    simp only
    refine Res.All.bind' ?_
    intro d hd
    unfold Uel.userMap at hd
    rw [Res.bind_eq_ok] at hd
    obtain ⟨⟨s, d'⟩, h2, h3⟩ := hd
    cases h3
    simp only
    split
    · rename_i h4
      exact (confirmNew_evo (lc := lc) n (hi - 1) _).mono fun u' h =>
        (UelEvo.of_step (.confirm u hi s d' (by omega) h2 h4)).trans h
    · trivial

/-- the modes of reading -/
def ReadMode (m : Mode) : Prop := m ∈ [Mode.rInit, .rRaw, .rMap, .rMapR, .rStr, .rFilter, .rSlice]

instance (m : Mode) : Decidable (ReadMode m) := by unfold ReadMode; infer_instance

theorem ReadMode.nw {m : Mode} (h : ReadMode m) : ¬ Writing m := by
  revert h
  cases m <;> decide

/-- the call ends in a reading mode -/
def EvoI (lc : Lic) (g g' : Gx) : Prop := Evo lc g g' ∧ ReadMode g'.mode

theorem EvoI.trans {a b c : Gx} (h1 : EvoI lc a b) (h2 : EvoI lc b c) : EvoI lc a c := ⟨h1.1.trans h2.1, h2.2⟩
theorem EvoI.idle {g g' : Gx} (h : g'.core = g.core) (hm : ReadMode g'.mode)
    (hf : (g'.filters = g.filters ∧ (g'.mode = .rFilter → g.mode = .rFilter)) ∨ lc .filt := by first | exact Or.inl ⟨rfl, id⟩ | exact Or.inl ⟨rfl, fun h => nomatch h⟩) : EvoI lc g g' := ⟨Evo.idle h hm.nw hf, hm⟩
theorem EvoI.ofW {g g' : Gx} (h : EvoW lc g g') (hm : ReadMode g.mode) : EvoI lc g g' := ⟨h.1, h.2.1 ▸ hm⟩
theorem EvoI.raise (g : Gx) {n : Int} (h : n ≠ 0) (hm : ReadMode g.mode) : EvoI lc g (g.raise n) :=
  ofW (EvoW.raise g h) hm

theorem dataReadDone_evo (lc : Lic) (g : Gx) : (dataReadDone g).All fun r => EvoI lc g r.1 := by
  unfold dataReadDone
  have h0 : Evo lc g { g with sort := none, cur := .none } := Evo.drop rfl rfl
  generalize ({ g with sort := none, cur := .none } : Gx) = g1 at h0
  have hi : ReadMode Mode.rInit := by decide
  simp only
  rcases chk_cases g1 [.rInit, .rRaw, .rMap, .rMapR, .rStr, .rSlice] with ⟨hm, hc⟩ | ⟨hm, hc⟩
  · rw [hc]
    simp only [Bool.true_eq_false, if_false]
    split
    · refine Res.All.bind' ?_
      intro u hu
      refine Res.All.bind (confirmNew_evo (lc := lc) g1.nrMapped.toNat u.usr.highest u) ?_
      intro u' hu'
      exact ⟨(h0.trans (Evo.uelE (need_ok hu) hu')).trans (Evo.idle rfl hi.nw), hi⟩
    · exact ⟨h0.trans (Evo.idle rfl hi.nw), hi⟩
  · rw [hc]
    exact ⟨(h0.snoc (.raise g1 _ (by decide))).trans (Evo.idle rfl hi.nw), hi⟩

theorem resolveNew_evo {lc : Lic} : ∀ (ks : List Int) (u : Uel), (resolveNew u ks).All fun r => UelEvo lc u r.1
  | [], u => by rw [resolveNew]; exact UelEvo.refl u
  | k :: ks, u => by
    rw [resolveNew]
    split
    · refine Res.All.bind (newUsrUel_evo (lc := lc) u (-k)) ?_
      rintro ⟨u1, v⟩ h1
      refine Res.All.bind (resolveNew_evo (lc := lc) _ u1) ?_
      rintro ⟨u2, l, n⟩ h2
      exact UelEvo.trans h1 h2
    · refine Res.All.bind (resolveNew_evo (lc := lc) ks u) ?_
      rintro ⟨u2, l, n⟩ h2
      exact h2
  termination_by l => l.length
  decreasing_by all_goals simp

theorem resolveIf_evo {lc : Lic} (b : Bool) (u : Uel) (ks : List Int) : (resolveIf b u ks).All fun r => UelEvo lc u r.1 := by
  unfold resolveIf
  split
  · exact resolveNew_evo _ _
  · exact UelEvo.refl u

theorem addErrDom_evoW (lc : Lic) (g : Gx) (k : List Int) (v : List Dbl) : EvoW lc g (addErrDom g k v) :=
  ⟨addErrDom_evo lc g k v, addErrDom_mode g k v⟩

theorem mapRecord_evo (lc : Lic) (g : Gx) (m : MapLoop) (vals : List Dbl) (stop : Option (Bool × Nat)) :
    (mapRecord g m vals stop).All fun r => EvoW lc g r.1 := by
  unfold mapRecord
  split
  · exact EvoW.raise g (by decide)
  · rename_i d
    simp only
    have : EvoW lc g (if ((g.last.drop (d + 2)).any (· < 0)) = true then g.raise Err.badElementIndex else g) := by
      split
      · exact EvoW.raise g (by decide)
      · exact EvoW.refl g
    exact this.trans (addErrDom_evoW lc _ _ _)
  · refine Res.All.bind' ?_
    intro u hu
    refine Res.All.bind (resolveIf_evo (lc := lc) _ _ _) ?_
    rintro ⟨u', els, n⟩ h1
    refine Res.All.bind (sortAdd_evo lc _ els vals) ?_
    intro g2 h2
    have h3 : EvoW lc g { g with uel := some u', nrMapped := g.nrMapped + n } :=
      (EvoW.uel (need_ok hu) h1).trans (EvoW.keep rfl rfl rfl)
    exact h3.trans h2

theorem mapLoop_evo (lc : Lic) : ∀ (fuel : Nat) (g : Gx) (m : MapLoop), (mapLoop fuel g m).All fun r => EvoW lc g r.1
  | 0, _, _ => trivial
  | fuel + 1, g, m => by
    rw [mapLoop]
    refine Res.All.bind (doRead_evo lc g) ?_
    rintro ⟨g1, o⟩ h1
    cases o with
    | none => exact h1
    | some x =>
      obtain ⟨fd, vals⟩ := x
      simp only
      generalize (if m.fi < fd then m.fi else fd) = fd'
      split
      · trivial
      refine Res.All.bind' ?_
      intro u _
      refine Res.All.bind' ?_
      rintro ⟨l, stop, new⟩ _
      refine Res.All.bind (mapRecord_evo lc g1 _ vals stop) ?_
      rintro ⟨g2, m2, go⟩ h2
      simp only
      split
      · exact (mapLoop_evo lc fuel g2 m2).mono fun r h => (EvoW.trans h1 h2).trans h
      · exact EvoW.trans h1 h2

theorem readReady_evo (lc : Lic) (g : Gx) (m : Mode) (n : Int) (hm : ReadMode m) (hf : m ≠ .rFilter) : EvoI lc g (readReady g m n).1 := by
  unfold readReady
  exact EvoI.idle rfl hm (Or.inl ⟨rfl, fun h => absurd h hf⟩)

theorem prepareMapped_evo (lc : Lic) (hk : lc .stat) (g : Gx) (nr : Int) (hg : ReadMode g.mode) :
    (prepareMapped g nr).All fun r => EvoI lc g r.1 := by
  unfold prepareMapped
  refine Res.All.bind' ?_
  intro u hu
  simp only
  have h1 : UelEvo lc u (if (g.doms.any fun x => decide (x ≠ DAct.unmapped)) = true then u.mapStat else (u, MapStat.sortfull)).1 := by
    split
    · exact mapStat_evo hk u
    · exact UelEvo.refl u
  generalize (if (g.doms.any fun x => decide (x ≠ DAct.unmapped)) = true then u.mapStat else (u, MapStat.sortfull)) = us at h1
  obtain ⟨u', st⟩ := us
  simp only at h1 ⊢
  have h2 : EvoI lc g { g with uel := some u' } := EvoI.ofW (EvoW.uel (need_ok hu) h1) hg
  split
  · exact h2.trans (readReady_evo lc _ _ _ (by decide) (by decide))
  · refine Res.All.bind (mapLoop_evo lc _ _ _) ?_
    rintro ⟨g2, m⟩ h3
    refine Res.All.bind' ?_
    intro s _
    refine Res.All.bind' ?_
    intro recs _
    refine Res.All.bind' ?_
    intro s' _
    have h2' : EvoI lc g { g with uel := some u', sort := some LData.empty } :=
      h2.trans (EvoI.idle (g' := { g with uel := some u', sort := some LData.empty }) rfl hg)
    have h4 : EvoI lc g g2 := h2'.trans (EvoI.ofW h3 hg)
    have hg2 := h4.2
    split
    · have h5 : EvoI lc g2 { g2 with sort := some s', readPtr := if recs = [] then none else some recs } := EvoI.idle rfl hg2
      exact (h4.trans h5).trans (readReady_evo lc _ .rMap _ (by decide) (by decide))
    · have hi : ReadMode Mode.rInit := by decide
      have h5 : EvoI lc g2 { g2 with sort := some s', readPtr := if recs = [] then none else some recs } := EvoI.idle rfl hg2
      exact ((h4.trans h5).trans (EvoI.raise _ (n := errOutOfMemory) (by decide) hg2)).trans (EvoI.idle rfl hi)

theorem prepareData_evo (lc : Lic) (g : Gx) (l : List UInt8) (nr : Int) (m : Mode) (hk : (m = .rMap → lc .stat) ∧ m ≠ .rFilter) (hg : ReadMode g.mode) (hm : ReadMode m) :
    (prepareData g l nr m).All fun r => EvoI lc g r.1 := by
  unfold prepareData
  generalize rdStrE l = ml
  obtain ⟨mk, l1⟩ := ml
  simp only
  split
  · exact EvoI.raise g (by decide) hg
  refine Res.All.bind' ?_
  rintro ⟨d, l2⟩ _
  simp only
  split
  · exact EvoI.raise g (by decide) hg
  refine Res.All.bind' ?_
  rintro ⟨_, l3⟩ _
  simp only
  split
  · exact EvoI.idle rfl hm (Or.inl ⟨rfl, fun h => absurd h hk.2⟩)
  refine Res.All.bind' ?_
  rintro ⟨bs, l4⟩ _
  simp only
  have h1 : EvoI lc g { g with
      scalarFrst := false, last := List.replicate g.nd indexInitial,
      prev := List.replicate g.nd (-1) ++ g.prev.drop g.nd, bounds := bs, rest := l4 } := EvoI.idle rfl hg
  split
  · rename_i hmm
    exact (prepareMapped_evo lc (hk.1 hmm) _ nr h1.2).mono fun r h => h1.trans h
  · exact h1.trans (readReady_evo lc _ _ _ hm hk.2)

theorem finishRead_evo (lc : Lic) (g : Gx) : (finishRead g).All fun g' => Evo lc g g' := by
  unfold finishRead
  split
  · refine Res.All.bind (dataReadDone_evo lc g) ?_
    intro r hr
    exact hr.1
  · exact Evo.refl g

theorem prepareStart_evo (lc : Lic) (g : Gx) : (prepareStart g).All fun r => EvoI lc g r.1 := by
  unfold prepareStart
  refine Res.All.bind (finishRead_evo lc g) ?_
  intro g1 h1
  simp only
  have h2 : Evo lc g { g1 with nrMapped := 0, errList := none, cur := .none, sort := none } := h1.trans (Evo.drop rfl rfl)
  generalize ({ g1 with nrMapped := 0, errList := none, cur := .none, sort := none } : Gx) = g2 at h2
  rcases chk_cases g2 [.rInit] with ⟨hm, hc⟩ | ⟨hm, hc⟩
  · rw [hc]
    refine ⟨h2, ?_⟩
    simp only [List.mem_singleton] at hm
    simp only
    rw [hm]
    decide
  · rw [hc]
    have hi : ReadMode Mode.rInit := by decide
    exact ⟨(h2.snoc (.raise g2 _ (by decide))).trans (Evo.idle rfl hi.nw), hi⟩

theorem prepareRead_evo (lc : Lic) (z : Cz) (g : Gx) (nr : Int) (acts : List Int) (m : Mode) (hk : (m = .rMap → lc .stat) ∧ m ≠ .rFilter) (hm : ReadMode m) :
    (prepareRead z g nr acts m).All fun r => EvoI lc g r.1 := by
  unfold prepareRead
  refine Res.All.bind (prepareStart_evo lc g) ?_
  rintro ⟨g1, ok⟩ h1
  simp only at h1 ⊢
  split
  · exact h1
  have h2 : EvoI lc g { g1 with rdUniverse := decide (nr = 0) } := h1.trans (EvoI.idle rfl h1.2)
  refine Res.All.bind' ?_
  intro filters _
  refine Res.All.bind' ?_
  intro syms _
  split
  · exact h2.trans (EvoI.raise _ (by decide) h2.2)
  refine Res.All.bind' ?_
  intro o _
  cases o with
  | none =>
    simp only
    split
    · trivial
    have h3 : EvoI lc g { g1 with
        rdUniverse := true, curDim := 1, dataSize := 1, universeNr := 0, cur := .none
        deltaRead := if g1.verRead ≤ 6 then 10 else 1 } := h2.trans (EvoI.idle rfl h2.2)
    split
    · exact h3.trans (EvoI.raise _ (by decide) h3.2)
    · rename_i das _
      have h4 := h3.trans (EvoI.idle (g' := { g1 with
        rdUniverse := true, curDim := 1, dataSize := 1, universeNr := 0, cur := .none
        deltaRead := if g1.verRead ≤ 6 then 10 else 1, doms := das, scalarFrst := false }) rfl h2.2)
      split
      · rename_i hmm
        exact (prepareMapped_evo lc (hk.1 hmm) _ _ h4.2).mono fun r h => h4.trans h
      · exact h4.trans (readReady_evo lc _ _ _ hm hk.2)
  | some n =>
    simp only
    refine Res.All.bind' ?_
    intro s _
    split
    · trivial
    split
    · trivial
    have h3 : EvoI lc g { g1 with
        rdUniverse := decide (nr = 0), cur := .sym n, curDim := s.dim, dataSize := dataTypSize s.typ
        deltaRead := if g1.verRead ≤ 6 then 10 else s.dim.toNat } := h2.trans (EvoI.idle rfl h2.2)
    split
    · exact h3.trans (EvoI.raise _ (by decide) h3.2)
    · rename_i das _
      have h4 := h3.trans (EvoI.idle (g' := { g1 with
        rdUniverse := decide (nr = 0), cur := .sym n, curDim := s.dim, dataSize := dataTypSize s.typ
        deltaRead := if g1.verRead ≤ 6 then 10 else s.dim.toNat, doms := das }) rfl h2.2)
      exact (prepareData_evo lc _ _ _ m hk h4.2 hm).mono fun r h => h4.trans h

/-! ### record readers -/

theorem readStart_evo (lc : Lic) (z : Cz) (g : Gx) (nr : Int) (acts : List Int) (m : Mode) (hk : (m = .rMap → lc .stat) ∧ m ≠ .rFilter) (hm : ReadMode m) :
    (do
      let (g, n) ← prepareRead z g nr acts m
      pure (g, (decide (n ≥ 0), n)) : Res (Gx × (Bool × Int))).All fun r => EvoI lc g r.1 := by
  refine Res.All.bind (prepareRead_evo lc z g nr acts m hk hm) ?_
  intro r hr
  exact hr

theorem dataReadRawStart_evo (lc : Lic) (z : Cz) (g : Gx) (nr : Int) : EvoR lc g (dataReadRawStart z g nr) :=
  (readStart_evo lc z g nr _ .rRaw ⟨by rintro ⟨⟩, by decide⟩ (by decide)).mono fun _ h => h.1

theorem dataReadStrStart_evo (lc : Lic) (z : Cz) (g : Gx) (nr : Int) : EvoR lc g (dataReadStrStart z g nr) :=
  (readStart_evo lc z g nr _ .rStr ⟨by rintro ⟨⟩, by decide⟩ (by decide)).mono fun _ h => h.1

theorem dataReadMapStart_evo (lc : Lic) (hk : lc .stat) (z : Cz) (g : Gx) (nr : Int) : EvoR lc g (dataReadMapStart z g nr) :=
  (readStart_evo lc z g nr _ .rMap ⟨fun _ => hk, by decide⟩ (by decide)).mono fun _ h => h.1

theorem dataReadFilteredStart_evo (lc : Lic) (hk : lc .stat) (z : Cz) (g : Gx) (nr : Int) (acts : List Int) :
    EvoR lc g (dataReadFilteredStart z g nr acts) :=
  (readStart_evo lc z g nr _ .rMap ⟨fun _ => hk, by decide⟩ (by decide)).mono fun _ h => h.1

theorem dataReadRaw_evo (lc : Lic) (g : Gx) : EvoR lc g (dataReadRaw g) := by
  unfold dataReadRaw
  rcases chk_cases g [.rRaw] with ⟨hm, hc⟩ | ⟨hm, hc⟩
  · rw [hc]
    simp only [Bool.true_eq_false, if_false]
    refine Res.All.bind (doRead_evo lc g) ?_
    rintro ⟨g1, o⟩ h1
    cases o with
    | none =>
      refine Res.All.bind (dataReadDone_evo lc g1) ?_
      intro r hr
      exact h1.1.trans hr.1
    | some x => exact h1.1
  · rw [hc]
    exact Evo.raise g (by decide)

theorem dataReadStr_evo (lc : Lic) (g : Gx) : EvoR lc g (dataReadStr g) := by
  unfold dataReadStr
  rcases chk_cases g [.rStr] with ⟨hm, hc⟩ | ⟨hm, hc⟩
  · rw [hc]
    simp only [Bool.true_eq_false, if_false]
    refine Res.All.bind (doRead_evo lc g) ?_
    rintro ⟨g1, o⟩ h1
    cases o with
    | none =>
      refine Res.All.bind (dataReadDone_evo lc g1) ?_
      intro r hr
      exact h1.1.trans hr.1
    | some x =>
      refine Res.All.bind' ?_
      intro ks _
      exact h1.1
  · rw [hc]
    exact Evo.raise g (by decide)

theorem deliver_evo (lc : Lic) (g : Gx) (k : List Int) (v : List Dbl) : EvoW lc g (deliver g k v).1 := by
  unfold deliver
  exact EvoW.keep rfl rfl rfl

theorem streamMap_evo (lc : Lic) : ∀ (fuel : Nat) (g : Gx) (key : List Int) (fi : Nat) (new : Bool),
    (streamMap fuel g key fi new).All fun r => EvoW lc g r.1
  | 0, _, _, _, _ => trivial
  | fuel + 1, g, key, fi, new => by
    rw [streamMap]
    refine Res.All.bind (doRead_evo lc g) ?_
    rintro ⟨g1, o⟩ h1
    cases o with
    | none => exact h1
    | some x =>
      obtain ⟨fd, vals⟩ := x
      simp only
      refine Res.All.bind' ?_
      intro u hu
      refine Res.All.bind' ?_
      rintro ⟨l, stop, nw⟩ _
      simp only
      split
      · exact EvoW.trans h1 (EvoW.raise g1 (by decide))
      · refine Res.All.bind' ?_
        rintro ⟨bad, ok⟩ _
        simp only
        split
        · have h2 : EvoW lc g1 { g1 with last := bad } := EvoW.keep rfl rfl rfl
          exact (EvoW.trans h1 h2).trans (EvoW.raise _ (by decide))
        · have h2 : EvoW lc g1 { g1 with last := bad.map fun e => if e < 0 then -e else e } := EvoW.keep rfl rfl rfl
          exact (streamMap_evo lc fuel _ _ _ _).mono fun r h =>
            ((EvoW.trans h1 h2).trans (addErrDom_evoW lc _ _ _)).trans h
      · refine Res.All.bind (resolveIf_evo (lc := lc) _ _ _) ?_
        rintro ⟨u', k', n⟩ h2
        have h3 : EvoW lc g1 { g1 with uel := some u', nrMapped := g1.nrMapped + n } :=
          (EvoW.uel (need_ok hu) h2).trans (EvoW.keep rfl rfl rfl)
        exact (EvoW.trans h1 h3).trans (deliver_evo lc _ _ _)

theorem dataReadMap_evo (lc : Lic) (g : Gx) (k : List Int) : EvoR lc g (dataReadMap g k) := by
  unfold dataReadMap
  rcases chk_cases g [.rMap, .rMapR] with ⟨hm, hc⟩ | ⟨hm, hc⟩
  · rw [hc]
    simp only [Bool.true_eq_false, if_false]
    split
    · trivial
    split
    · refine Res.All.bind' ?_
      intro s _
      exact Evo.keep rfl rfl rfl
    split
    · split
      · exact Evo.refl g
      · split
        · trivial
        · exact Evo.refl g
      · split
        · trivial
        · rename_i r rs _ _
          have h1 : EvoW lc g { g with readPtr := some rs } := EvoW.keep rfl rfl rfl
          exact (h1.trans (deliver_evo lc _ _ _)).1
    split
    · trivial
    · exact (streamMap_evo lc _ _ _ _ _).mono fun r h => h.1
  · rw [hc]
    exact Evo.raise g (by decide)

end Gdx
