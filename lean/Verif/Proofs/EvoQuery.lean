import Verif.Proofs.EvoRead

/-! Queries, acronym calls and the readers with callbacks are chains of elementary steps; so is every call of a history
    other than opening, closing, renaming and gdxUELRegisterMap. -/

namespace Gdx
open Gdx.Props

theorem symbolGetDomain_evo (lc : Lic) (g : Gx) (n : Int) : EvoR lc g (symbolGetDomain g n) := by
  unfold symbolGetDomain
  refine Res.All.bind' ?_
  intro _ _
  split
  · exact Evo.raise g (by decide)
  · exact Evo.refl g

theorem symbolGetDomainX_evo (lc : Lic) (g : Gx) (n : Int) : EvoR lc g (symbolGetDomainX g n) := by
  unfold symbolGetDomainX
  refine Res.All.bind' ?_
  intro l _
  split
  · exact Evo.raise g (by decide)
  · split
    · refine Res.All.bind' ?_
      intro dl _
      refine Res.All.bind' ?_
      intro r _
      exact Evo.refl g
    · exact Evo.refl g
    · refine Res.All.bind' ?_
      intro r _
      exact Evo.refl g

theorem dataErrorRecordX_evo (lc : Lic) (g : Gx) (n : Int) : Evo lc g (dataErrorRecordX g n).1 := by
  unfold dataErrorRecordX
  rcases chk_cases g [.rInit, .wInit, .rMap, .rMapR, .wRaw, .wMap, .wStr] with ⟨hm, hc⟩ | ⟨hm, hc⟩
  · rw [hc]
    simp only [Bool.true_eq_false, if_false]
    split
    · exact Evo.refl g
    · split
      · exact Evo.refl g
      · exact Evo.raise g (by decide)
  · rw [hc]
    exact Evo.raise g (by decide)

theorem setSpecialValuesA_evo (lc : Lic) (hk : lc .sv) (g : Gx) (v : SVTab) : Evo lc g (setSpecialValuesA g v).1 := by
  unfold setSpecialValuesA
  split
  · rename_i t ht
    have : t = v := by
      unfold setSpecialValues at ht
      dsimp only at ht
      split at ht
      · cases ht
      · cases ht; rfl
    subst this
    exact (Evo.of_prim (.sv g t ht hk)).trans (Evo.keep rfl rfl rfl)
  · exact Evo.raise g (by decide)

theorem acrFindName_none {l : List Acr} {s : Str} : acrFindName l s = none ↔ ∀ a ∈ l, sameText false a.name s = false := by
  unfold acrFindName
  rw [List.findIdx?_eq_none_iff]

theorem acrAddLoop_fresh {name : Str} {idx : Int} : ∀ {l : List Acr} {n : Nat}, acrAddLoop name idx n l = .fresh →
    ∀ a ∈ l, sameText false a.name name = false ∧ a.map ≠ idx
  | [], _, _ => by simp
  | a :: l, n, h => by
    rw [acrAddLoop] at h
    split at h
    · split at h <;> cases h
    · split at h
      · cases h
      · rename_i h1 h2
        intro b hb
        rcases List.mem_cons.mp hb with rfl | hb
        · exact ⟨by simpa using h1, h2⟩
        · exact acrAddLoop_fresh h b hb

theorem acronymAdd_evo (lc : Lic) (hk : lc .acro) (g : Gx) (name text : Str) (idx : Int) (hz : ZFree name) (hi : I32 idx) :
    EvoR lc g (acronymAdd g name text idx) := by
  unfold acronymAdd
  refine Res.All.bind' ?_
  intro l hl
  split
  · exact Evo.refl g
  · exact Evo.raise g (by decide)
  · rename_i hf
    have hf := acrAddLoop_fresh hf
    refine Evo.of_prim (.acro g l _ (need_ok hl) (.add l { Acr.mk' name text idx with readMap := idx } ?_ (Or.inr ?_)
      ⟨hz, zfree_good _⟩ hi (Or.inr ⟨hk, rfl⟩)))
    · intro b hb; exact (hf b hb).2
    · rw [acrFindName_none]
      intro a ha
      exact (hf a ha).1

theorem acronymSetInfo_evo (lc : Lic) (hk : lc .rename) (g : Gx) (n : Int) (name text : Str) (idx : Int) : EvoR lc g (acronymSetInfo g n name text idx) := by
  unfold acronymSetInfo
  refine Res.All.bind' ?_
  intro l hl
  have hl := need_ok hl
  refine Res.All.bind' ?_
  intro a ha
  obtain ⟨h1, h2, h3⟩ := at1_ok ha
  have e : n.toNat - 1 = (n - 1).toNat := by omega
  split
  · refine Res.All.bind' ?_
    intro syms _
    rcases isGoodNewSymbol_cases g syms l name with ⟨h, hf, hac, hgood⟩ | ⟨k, hn, h⟩
    · rw [h]
      simp only [Bool.true_eq_false, if_false]
      split
      · split
        · show Evo lc g _
          rw [e, modify_eq_set_of h3]
          exact Evo.of_prim (.acro g l _ hl (.rename l _ a name _ false h3 hac hgood (zfree_good text) hk))
        · trivial
      · split
        · exact Evo.raise g (by decide)
        · show Evo lc g _
          rw [e, modify_eq_set_of h3]
          exact Evo.of_prim (.acro g l _ hl (.rename l _ a name _ a.auto h3 hac hgood (zfree_good text) hk))
    · rw [h]
      simp only [if_true]
      exact (Evo.raise g hn).snoc (.raise _ _ (by decide))
  · split
    · split
      · exact Evo.raise g (by decide)
      split
      · exact Evo.raise g (by decide)
      · show Evo lc g _
        rw [e, modify_eq_set_of h3]
        exact Evo.of_prim (.acro g l _ hl (.readMap l _ a idx a.auto h3 hk))
    · exact Evo.refl g

/-! ### readers with callbacks -/

theorem readLoop_evo (lc : Lic) (cont : List (RecOut Int) → Bool) : ∀ (fuel : Nat) (g : Gx) (acc : List (RecOut Int)),
    (readLoop cont fuel g acc).All fun r => EvoW lc g r.1
  | 0, _, _ => trivial
  | fuel + 1, g, acc => by
    rw [readLoop]
    refine Res.All.bind (doRead_evo lc g) ?_
    rintro ⟨g1, o⟩ h1
    cases o with
    | none => exact h1
    | some x =>
      simp only
      split
      · exact (readLoop_evo lc cont fuel g1 _).mono fun r h => EvoW.trans h1 h
      · exact h1

theorem prepareRawUnchecked_evo (lc : Lic) (z : Cz) (g : Gx) (nr : Int) : (prepareRawUnchecked z g nr).All fun r => EvoI lc g r.1 := by
  unfold prepareRawUnchecked
  refine Res.All.bind (prepareRead_evo lc z g nr _ .rRaw ⟨by rintro ⟨⟩, by decide⟩ (by decide)) ?_
  rintro ⟨g1, n⟩ h1
  simp only
  split
  · trivial
  · exact h1

theorem dataReadRawFastEx_evo (lc : Lic) (z : Cz) (g : Gx) (nr : Int) (cont : List (RecOut Int) → Bool) :
    EvoR lc g (dataReadRawFastEx z g nr cont) := by
  unfold dataReadRawFastEx
  refine Res.All.bind (prepareRawUnchecked_evo lc z g nr) ?_
  rintro ⟨g1, n⟩ h1
  refine Res.All.bind (readLoop_evo lc cont g1.fuel g1 []) ?_
  rintro ⟨g2, rs⟩ h2
  refine Res.All.bind (dataReadDone_evo lc g2) ?_
  intro r h3
  exact (h1.1.trans h2.1).trans h3.1

theorem filtLoop_evo (lc : Lic) (fx : List (Nat × Int)) (cont : List (RecOut Int) → Bool) :
    ∀ (fuel : Nat) (g : Gx) (acc : List (RecOut Int)), (filtLoop fx cont fuel g acc).All fun r => EvoW lc g r.1
  | 0, _, _ => trivial
  | fuel + 1, g, acc => by
    rw [filtLoop]
    refine Res.All.bind (doRead_evo lc g) ?_
    rintro ⟨g1, o⟩ h1
    cases o with
    | none => exact h1
    | some x =>
      simp only
      split
      · trivial
      split
      · split
        · exact (filtLoop_evo lc fx cont fuel g1 _).mono fun r h => EvoW.trans h1 h
        · exact h1
      · exact (filtLoop_evo lc fx cont fuel g1 _).mono fun r h => EvoW.trans h1 h

theorem filtBody_evo (lc : Lic) (g : Gx) (n : Int) (filt : List Str) (cont : List (RecOut Int) → Bool) :
    (filtBody g n filt cont).All fun r => EvoW lc g r.1 := by
  unfold filtBody
  split
  · exact EvoW.refl g
  split
  · trivial
  refine Res.All.bind' ?_
  intro u _
  split
  · exact EvoW.refl g
  · refine Res.All.bind (filtLoop_evo lc _ cont g.fuel g []) ?_
    intro r h
    exact h

theorem dataReadRawFastFilt_evo (lc : Lic) (z : Cz) (g : Gx) (nr : Int) (filt : List Str) (cont : List (RecOut Int) → Bool) :
    EvoR lc g (dataReadRawFastFilt z g nr filt cont) := by
  unfold dataReadRawFastFilt
  refine Res.All.bind (prepareRead_evo lc z g nr _ .rRaw ⟨by rintro ⟨⟩, by decide⟩ (by decide)) ?_
  rintro ⟨g1, n⟩ h1
  refine Res.All.bind (filtBody_evo lc g1 n filt cont) ?_
  rintro ⟨g2, res⟩ h2
  refine Res.All.bind (dataReadDone_evo lc g2) ?_
  intro r h3
  exact (h1.1.trans h2.1).trans h3.1

theorem domLoopRead_evo (lc : Lic) (flt : Option Filt) (d : Nat) : ∀ (fuel : Nat) (g : Gx) (m : IntMap),
    (domLoopRead flt d fuel g m).All fun r => EvoW lc g r.1
  | 0, _, _ => trivial
  | fuel + 1, g, m => by
    rw [domLoopRead]
    refine Res.All.bind (doRead_evo lc g) ?_
    rintro ⟨g1, o⟩ h1
    cases o with
    | none => exact h1
    | some x =>
      obtain ⟨fd, vals⟩ := x
      simp only
      refine Res.All.bind' ?_
      intro e _
      cases flt with
      | none =>
        simp only
        refine Res.All.bind' ?_
        intro m' _
        exact (domLoopRead_evo lc none d fuel g1 m').mono fun r h => EvoW.trans h1 h
      | some f =>
        simp only
        refine Res.All.bind' ?_
        intro u _
        refine Res.All.bind' ?_
        intro v _
        split
        · refine Res.All.bind' ?_
          intro m' _
          exact (domLoopRead_evo lc (some f) d fuel g1 m').mono fun r h => EvoW.trans h1 h
        · exact (domLoopRead_evo lc (some f) d fuel _ m).mono fun r h =>
            (EvoW.trans h1 (addErrDom_evoW lc g1 _ _)).trans h

theorem numberAll_evo {lc : Lic} : ∀ (es : List Int) (u : Uel), (numberAll u es).All fun r => UelEvo lc u r.1
  | [], u => UelEvo.refl u
  | e :: es, u => by
    rw [numberAll]
    refine Res.All.bind (newUsrUel_evo (lc := lc) u e) ?_
    rintro ⟨u1, v⟩ h1
    refine Res.All.bind (numberAll_evo (lc := lc) es u1) ?_
    rintro ⟨u2, l⟩ h2
    exact UelEvo.trans h1 h2

theorem getDomainElements_evo (lc : Lic) (z : Cz) (g : Gx) (nr dimPos flt : Int) (cb : Bool) :
    EvoR lc g (getDomainElements z g nr dimPos flt cb) := by
  unfold getDomainElements
  refine Res.All.bind' ?_
  intro syms _
  split
  · exact Evo.raise g (by decide)
  refine Res.All.bind' ?_
  intro s _
  split
  · exact Evo.refl g
  split
  · exact Evo.raise g (by decide)
  refine Res.All.bind' ?_
  intro filters _
  simp only
  split
  · exact Evo.raise g (by decide)
  refine Res.All.bind (prepareRawUnchecked_evo lc z g nr) ?_
  rintro ⟨g1, n⟩ h1
  refine Res.All.bind (domLoopRead_evo lc _ _ g1.fuel g1 _) ?_
  rintro ⟨g2, m⟩ h2
  refine Res.All.bind (dataReadDone_evo lc g2) ?_
  rintro ⟨g3, _⟩ h3
  have h : Evo lc g g3 := (h1.1.trans h2.1).trans h3.1
  simp only
  split
  · exact h
  · refine Res.All.bind' ?_
    intro u hu
    refine Res.All.bind (numberAll_evo (lc := lc) _ u) ?_
    rintro ⟨u', ps⟩ h4
    exact h.trans (Evo.uelE (need_ok hu) h4)

theorem lenLoop_evo (lc : Lic) (u : Uel) : ∀ (fuel : Nat) (g : Gx) (lens : List Int), (lenLoop u fuel g lens).All fun r => EvoW lc g r.1
  | 0, _, _ => trivial
  | fuel + 1, g, lens => by
    rw [lenLoop]
    refine Res.All.bind (doRead_evo lc g) ?_
    rintro ⟨g1, o⟩ h1
    cases o with
    | none => exact h1
    | some x => exact (lenLoop_evo lc u fuel g1 _).mono fun r h => EvoW.trans h1 h

theorem lenBody_evo (lc : Lic) (u : Uel) (g : Gx) : (lenBody u g).All fun r => EvoW lc g r.1 := by
  unfold lenBody
  split
  · exact lenLoop_evo lc u _ _ _
  · exact EvoW.refl g

theorem symbIndxMaxLength_evo (lc : Lic) (z : Cz) (g : Gx) (nr : Int) : EvoR lc g (symbIndxMaxLength z g nr) := by
  unfold symbIndxMaxLength
  rcases chk_cases g [.rInit] with ⟨hm, hc⟩ | ⟨hm, hc⟩
  · rw [hc]
    simp only [Bool.true_eq_false, if_false]
    refine Res.All.bind' ?_
    intro syms _
    split
    · exact Evo.refl g
    refine Res.All.bind (dataReadRawStart_evo lc z g nr) ?_
    rintro ⟨g1, r⟩ h1
    simp only
    split
    · exact h1
    refine Res.All.bind' ?_
    intro u _
    refine Res.All.bind (lenBody_evo lc u g1) ?_
    rintro ⟨g2, lens⟩ h2
    refine Res.All.bind (dataReadDone_evo lc g2) ?_
    intro r h3
    exact (Evo.trans h1 h2.1).trans h3.1
  · rw [hc]
    exact Evo.raise g (by decide)

/-! ### slices -/

theorem sliceLoop_evo (lc : Lic) : ∀ (fuel : Nat) (g : Gx) (ms : List IntMap), (sliceLoop fuel g ms).All fun r => EvoW lc g r.1
  | 0, _, _ => trivial
  | fuel + 1, g, ms => by
    rw [sliceLoop]
    refine Res.All.bind (doRead_evo lc g) ?_
    rintro ⟨g1, o⟩ h1
    cases o with
    | none => exact h1
    | some x =>
      refine Res.All.bind' ?_
      intro ms' _
      exact (sliceLoop_evo lc fuel g1 _).mono fun r h => EvoW.trans h1 h

theorem dataReadSliceStart_evo (lc : Lic) (z : Cz) (g : Gx) (nr : Int) : EvoR lc g (dataReadSliceStart z g nr) := by
  unfold dataReadSliceStart
  have h0 : Evo lc g { g with sliceSy := nr } := Evo.keep rfl rfl rfl
  refine Res.All.bind (prepareRawUnchecked_evo lc z { g with sliceSy := nr } nr) ?_
  rintro ⟨g1, n⟩ h1
  refine Res.All.bind (sliceLoop_evo lc g1.fuel g1 _) ?_
  rintro ⟨g2, ms⟩ h2
  refine Res.All.bind (dataReadDone_evo lc g2) ?_
  rintro ⟨g3, _⟩ h3
  refine Res.All.bind' ?_
  rintro ⟨ix, rev, cs⟩ _
  exact (((h0.trans h1.1).trans h2.1).trans h3.1).trans (Evo.idle rfl (by show ¬ Writing .rSlice; decide))

theorem sliceRead_evo (lc : Lic) (ns : List Int) (ms : List IntMap) : ∀ (fuel : Nat) (g : Gx),
    (sliceRead ns ms fuel g).All fun r => EvoW lc g r.1
  | 0, _ => trivial
  | fuel + 1, g => by
    rw [sliceRead]
    refine Res.All.bind (doRead_evo lc g) ?_
    rintro ⟨g1, o⟩ h1
    cases o with
    | none => exact h1
    | some x =>
      refine Res.All.bind (sliceRead_evo lc ns ms fuel g1) ?_
      rintro ⟨g2, rs⟩ h2
      simp only
      split
      · exact EvoW.trans h1 h2
      · exact EvoW.trans h1 h2

theorem dataReadSlice_evo (lc : Lic) (z : Cz) (g : Gx) (filt : List Str) : EvoR lc g (dataReadSlice z g filt) := by
  unfold dataReadSlice
  rcases chk_cases g [.rSlice] with ⟨hm, hc⟩ | ⟨hm, hc⟩
  · rw [hc]
    simp only [Bool.true_eq_false, if_false]
    split
    · trivial
    refine Res.All.bind' ?_
    intro u _
    have h0 : Evo lc g { g with sliceElems := filt ++ g.sliceElems.drop g.nd, mode := .rInit } :=
      Evo.idle rfl (by show ¬ Writing .rInit; decide)
    split
    · exact h0
    refine Res.All.bind (prepareRead_evo lc z _ _ _ .rSlice ⟨by rintro ⟨⟩, by decide⟩ (by decide)) ?_
    rintro ⟨g1, n⟩ h1
    simp only
    split
    · trivial
    refine Res.All.bind (sliceRead_evo lc _ _ g1.fuel g1) ?_
    rintro ⟨g2, rs⟩ h2
    exact (h0.trans h1.1).trans h2.1
  · rw [hc]
    exact Evo.raise g (by decide)

theorem dataSliceUELS_evo (lc : Lic) (g : Gx) (keys : List Int) : EvoR lc g (dataSliceUELS g keys) := by
  unfold dataSliceUELS
  rcases chk_cases g [.rSlice] with ⟨hm, hc⟩ | ⟨hm, hc⟩
  · rw [hc]
    simp only [Bool.true_eq_false, if_false]
    refine Res.All.bind' ?_
    intro u _
    refine Res.All.bind' ?_
    intro r _
    exact Evo.refl g
  · rw [hc]
    exact Evo.raise g (by decide)

/-! ### all calls -/

/-- what C passes: ints fit into 32 bits, strings hold no byte 0 -/
def Call.WF : Call → Prop
  | .openWrite _ i p c => I32 i ∧ ZFree p ∧ I32 c
  | .openAppend _ p => ZFree p
  | .rawStart n t d ty ui | .mapStart n t d ty ui | .strStart n t d ty ui =>
    ZFree n ∧ ZFree t ∧ I32 d ∧ I32 ty ∧ I32 ui
  | .rawStartBounds n t d ty ui bs => ZFree n ∧ ZFree t ∧ I32 d ∧ I32 ty ∧ I32 ui ∧ ∀ b ∈ bs, I32 b.1 ∧ I32 b.2
  | .writeRaw k _ | .writeMap k _ => ∀ x ∈ k, I32 x
  | .writeStr k _ => ∀ x ∈ k, ZFree x
  | .addAlias a b => ZFree a ∧ ZFree b
  | .addSetText t => ZFree t
  | .setTextNodeNr n d => I32 n ∧ I32 d
  | .setDomain ids => ∀ s ∈ ids, ZFree s
  | .setDomainX n ids => I32 n ∧ ∀ s ∈ ids, ZFree s
  | .addComment n t => I32 n ∧ ZFree t
  | .uelRaw s | .uelStr s => ZFree s
  | .uelMap m s => I32 m ∧ ZFree s
  | .renameUEL o n => ZFree o ∧ ZFree n
  | .acronymAdd n t i => ZFree n ∧ ZFree t ∧ I32 i
  | .acronymSetInfo k n t i => I32 k ∧ ZFree n ∧ ZFree t ∧ I32 i
  | .acronymNextNr v => I32 v
  | _ => True

/-- calls that are not chains of elementary steps -/
def Call.special : Call → Bool
  | .openWrite .. | .openRead .. | .openAppend .. | .close | .uelMap .. | .renameUEL .. | .getLastError => true
  | _ => false

theorem stateOf_evo (lc : Lic) {α : Type} {g : Gx} {r : Res (Gx × α)} (h : EvoR lc g r) : (stateOf r).All fun g' => Evo lc g g' := by
  unfold stateOf
  refine Res.All.bind h ?_
  intro x hx
  exact hx

/-- the kinds of steps of a call -/
def Call.lic : Call → Lic
  | .setDomain _, t => t = .dom
  | .setDomainX _ _, t => t = .relax
  | .addComment _ _, t => t = .comment
  | .addSetText _, t => t = .text
  | .setTextNodeNr _ _, t => t = .node
  | .acronymSetInfo _ _ _ _, t => t = .rename
  | .acronymNextNr _, t => t = .auto
  | .acronymAdd _ _ _, t => t = .acro
  | .setSpecialValues _, t => t = .sv
  | .resetSpecialValues, t => t = .sv
  | .writeStr _ _, t => t = .elem
  | .uelRaw _, t => t = .elem
  | .readMapStart _, t => t = .stat
  | .readFilteredStart _ _, t => t = .stat
  | .filterStart _, t => t = .filt
  | .filterAdd _, t => t = .filt
  | .filterDone, t => t = .filt ∨ t = .stat
  | _, _ => False

theorem step_evo (e : Env) (z : Cz) (g : Gx) (c : Call) (hc : c.WF) (hs : c.special = false) (ha : ¬ Writing g.modeAft ∧ g.modeAft ≠ .rFilter) :
    (step e z g c).All fun g' => Evo c.lic g g' := by
  cases c with
  | openWrite => cases hs
  | openRead => cases hs
  | openAppend => cases hs
  | close => cases hs
  | uelMap => cases hs
  | renameUEL => cases hs
  | rawStart n t d ty ui => exact stateOf_evo _ (dataWriteRawStart_evo _ g n t d ty ui hc.2.2.2.2)
  | rawStartBounds n t d ty ui bs => exact stateOf_evo _ (dataWriteRawStartKeyBounds_evo _ g n t d ty ui bs hc.2.2.2.2.1)
  | writeRaw k v => exact stateOf_evo _ (dataWriteRaw_evo _ g k v)
  | mapStart n t d ty ui => exact stateOf_evo _ (dataWriteMapStart_evo _ g n t d ty ui hc.2.2.2.2)
  | writeMap k v => exact stateOf_evo _ (dataWriteMap_evo _ g k v)
  | strStart n t d ty ui => exact stateOf_evo _ (dataWriteStrStart_evo _ g n t d ty ui hc.2.2.2.2)
  | writeStr k v => exact stateOf_evo _ (dataWriteStr_evo (Call.writeStr k v).lic rfl g k v)
  | writeDone => exact stateOf_evo _ (dataWriteDone_evo _ z g)
  | addAlias a b => exact stateOf_evo _ (addAlias_evo _ g a b)
  | addSetText t => exact addSetText_evo (Call.addSetText t).lic rfl g t
  | setTextNodeNr n d => exact setTextNodeNr_evo (Call.setTextNodeNr n d).lic rfl g n d
  | setDomain ids => exact stateOf_evo _ (symbolSetDomain_evo (Call.setDomain ids).lic rfl g ids)
  | setDomainX n ids => exact stateOf_evo _ (symbolSetDomainX_evo (Call.setDomainX n ids).lic rfl g n ids)
  | addComment n t => exact stateOf_evo _ (symbolAddComment_evo (Call.addComment n t).lic rfl g n t hc.2)
  | uelRawStart => exact uelRegisterRawStart_evo _ g
  | uelMapStart => exact uelRegisterStart_evo _ g .mapElem (by decide) (by decide)
  | uelStrStart => exact uelRegisterStart_evo _ g .strElem (by decide) (by decide)
  | uelDone => exact uelRegisterDone_evo _ g ha
  | uelRaw s => exact stateOf_evo _ (uelRegisterRaw_evo (Call.uelRaw s).lic rfl g s)
  | uelStr s => exact stateOf_evo _ (uelRegisterStr_evo _ g s)
  | readRawStart n => exact stateOf_evo _ (dataReadRawStart_evo _ z g n)
  | readRaw => exact stateOf_evo _ (dataReadRaw_evo _ g)
  | readStrStart n => exact stateOf_evo _ (dataReadStrStart_evo _ z g n)
  | readStr => exact stateOf_evo _ (dataReadStr_evo _ g)
  | readMapStart n => exact stateOf_evo _ (dataReadMapStart_evo (Call.readMapStart n).lic rfl z g n)
  | readFilteredStart n a => exact stateOf_evo _ (dataReadFilteredStart_evo (Call.readFilteredStart n a).lic rfl z g n a)
  | readMap k => exact stateOf_evo _ (dataReadMap_evo _ g k)
  | readDone => exact stateOf_evo _ ((dataReadDone_evo _ g).mono fun _ h => h.1)
  | readRawFast n => exact stateOf_evo _ (dataReadRawFastEx_evo _ z g n _)
  | readRawFastEx n c => exact stateOf_evo _ (dataReadRawFastEx_evo _ z g n c)
  | readRawFastFilt n f c => exact stateOf_evo _ (dataReadRawFastFilt_evo _ z g n f c)
  | sliceStart n => exact stateOf_evo _ (dataReadSliceStart_evo _ z g n)
  | slice f => exact stateOf_evo _ (dataReadSlice_evo _ z g f)
  | sliceUELS k => exact stateOf_evo _ (dataSliceUELS_evo _ g k)
  | domainElements n d f c => exact stateOf_evo _ (getDomainElements_evo _ z g n d f c)
  | indxMaxLength n => exact stateOf_evo _ (symbIndxMaxLength_evo _ z g n)
  | getDomain n => exact stateOf_evo _ (symbolGetDomain_evo _ g n)
  | getDomainX n => exact stateOf_evo _ (symbolGetDomainX_evo _ g n)
  | errorRecord n => exact dataErrorRecordX_evo _ g n
  | errorRecordX n => exact dataErrorRecordX_evo _ g n
  | getLastError => cases hs
  | filterExists n => exact stateOf_evo _ (filterExists_evo _ g n)
  | filterStart n => exact stateOf_evo _ (filterRegisterStart_evo (Call.filterStart n).lic rfl g n)
  | filterAdd u => exact stateOf_evo _ (filterRegister_evo (Call.filterAdd u).lic rfl g u)
  | filterDone => exact stateOf_evo _ (filterRegisterDone_evo Call.filterDone.lic (Or.inl rfl) (Or.inr rfl) g)
  | setSpecialValues v => exact setSpecialValuesA_evo (Call.setSpecialValues v).lic rfl g v
  | setReadSpecialValues v => exact (Evo.keep rfl rfl rfl : Evo _ g (Gdx.setReadSpecialValues g v))
  | resetSpecialValues =>
    exact (Evo.of_prim (k := Call.resetSpecialValues.lic) (.sv g SVTab.default (by decide +kernel) rfl)).trans
      (Evo.keep rfl rfl rfl : Evo _ { g with sv := SVTab.default } (Gdx.resetSpecialValues g))
  | acronymAdd n t i => exact stateOf_evo _ (acronymAdd_evo (Call.acronymAdd n t i).lic rfl g n t i hc.1 hc.2.2)
  | acronymSetInfo k n t i => exact stateOf_evo _ (acronymSetInfo_evo (Call.acronymSetInfo k n t i).lic rfl g k n t i)
  | acronymNextNr v =>
    show Evo _ g (if v ≥ 0 then { g with nextAuto := v } else g)
    split
    · exact Evo.of_prim (.auto g v rfl)
    · exact Evo.refl g
  | storeDomainSets f => exact (Evo.keep rfl rfl rfl : Evo _ g { g with storeDom := f })
  | allowBogusDomains f => exact (Evo.keep rfl rfl rfl : Evo _ g { g with allowBogus := f })
  | mapAcronymsToNaN f => exact (Evo.keep rfl rfl rfl : Evo _ g { g with acrNaN := f })
  | autoConvert v => exact (Evo.keep rfl rfl rfl : Evo _ g { g with autoConvert := v })

end Gdx
