import Verif.Proofs.DiffLabels
import Verif.Props.Mapped
import Verif.Props.DiffBounds

/-!
`gdxdiff`: an object between two symbols.
-/

namespace Gdx.Diff
open Gdx Gdx.Props

/-! ### the mode -/

/-- waiting or reading -/
def Reading (m : Mode) : Prop := m = .rInit ∨ m = .rRaw ∨ m = .rMap ∨ m = .rMapR

theorem raise_mode (g : Gx) (n : Int) : (g.raise n).mode = g.mode := by
  unfold Gx.raise
  split <;> rfl

theorem chk_mode (g : Gx) (ms : List Mode) : (g.chk ms).1.mode = g.mode := by
  rcases chk_cases g ms with ⟨_, h⟩ | ⟨_, h⟩ <;> rw [h]
  exact raise_mode _ _

theorem doRead_mode {g g' : Gx} {r : Option (Nat × List Dbl)} (ha : g.nextAuto ≤ 0) (h : doRead g = .ok (g', r)) : g'.mode = g.mode := by
  unfold doRead at h
  split at h
  · split at h
    · cases h
    · split at h
      · cases h
        rfl
      · cases h
        rfl
  · obtain ⟨s, _, h⟩ := Res.bind_eq_ok.mp h
    split at h
    · cases h
      rfl
    · obtain ⟨⟨o, rest⟩, _, h⟩ := Res.bind_eq_ok.mp h
      dsimp only at h
      split at h
      · cases h
        rfl
      · obtain ⟨⟨g1, vals⟩, h1, h⟩ := Res.bind_eq_ok.mp h
        obtain ⟨vs, _, h⟩ := Res.bind_eq_ok.mp h
        cases h
        have e1 := readVals_fix (g := { g with rest := rest }) ha h1
        subst e1
        rfl

theorem addErrDom_mode (g : Gx) (k : List Int) (v : List Dbl) : (addErrDom g k v).mode = g.mode := by
  unfold addErrDom
  dsimp only
  split
  · rfl
  · split <;> rfl

theorem streamMap_mode : ∀ {n : Nat} {g g' : Gx} {key : List Int} {fi : Nat} {nw : Bool} {r : Option (RecOut Int)}, g.nextAuto ≤ 0 →
    streamMap n g key fi nw = .ok (g', r) → g'.mode = g.mode
  | 0, _, _, _, _, _, _, _, h => by cases h
  | n + 1, g, g', key, fi, nw, r, ha, h => by
    unfold streamMap at h
    obtain ⟨⟨g1, o⟩, h1, h⟩ := Res.bind_eq_ok.mp h
    have hm := doRead_mode ha h1
    have hf := doRead_fix ha h1
    dsimp only at h
    split at h
    · cases h
      exact hm
    · obtain ⟨u, _, h⟩ := Res.bind_eq_ok.mp h
      obtain ⟨⟨key', stop, nw'⟩, _, h⟩ := Res.bind_eq_ok.mp h
      dsimp only at h
      split at h
      · cases h
        rw [raise_mode]
        exact hm
      · obtain ⟨⟨bad, ok⟩, _, h⟩ := Res.bind_eq_ok.mp h
        dsimp only at h
        split at h
        · cases h
          rw [raise_mode]
          exact hm
        · have ha' : ∀ k v, (addErrDom { g1 with last := bad.map fun e => if e < 0 then -e else e } k v).nextAuto ≤ 0 := by
            intro k v
            rw [RFix.auto (addErrDom_fix _ k v).fix]
            show g1.nextAuto ≤ 0
            rw [RFix.auto hf.fix]
            exact ha
          rw [streamMap_mode (ha' _ _) h, addErrDom_mode]
          exact hm
      · obtain ⟨⟨u', key'', k⟩, _, h⟩ := Res.bind_eq_ok.mp h
        cases h
        exact hm

theorem dataReadMap_mode {g g' : Gx} {key : List Int} {r : Option (RecOut Int)} (ha : g.nextAuto ≤ 0) (h : dataReadMap g key = .ok (g', r)) :
    g'.mode = g.mode := by
  unfold dataReadMap at h
  have hc := chk_cases g [.rMap, .rMapR]
  rcases hc with ⟨_, hc⟩ | ⟨_, hc⟩
  swap
  · rw [hc] at h
    simp only [if_true] at h
    cases h
    exact raise_mode _ _
  rw [hc] at h
  dsimp only at h
  rw [if_neg (by decide)] at h
  split at h
  · cases h
  split at h
  · obtain ⟨s, _, h⟩ := Res.bind_eq_ok.mp h
    cases h
    rfl
  split at h
  · split at h
    · cases h
      rfl
    · split at h
      · cases h
      · cases h
        rfl
    · split at h
      · cases h
      · cases h
        rfl
  split at h
  · cases h
  · exact streamMap_mode ha h

theorem dataReadDone_mode {g g' : Gx} {b : Bool} (h : dataReadDone g = .ok (g', b)) : g'.mode = .rInit := by
  unfold dataReadDone at h
  dsimp only at h
  split at h
  · cases h
    rfl
  split at h
  · obtain ⟨u, _, h⟩ := Res.bind_eq_ok.mp h
    obtain ⟨u', _, h⟩ := Res.bind_eq_ok.mp h
    cases h
    rfl
  · cases h
    rfl

theorem dataReadRaw_mode {g g' : Gx} {r : Option (RecOut Int)} (ha : g.nextAuto ≤ 0) (h : dataReadRaw g = .ok (g', r)) :
    g'.mode = g.mode ∨ g'.mode = .rInit := by
  unfold dataReadRaw at h
  rcases chk_cases g [.rRaw] with ⟨_, hc⟩ | ⟨_, hc⟩
  swap
  · rw [hc] at h
    simp only [if_true] at h
    cases h
    exact Or.inl (raise_mode _ _)
  rw [hc] at h
  dsimp only at h
  rw [if_neg (by decide)] at h
  obtain ⟨⟨g1, o⟩, h1, h⟩ := Res.bind_eq_ok.mp h
  dsimp only at h
  split at h
  · obtain ⟨⟨g2, b⟩, h2, h⟩ := Res.bind_eq_ok.mp h
    cases h
    exact Or.inr (dataReadDone_mode h2)
  · cases h
    exact Or.inl (doRead_mode ha h1)

theorem prepareStart_mode {g g' : Gx} {b : Bool} (h : prepareStart g = .ok (g', b)) : g'.mode = .rInit := by
  unfold prepareStart at h
  obtain ⟨g1, _, h⟩ := Res.bind_eq_ok.mp h
  dsimp only at h
  generalize ({ g1 with nrMapped := 0, errList := none, cur := .none, sort := none } : Gx) = g2 at h
  rcases chk_cases g2 [.rInit] with ⟨hm, hc⟩ | ⟨_, hc⟩
  · rw [hc] at h
    dsimp only at h
    rw [if_neg (by decide)] at h
    cases h
    simpa using hm
  · rw [hc] at h
    dsimp only at h
    rw [if_pos rfl] at h
    cases h
    rfl

theorem prepareMapped_mode {g g' : Gx} {n k : Int} (h : prepareMapped g n = .ok (g', k)) : Reading g'.mode := by
  unfold prepareMapped at h
  obtain ⟨u, _, h⟩ := Res.bind_eq_ok.mp h
  have hst : ∃ p : Uel × MapStat, (if g.doms.any (· ≠ DAct.unmapped) = true then u.mapStat else (u, MapStat.sortfull)) = p := ⟨_, rfl⟩
  obtain ⟨⟨u1, st⟩, hp⟩ := hst
  dsimp only at h
  rw [hp] at h
  dsimp only at h
  split at h
  · cases h
    exact Or.inr (Or.inr (Or.inr rfl))
  · obtain ⟨⟨g1, m⟩, _, h⟩ := Res.bind_eq_ok.mp h
    obtain ⟨s, _, h⟩ := Res.bind_eq_ok.mp h
    obtain ⟨recs, _, h⟩ := Res.bind_eq_ok.mp h
    obtain ⟨s', _, h⟩ := Res.bind_eq_ok.mp h
    dsimp only at h
    split at h
    · cases h
      exact Or.inr (Or.inr (Or.inl rfl))
    · cases h
      exact Or.inl rfl

theorem prepareData_mode {g g' : Gx} {l : List UInt8} {n k : Int} {nm : Mode} (hm : Reading g.mode) (hn : Reading nm)
    (h : prepareData g l n nm = .ok (g', k)) : Reading g'.mode := by
  unfold prepareData at h
  dsimp only at h
  split at h
  · cases h
    rw [raise_mode]
    exact hm
  obtain ⟨⟨d, l1⟩, _, h⟩ := Res.bind_eq_ok.mp h
  dsimp only at h
  split at h
  · cases h
    rw [raise_mode]
    exact hm
  obtain ⟨⟨_, l2⟩, _, h⟩ := Res.bind_eq_ok.mp h
  dsimp only at h
  split at h
  · cases h
    exact hn
  obtain ⟨⟨bs, l3⟩, _, h⟩ := Res.bind_eq_ok.mp h
  dsimp only at h
  split at h
  · exact prepareMapped_mode h
  · cases h
    exact hn

theorem prepareRead_mode {z : Cz} {g g' : Gx} {nr k : Int} {acts : List Int} {nm : Mode} (hn : Reading nm)
    (h : prepareRead z g nr acts nm = .ok (g', k)) : Reading g'.mode := by
  unfold prepareRead at h
  obtain ⟨⟨g1, b⟩, h1, h⟩ := Res.bind_eq_ok.mp h
  have hm : Reading g1.mode := Or.inl (prepareStart_mode h1)
  dsimp only at h
  split at h
  · cases h
    exact hm
  obtain ⟨fs, _, h⟩ := Res.bind_eq_ok.mp h
  obtain ⟨syms, _, h⟩ := Res.bind_eq_ok.mp h
  split at h
  · cases h
    rw [raise_mode]
    exact hm
  obtain ⟨t, _, h⟩ := Res.bind_eq_ok.mp h
  split at h
  · split at h
    · cases h
    split at h
    · cases h
      rw [raise_mode]
      exact hm
    · split at h
      · exact prepareMapped_mode h
      · cases h
        exact hn
  · obtain ⟨s, _, h⟩ := Res.bind_eq_ok.mp h
    split at h
    · cases h
    split at h
    · cases h
    split at h
    · cases h
      rw [raise_mode]
      exact hm
    · exact prepareData_mode (by exact hm) hn h

/-! ### starting again -/

/-- the object when the symbol that is being read is finished -/
def idle (g : Gx) : Gx := { g with sort := none, cur := .none, mode := .rInit }

theorem prepareStart_idle {g : Gx} (hm : Reading g.mode) (h0 : g.nrMapped = 0) : prepareStart g = prepareStart (idle g) := by
  have hi : finishRead (idle g) = .ok (idle g) := by
    unfold finishRead
    rw [if_neg (by simp [idle])]
  unfold prepareStart
  rw [hi]
  rcases hm with hm | hm
  · unfold finishRead
    rw [if_neg (by rw [hm]; decide)]
    simp only [Res.bind_ok]
    unfold idle
    rw [← hm]
  · have hf : finishRead g = .ok (idle g) := by
      unfold finishRead
      rw [if_pos (by tauto)]
      unfold dataReadDone
      dsimp only
      have hc : ∀ g' : Gx, g'.mode = g.mode → g'.chk [.rInit, .rRaw, .rMap, .rMapR, .rStr, .rSlice] = (g', true) := by
        intro g' hg
        rcases chk_cases g' [.rInit, .rRaw, .rMap, .rMapR, .rStr, .rSlice] with ⟨_, h⟩ | ⟨h, _⟩
        · exact h
        · rw [hg] at h
          simp only [List.mem_cons, List.not_mem_nil, or_false] at h
          tauto
      simp only [hc ({ g with sort := none, cur := .none } : Gx) rfl, Bool.true_eq_false, if_false]
      rw [if_neg (by simp [h0])]
      rfl
    rw [hf]

theorem mapStart_idle {z : Cz} {g : Gx} {nr : Int} (hm : Reading g.mode) (h0 : g.nrMapped = 0) :
    dataReadMapStart z g nr = dataReadMapStart z (idle g) nr := by
  unfold dataReadMapStart prepareRead
  rw [prepareStart_idle hm h0]

theorem rawStart_idle {z : Cz} {g : Gx} {nr : Int} (hm : Reading g.mode) (h0 : g.nrMapped = 0) :
    dataReadRawStart z g nr = dataReadRawStart z (idle g) nr := by
  unfold dataReadRawStart prepareRead
  rw [prepareStart_idle hm h0]

/-! ### the object after OpenGDX -/

/-- an object that has opened a file whose elements are in order -/
structure Fresh (a : Gx) : Prop where
  mode : a.mode = .rInit
  opn : a.opened = true
  uel : ∃ strs : List Str, a.uel = some { Uel.empty with ents := strs.map (·, -1) }
  good : GoodElems a
  filt : a.filters = some []
  auto : a.nextAuto ≤ 0
  nrm : a.nrMapped = 0

/-- an object whose elements have the numbers of UELTable -/
structure Ready (us : List Str) (g : Gx) : Prop where
  mode : Reading g.mode
  auto : g.nextAuto ≤ 0
  nrm : g.nrMapped = 0
  good : GoodElems g
  inv : MapInv g
  aft : Aft g
  filt : g.filters = some []
  uel : ∃ u, g.uel = some u ∧ RegSt us u.ents.length u ∧ u.usr.highest + u.size < intMax

/-- with the table of elements of the other -/
def _root_.Gdx.Fixed.withUel (f h : Fixed) : Fixed := { f with uel := h.uel }

theorem openGDX_own {z : Cz} {f : List UInt8} {us : List Str} {a : Gx} {b : Bool} (ho : openRead z Gx.new (.content f) = .ok (a, (b, 0))) (hf : Fresh a)
    (hd : Distinct false us) (hl : (us.length : Int) + (systemInfo a).2 ≤ 1000000000) :
    ∃ g us', openGDX z f us = .ok (some (g, us')) ∧ Ready us' g ∧ Distinct false us' ∧ Ext us us' ∧
      (us'.length : Int) ≤ us.length + (systemInfo a).2 ∧ g.fixed = a.fixed.withUel g.fixed ∧ g.mode = .rInit ∧
      g.uel.map Uel.strs = a.uel.map Uel.strs ∧ us' = addUels us ((a.uel.map Uel.strs).getD []) := by
  obtain ⟨strs, hu⟩ := hf.uel
  have hg := hf.good _ hu
  have hsz : (systemInfo a).2 = (strs.length : Int) := by
    unfold systemInfo
    rw [hu]
    simp [Uel.size]
  rw [hsz] at hl
  have hC : ∀ m : Nat, m < 1000000001 → (m : Int) < maxCapacity := by
    intro m hm
    have : ((maxCapacity : Nat) : Int) = 2147483648 := rfl
    omega
  generalize hv : ({ Uel.empty with ents := strs.map (·, -1) } : Uel) = v at hu hg
  have hvl : v.ents.length = strs.length := by rw [← hv]; simp
  have hvo : UsrOk v := by rw [← hv]; exact usrOk_fresh strs
  have hvr : RegSt us 0 v := by
    refine ⟨fun i s k hi => absurd hi (Nat.not_lt_zero i), fun i s k _ h => ?_⟩
    rw [← hv, List.getElem?_map] at h
    obtain ⟨w, _, hw⟩ := Option.map_eq_some_iff.mp h
    cases hw
    rfl
  have hhi : v.usr.highest = 0 := by rw [← hv]; rfl
  have hst : v.stat = none := by rw [← hv]; rfl
  have e1 : (uelRegisterMapStart a).1 = { a with modeAft := .rInit, mode := .mapElem } := by
    unfold uelRegisterMapStart uelRegisterStart
    rcases chk_cases a [.rInit, .wInit] with ⟨_, h⟩ | ⟨h, _⟩
    · rw [h]
      simp only [if_true, hf.mode]
      rfl
    · exact absurd hf.mode (by simp at h; exact h.1)
  have e0 : umUelInfo a = .ok (true, (strs.length : Int), 0) := by
    unfold umUelInfo
    rw [hf.opn, hu]
    simp only [Bool.true_eq_false, if_false, need, Res.bind_ok, Res.pure_eq, Uel.size, hvl, hhi]
  obtain ⟨u', us', i1, i2, i3, i4, i5, i6, i7, i8, i9, i10⟩ := regFile_labels hC (k := strs.length) (n := 0)
    (g := { a with modeAft := .rInit, mode := .mapElem }) (us := us) (u := v) rfl hu hg hvo hvr (by omega) hd (by omega) (fun _ => hst)
  have hul : u'.ents.length = v.ents.length := by
    have := congrArg List.length i2
    unfold Uel.strs at this
    simpa using this
  refine ⟨(getLastError (uelRegisterDone { a with modeAft := .rInit, mode := .mapElem, uel := some u' }).1).1, us', ?_, ?_⟩
  · unfold openGDX
    rw [ho]
    dsimp only
    rw [Res.bind_ok]
    dsimp only
    rw [if_neg (by simp), e0, Res.bind_ok]
    dsimp only
    rw [e1]
    simp only [Int.toNat_natCast]
    have i1' : regFile strs.length 1 { a with modeAft := .rInit, mode := .mapElem } us = _ := i1
    rw [i1', Res.bind_ok]
    rfl
  · have e2 : (uelRegisterDone { a with modeAft := .rInit, mode := .mapElem, uel := some u' }).1 = { a with modeAft := .rInit, mode := .rInit, uel := some u' } := by
      unfold uelRegisterDone
      rcases chk_cases ({ a with modeAft := .rInit, mode := .mapElem, uel := some u' } : Gx) [.rawElem, .mapElem, .strElem] with ⟨_, h⟩ | ⟨h, _⟩
      · rw [h]
        rfl
      · exact absurd h (by simp)
    rw [e2]
    refine ⟨?_, i5, i6, by rw [hsz]; omega, rfl, rfl, ?_, by rw [i10, hu, List.drop_zero]; rfl⟩
    · refine ⟨Or.inl rfl, hf.auto, hf.nrm, ?_, ?_, ?_, hf.filt, u', rfl, ?_, ?_⟩
      · intro w hw
        cases hw
        exact ⟨by rw [i2]; exact hg.distinct, by rw [i2]; exact hg.good⟩
      · refine ⟨⟨?_, ?_, ?_⟩, ?_, ?_⟩
        · intro w hw
          cases hw
          exact i3
        · intro w fs _ hfs
          have : some fs = some [] := hfs.symm.trans hf.filt
          cases this
          intro q hq
          cases hq
        · intro hm
          cases hm
        · intro w hw st hst
          cases hw
          rw [i8] at hst
          cases hst
        · intro w hw hst
          cases hw
          exact absurd i8 hst
      · exact ⟨by show ¬ Writing Mode.rInit; decide, by show Mode.rInit ≠ .rFilter; decide⟩
      · rw [hul]
        exact i4
      · have hM := i9 (us.length + strs.length) (by rw [hhi]; omega) (by omega)
        have hs : u'.size = (strs.length : Int) := by
          unfold Uel.size
          rw [hul, hvl]
        have hx : intMax = 2147483647 := rfl
        rw [hs]
        omega
    · show some u'.strs = a.uel.map Uel.strs
      rw [hu, i2]
      rfl

theorem startUels_distinct (o : Opt) : Distinct false (startUels o) := by
  have key : ∀ (w l : List Str), Distinct false l → Distinct false (w.foldl (fun l s => (addUel l s).1) l) := by
    intro w
    induction w with
    | nil => intro l h; exact h
    | cons s w ih =>
      intro l h
      rw [List.foldl_cons]
      exact ih _ (addUel_distinct h s).1
  exact key _ [] .nil

theorem startUels_length (o : Opt) : (startUels o).length ≤ 9 := by
  unfold startUels
  cases o.diffOnly <;> decide

theorem Ready.ext {us us' : List Str} {g : Gx} (h : Ready us g) (he : Ext us us') : Ready us' g := by
  obtain ⟨u, h1, h2, h3⟩ := h.uel
  exact { h with uel := ⟨u, h1, ⟨fun i s k hi hs => ⟨(h2.done i s k hi hs).1, he _ _ (h2.done i s k hi hs).2⟩, h2.todo⟩, h3⟩ }

/-! ### the object while the program runs -/

theorem begins_mode {o : Opt} {z : Cz} {g g' : Gx} {n : Int} {r : Bool × Int} (h : begins o z g n = .ok (g', r)) : Reading g'.mode := by
  unfold begins at h
  split at h
  · unfold dataReadRawStart at h
    obtain ⟨⟨g1, k⟩, h1, h⟩ := Res.bind_eq_ok.mp h
    cases h
    exact prepareRead_mode (Or.inr (Or.inl rfl)) h1
  · unfold dataReadMapStart at h
    obtain ⟨⟨g1, k⟩, h1, h⟩ := Res.bind_eq_ok.mp h
    cases h
    exact prepareRead_mode (Or.inr (Or.inr (Or.inl rfl))) h1

theorem domX_mode {g g' : Gx} {n : Int} {r : Int × List Str} (h : symbolGetDomainX g n = .ok (g', r)) : g'.mode = g.mode := by
  unfold symbolGetDomainX at h
  obtain ⟨l, _, h⟩ := Res.bind_eq_ok.mp h
  split at h
  · cases h
    exact raise_mode _ _
  · split at h
    · obtain ⟨_, _, h⟩ := Res.bind_eq_ok.mp h
      obtain ⟨_, _, h⟩ := Res.bind_eq_ok.mp h
      cases h
      rfl
    · cases h
      rfl
    · obtain ⟨_, _, h⟩ := Res.bind_eq_ok.mp h
      cases h
      rfl

theorem ready_fixed {us : List Str} {g g' : Gx} (h : Ready us g) (hf : g'.fixed = g.fixed) (hm : Reading g'.mode) (hi : MapInv g') (ha : Aft g') :
    Ready us g' := by
  obtain ⟨u, h1, h2, h3⟩ := h.uel
  have hu : g'.uel.map (fun u => (u.ents, u.usr)) = some (u.ents, u.usr) := by
    rw [show g'.uel.map (fun u => (u.ents, u.usr)) = g.uel.map (fun u => (u.ents, u.usr)) from congrArg Fixed.uel hf, h1]
    rfl
  obtain ⟨u', hu', he⟩ := Option.map_eq_some_iff.mp hu
  obtain ⟨he1, he2⟩ := Prod.mk.inj he
  refine ⟨hm, by rw [RFix.auto hf]; exact h.auto, (congrArg Fixed.nrm hf).trans h.nrm, ?_, hi, ha, (congrArg Fixed.filt hf).trans h.filt, u', hu', ?_, ?_⟩
  · intro w hw
    rw [hu'] at hw
    cases hw
    have hg := h.good u h1
    have hst : u'.strs = u.strs := by unfold Uel.strs; rw [he1]
    exact ⟨by rw [hst]; exact hg.distinct, by rw [hst]; exact hg.good⟩
  · rw [he1]
    exact ⟨fun i s k hi hs => h2.done i s k hi (he1 ▸ hs), fun i s k hi hs => h2.todo i s k hi (he1 ▸ hs)⟩
  · unfold Uel.size
    rw [he1, he2]
    exact h3

theorem ready_step {us : List Str} {z : Cz} {g g' : Gx} {c : Call} (h : Ready us g) (hc : c.WF) (hn : ∀ k s, c ≠ .uelMap k s)
    (hs : step ⟨[]⟩ z g c = .ok g') (hf : g'.fixed = g.fixed) (hm : Reading g'.mode) : Ready us g' :=
  ready_fixed h hf hm (h.inv.step ⟨[]⟩ z hc h.aft h.good (fun k s _ hk => absurd hk (hn k s)) hs) ((step_aft ⟨[]⟩ z hc h.aft).of_ok hs)

theorem _root_.Gdx.Props.Seen.ready {us : List Str} {o : Opt} {z : Cz} {g0 g : Gx} {k : Option (List Int)} (h0 : Ready us g0) (h : Seen o z g0 k g) : Ready us g := by
  induction h with
  | init => exact h0
  | dom _ h ih =>
    exact ready_step (z := z) (c := .getDomainX _) ih trivial (fun _ _ hc => by cases hc) (by show stateOf _ = _; rw [h]; rfl) (domX_fixed h)
      (by rw [domX_mode h]; exact ih.mode)
  | start _ _ h ih =>
    have hm := begins_mode h
    unfold begins at h
    split at h
    · exact ready_step (z := z) (c := .readRawStart _) ih trivial (fun _ _ hc => by cases hc) (by show stateOf _ = _; rw [h]; rfl)
        (dataReadRawStart_fix ih.auto ih.nrm h).1 hm
    · exact ready_step (z := z) (c := .readMapStart _) ih trivial (fun _ _ hc => by cases hc) (by show stateOf _ = _; rw [h]; rfl)
        (dataReadMapStart_fix ih.auto ih.nrm h).1 hm
  | read hs h ih =>
    unfold readRec at h
    split at h
    · refine ready_step (z := z) (c := .readRaw) ih trivial (fun _ _ hc => by cases hc) (by show stateOf _ = _; rw [h]; rfl)
        (dataReadRaw_fix ih.auto ih.nrm h).fix ?_
      rcases dataReadRaw_mode ih.auto h with hm | hm
      · rw [hm]; exact ih.mode
      · exact Or.inl hm
    · exact ready_step (z := z) (c := .readMap _) ih trivial (fun _ _ hc => by cases hc) (by show stateOf _ = _; rw [h]; rfl)
        (dataReadMap_fix ih.auto ((hs.fixed h0.auto h0.nrm).2 (by simp)) h).fix (by rw [dataReadMap_mode ih.auto h]; exact ih.mode)

theorem ready_idle {us : List Str} {g : Gx} (h : Ready us g) : Ready us (idle g) := by
  refine ready_fixed h rfl (Or.inl rfl) ?_ h.aft
  refine ⟨⟨h.inv.usr, h.inv.filt, fun hm => by cases hm⟩, h.inv.right, fun u _ _ => Or.inl ?_⟩
  show ReadMode Mode.rInit
  decide

theorem loaded_idle {z : Cz} {g0 g : Gx} {m : Nat} {d : SymDesc} {xs : List RawEntry} (h : Loaded z g0 m d xs) (hf : g.fixed = g0.fixed) :
    Loaded z (idle g) m d xs := by
  obtain ⟨h1, h2, ⟨s, h3, h4, h5⟩, u, h6, h7⟩ := h
  have hu : g.uel.map (fun u => (u.ents, u.usr)) = some (u.ents, u.usr) := by
    rw [show g.uel.map (fun u => (u.ents, u.usr)) = g0.uel.map (fun u => (u.ents, u.usr)) from congrArg Fixed.uel hf, h6]
    rfl
  obtain ⟨u', hu', he⟩ := Option.map_eq_some_iff.mp hu
  obtain ⟨he1, _⟩ := Prod.mk.inj he
  refine ⟨rfl, h2, ⟨s, h3, h4, ?_⟩, u', hu', by rw [he1]; exact h7⟩
  exact ⟨by rw [show (idle g).names = g0.names from congrArg Fixed.names hf]; exact h5.names,
    by rw [show (idle g).file = g0.file from congrArg Fixed.file hf]; exact h5.data, h5.typ,
    (congrArg Fixed.opn hf).trans h5.opn, (congrArg Fixed.ver hf).trans h5.ver,
    by rw [show (idle g).filters = g0.filters from congrArg Fixed.filt hf]; exact h5.filt,
    by rw [show (idle g).acros = g0.acros from congrArg Fixed.acros hf]; exact h5.acros,
    by rw [show (idle g).nextAuto = g0.nextAuto from congrArg Fixed.auto hf]; exact h5.auto,
    (congrArg Fixed.mapText hf).trans h5.text⟩

theorem targets_fixed {g0 g : Gx} {nr : Int} {m : Nat} (h : Targets g0 nr m) (hf : g.fixed = g0.fixed) : Targets (idle g) nr m := by
  obtain ⟨syms, h1, h2⟩ := h
  exact ⟨syms, (congrArg Fixed.names hf).trans h1, h2⟩

end Gdx.Diff
