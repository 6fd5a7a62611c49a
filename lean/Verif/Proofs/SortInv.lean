import Verif.Proofs.CurIn
import Verif.Proofs.SortLog
import Verif.Props.Reopen

/-!
Over all histories: while records are collected in mapped or string mode, `Coll` holds, unless CurSyPtr is null.
-/

namespace Gdx

/-- CurSyPtr and SortList are null -/
def NoCur (g : Gx) : Prop := Writing g.mode → g.cur = .none ∧ g.sort = none

theorem NoCur.not {g : Gx} (h : ¬ Writing g.mode) : NoCur g := fun hw => absurd hw h

theorem NoCur.same {g g' : Gx} (h : NoCur g) (hw : Writing g'.mode → Writing g.mode) (hc : g'.cur = g.cur) (hs : g'.sort = g.sort) : NoCur g' := by
  intro hm
  rw [hc, hs]
  exact h (hw hm)

theorem NoCur.doWrite {g g' : Gx} {key : List Int} {vals : List Dbl} {b : Bool} (h : doWrite g key vals = .ok (g', b)) (hg : NoCur g) : NoCur g' := by
  obtain ⟨_, _, _, syms, bad, _, _, hh⟩ := doWrite_cases h
  rcases hh with ⟨_, rfl, rfl⟩ | ⟨_, o, _, ⟨_, rfl, rfl⟩ | ⟨_, rfl, rfl⟩ | ⟨bs, l, _, ha⟩⟩
  · obtain ⟨l, hl⟩ := addErrDom_same (g.raise Err.domainViolation) (List.zipWith (fun b k => if b then -k else k) bad key) vals
    rw [hl]; exact hg.same id rfl rfl
  · obtain ⟨l, hl⟩ := addErr_same (g.raise Err.dataDuplicate) key vals
    rw [hl]; exact hg.same id rfl rfl
  · obtain ⟨l, hl⟩ := addErr_same (g.raise Err.rawNotSorted) key vals
    rw [hl]; exact hg.same id rfl rfl
  · obtain ⟨_, _, acros, acros', n, syms, s, s', e1, e2, e3, e4, e5, e6, rfl⟩ := acceptRec_cases ha
    exact hg.same id rfl rfl

/-- refused while a symbol is being written -/
theorem prepare_refused {g g' : Gx} {name text : Str} {dim typ ui : Int} {b : Bool} (hw : Writing g.mode)
    (hp : prepareWrite g name text dim typ ui = .ok (g', b)) : b = false ∧ g'.cur = .none ∧ g'.sort = none ∧ g'.mode = g.mode := by
  rcases prepareWrite_cases hp with ⟨rfl, k, rfl⟩ | ⟨rfl, hm, _⟩
  · exact ⟨rfl, rfl, rfl, rfl⟩
  · rw [hm] at hw; exact absurd hw (by decide)

theorem NoCur.step {g : Gx} (h : NoCur g) (hwr : Writing g.mode) (hp : Phased g) (e : Env) (z : Cz) (c : Call) : (step e z g c).All NoCur := by
  by_cases hq : c.quiet = true
  · refine (step_tame e z g c hq hp.aft).mono ?_
    intro g' ht
    rcases ht with ht | ⟨hs, ht⟩
    · exact .not ht.notWrite.2
    · have hcur : g'.cur = g.cur := congrArg SesCore.cur hs.ses
      rcases ht with ⟨h1, _⟩ | ⟨_, h2⟩
      · exact h.same (by rw [h1]; exact id) hcur (congrArg SesCore.sort hs.ses)
      · refine .not fun hw => ?_
        rcases h2 with h2 | ⟨h2, _⟩
        · rw [h2] at hw; exact absurd hw (by decide)
        · revert hw h2
          generalize g'.mode = m
          cases m <;> decide
  · have hq : c.quiet = false := by simpa using hq
    cases c with
    | rawStart n t d ty ui =>
      refine stateOf_all ?_
      unfold dataWriteRawStart
      refine Res.All.bind' ?_
      rintro ⟨g1, ok⟩ h1
      obtain ⟨rfl, h2, h3, _⟩ := prepare_refused hwr h1
      exact fun _ => ⟨h2, h3⟩
    | rawStartBounds n t d ty ui bs =>
      refine stateOf_all ?_
      unfold dataWriteRawStartKeyBounds
      refine Res.All.bind' ?_
      rintro ⟨g1, ok⟩ h1
      obtain ⟨rfl, h2, h3, _⟩ := prepare_refused hwr h1
      exact fun _ => ⟨h2, h3⟩
    | mapStart n t d ty ui =>
      refine stateOf_all ?_
      unfold dataWriteMapStart
      refine Res.All.bind' ?_
      rintro ⟨g1, ok⟩ h1
      obtain ⟨rfl, h2, h3, _⟩ := prepare_refused hwr h1
      exact fun _ => ⟨h2, h3⟩
    | strStart n t d ty ui =>
      refine stateOf_all ?_
      unfold dataWriteStrStart
      refine Res.All.bind' ?_
      rintro ⟨g1, ok⟩ h1
      obtain ⟨rfl, h2, h3, _⟩ := prepare_refused hwr h1
      exact fun _ => ⟨h2, h3⟩
    | writeRaw k v =>
      refine stateOf_all ?_
      unfold dataWriteRaw
      generalize hg1 : (if g.mode = .wDomRaw then { g with mode := .wRaw } else g) = g1
      dsimp only
      have hx : NoCur g1 := by
        subst hg1
        split
        · rename_i hm
          exact h.same (fun _ => by rw [hm]; decide) rfl rfl
        · exact h
      rcases chk_cases g1 [.wRaw] with ⟨hm, hcc⟩ | ⟨hm, hcc⟩
      · simp only [hcc, Bool.true_eq_false, if_false]
        refine (?_ : Res.All _ _)
        cases hd : Gdx.doWrite g1 k v with
        | ub => trivial
        | ok x => exact hx.doWrite hd
      · simp only [hcc, if_true]
        exact hx.same id rfl rfl
    | writeMap k v =>
      refine stateOf_all ?_
      unfold dataWriteMap
      generalize hg1 : (if g.mode = .wDomMap then { g with mode := .wMap } else g) = g1
      dsimp only
      have hx : NoCur g1 := by
        subst hg1
        split
        · rename_i hm
          exact h.same (fun _ => by rw [hm]; decide) rfl rfl
        · exact h
      rcases chk_cases g1 [.wMap] with ⟨hm, hk⟩ | ⟨hm, hk⟩
      · rw [hk]
        simp only [Bool.true_eq_false, if_false]
        refine (?_ : Res.All _ _)
        split
        · trivial
        refine Res.All.bind' ?_
        intro u _
        refine (?_ : Res.All _ _)
        split
        · exact hx.same id rfl rfl
        · refine Res.All.bind' ?_
          intro g3 h3
          obtain ⟨_, _, _, s, s', h4, _, rfl⟩ := sortAdd_ok h3
          intro hw
          exact nomatch (hx hw).2.symm.trans h4
      · rw [hk]
        exact hx.same id rfl rfl
    | writeStr k v =>
      refine stateOf_all ?_
      unfold dataWriteStr
      generalize hg1 : (if g.mode = .wDomStr then { g with mode := .wStr } else g) = g1
      dsimp only
      have hx : NoCur g1 := by
        subst hg1
        split
        · rename_i hm
          exact h.same (fun _ => by rw [hm]; decide) rfl rfl
        · exact h
      rcases chk_cases g1 [.wStr] with ⟨hm, hk⟩ | ⟨hm, hk⟩
      · rw [hk]
        simp only [Bool.true_eq_false, if_false]
        refine (?_ : Res.All _ _)
        split
        · trivial
        refine Res.All.bind' ?_
        intro u _
        refine Res.All.bind' ?_
        rintro ⟨u', ps, ok⟩ _
        refine (?_ : Res.All _ _)
        split
        · exact hx.same id rfl rfl
        · refine Res.All.bind' ?_
          intro g3 h3
          obtain ⟨_, _, _, s, s', h4, _, rfl⟩ := sortAdd_ok h3
          intro hw
          exact nomatch (hx hw).2.symm.trans h4
      · rw [hk]
        exact hx.same id rfl rfl
    | writeDone =>
      refine stateOf_all ?_
      unfold dataWriteDone
      rcases chk_cases g [.wRaw, .wMap, .wStr, .wDomRaw, .wDomMap, .wDomStr] with ⟨hm, hcc⟩ | ⟨hm, hcc⟩
      · simp only [hcc, Bool.true_eq_false, if_false]
        refine (?_ : Res.All _ _)
        split
        · refine Res.All.bind' ?_
          intro g1 h1
          refine .not ?_
          rw [show g1.mode = _ from (finishBlock_sm h1).1]
          decide
        · refine Res.All.bind' ?_
          intro s h1
          refine Res.All.bind' ?_
          intro g1 h2
          refine Res.All.bind' ?_
          intro recs h3
          refine Res.All.bind' ?_
          intro g2 h4
          refine Res.All.bind' ?_
          intro g3 h5
          refine .not ?_
          rw [show g3.mode = _ from (finishBlock_sm h5).1]
          decide
      · simp only [hcc, if_true]
        exact h.same id rfl rfl
    | setDomain ids =>
      refine stateOf_all ?_
      refine (symbolSetDomain_cases g ids).mono ?_
      rintro ⟨g', b⟩ ⟨g1, ⟨_, _, _, _, _, rfl⟩, hh⟩
      rcases hh with ⟨h1, _⟩ | ⟨m, syms, s, l, e1, e2, e3, hm, h1 | h1⟩
      · have h1' : g' = _ := h1
        subst h1'
        exact h.same id rfl rfl
      all_goals
        have h1' : g' = _ := h1
        subst h1'
        refine h.same (fun _ => ?_) rfl rfl
        revert hm
        generalize g.mode = mm
        cases mm <;> decide
    | openWrite n i p k =>
      refine stateOf_all ?_
      unfold openWriteEx
      refine (?_ : Res.All _ _)
      split
      · exact h
      refine (?_ : Res.All _ _)
      split
      · exact h.same id rfl rfl
      refine (?_ : Res.All _ _)
      split
      · exact h.same id rfl rfl
      refine Res.All.bind' ?_
      intro hd _
      exact .not (show ¬ Writing .wInit by decide)
    | openRead d m =>
      refine stateOf_all ((openReadXX_mode z g d m).mono ?_)
      rintro x (⟨_, hx, _⟩ | ⟨_, hx | hx⟩)
      · rw [hx]; exact h
      · exact .not (by rw [hx]; decide)
      · exact .not (by rw [hx]; decide)
    | openAppend d p =>
      refine stateOf_all ?_
      unfold openAppend
      refine Res.All.bind (openReadXX_mode z _ d 0) ?_
      rintro ⟨g1, r⟩ hx
      have h1 : NoCur g1 := by
        rcases hx with ⟨_, hx, _⟩ | ⟨_, hx | hx⟩
        · have : g1 = _ := hx
          subst this
          exact h.same id rfl rfl
        · exact .not (by rw [show g1.mode = _ from hx]; decide)
        · exact .not (by rw [show g1.mode = _ from hx]; decide)
      simp only
      refine (?_ : Res.All _ _)
      split
      · exact h1
      refine (?_ : Res.All _ _)
      split
      · refine Res.All.bind (gdxClose_mode z _) ?_
        rintro ⟨g2, x⟩ h2
        exact .not (by rw [show g2.mode = _ from h2]; decide)
      · exact .not (show ¬ Writing .wInit by decide)
    | close => exact stateOf_all ((gdxClose_mode z g).mono fun x hx => .not (by rw [hx]; decide))
    | _ => cases hq


/-- in which way records are written -/
def fam : Mode → Nat
  | .wRaw | .wDomRaw => 1
  | .wMap | .wDomMap => 2
  | .wStr | .wDomStr => 3
  | _ => 0

def Fam (a : Nat) (g : Gx) : Prop := fam g.mode = a ∨ fam g.mode = 0

/-- the functions that begin a symbol -/
def Call.begins : Call → Bool
  | .rawStart .. | .rawStartBounds .. | .mapStart .. | .strStart .. => true
  | _ => false

theorem Fam.not {a : Nat} {g : Gx} (h : ¬ Writing g.mode) : Fam a g := by
  right
  revert h
  generalize g.mode = m
  cases m <;> decide

theorem Fam.same {a : Nat} {g g' : Gx} (h : Fam a g) (hm : fam g'.mode = fam g.mode) : Fam a g' := by
  unfold Fam
  rw [hm]
  exact h

theorem Fam.doWrite {a : Nat} {g g' : Gx} {key : List Int} {vals : List Dbl} {b : Bool} (h : doWrite g key vals = .ok (g', b)) (hg : Fam a g) : Fam a g' := by
  obtain ⟨_, _, _, syms, bad, _, _, hh⟩ := doWrite_cases h
  rcases hh with ⟨_, rfl, rfl⟩ | ⟨_, o, _, ⟨_, rfl, rfl⟩ | ⟨_, rfl, rfl⟩ | ⟨bs, l, _, ha'⟩⟩
  · obtain ⟨l, hl⟩ := addErrDom_same (g.raise Err.domainViolation) (List.zipWith (fun b k => if b then -k else k) bad key) vals
    rw [hl]; exact hg.same rfl
  · obtain ⟨l, hl⟩ := addErr_same (g.raise Err.dataDuplicate) key vals
    rw [hl]; exact hg.same rfl
  · obtain ⟨l, hl⟩ := addErr_same (g.raise Err.rawNotSorted) key vals
    rw [hl]; exact hg.same rfl
  · obtain ⟨_, _, acros, acros', n, syms, s, s', e1, e2, e3, e4, e5, e6, rfl⟩ := acceptRec_cases ha'
    exact hg.same rfl

theorem Fam.step {a : Nat} {g : Gx} (h : Fam a g) (hp : Phased g) (e : Env) (z : Cz) (c : Call) (hst : c.begins = false) : (step e z g c).All (Fam a) := by
  by_cases hq : c.quiet = true
  · refine (step_tame e z g c hq hp.aft).mono ?_
    intro g' ht
    rcases ht with ht | ⟨hs, ht⟩
    · exact .not ht.notWrite.2
    · rcases ht with ⟨h1, _⟩ | ⟨_, h2⟩
      · exact h.same (by rw [h1])
      · refine .not fun hw => ?_
        rcases h2 with h2 | ⟨h2, _⟩
        · rw [h2] at hw; exact absurd hw (by decide)
        · revert hw h2
          generalize g'.mode = m
          cases m <;> decide
  · have hq : c.quiet = false := by simpa using hq
    cases c with
    | writeRaw k v =>
      refine stateOf_all ?_
      unfold dataWriteRaw
      generalize hg1 : (if g.mode = .wDomRaw then { g with mode := .wRaw } else g) = g1
      dsimp only
      have hx : Fam a g1 := by
        subst hg1
        split
        · rename_i hm
          exact h.same (by rw [hm]; rfl)
        · exact h
      rcases chk_cases g1 [.wRaw] with ⟨hm, hcc⟩ | ⟨hm, hcc⟩
      · simp only [hcc, Bool.true_eq_false, if_false]
        refine (?_ : Res.All _ _)
        cases hd : Gdx.doWrite g1 k v with
        | ub => trivial
        | ok x => exact hx.doWrite hd
      · simp only [hcc, if_true]
        exact hx.same rfl
    | writeMap k v =>
      refine stateOf_all ?_
      unfold dataWriteMap
      generalize hg1 : (if g.mode = .wDomMap then { g with mode := .wMap } else g) = g1
      dsimp only
      have hx : Fam a g1 := by
        subst hg1
        split
        · rename_i hm
          exact h.same (by rw [hm]; rfl)
        · exact h
      rcases chk_cases g1 [.wMap] with ⟨hm, hk⟩ | ⟨hm, hk⟩
      · rw [hk]
        simp only [Bool.true_eq_false, if_false]
        refine (?_ : Res.All _ _)
        split
        · trivial
        refine Res.All.bind' ?_
        intro u _
        refine (?_ : Res.All _ _)
        split
        · exact hx.same rfl
        · refine Res.All.bind' ?_
          intro g3 h3
          obtain ⟨_, _, _, s, s', _, _, rfl⟩ := sortAdd_ok h3
          exact hx.same rfl
      · rw [hk]
        exact hx.same rfl
    | writeStr k v =>
      refine stateOf_all ?_
      unfold dataWriteStr
      generalize hg1 : (if g.mode = .wDomStr then { g with mode := .wStr } else g) = g1
      dsimp only
      have hx : Fam a g1 := by
        subst hg1
        split
        · rename_i hm
          exact h.same (by rw [hm]; rfl)
        · exact h
      rcases chk_cases g1 [.wStr] with ⟨hm, hk⟩ | ⟨hm, hk⟩
      · rw [hk]
        simp only [Bool.true_eq_false, if_false]
        refine (?_ : Res.All _ _)
        split
        · trivial
        refine Res.All.bind' ?_
        intro u _
        refine Res.All.bind' ?_
        rintro ⟨u', ps, ok⟩ _
        refine (?_ : Res.All _ _)
        split
        · exact hx.same rfl
        · refine Res.All.bind' ?_
          intro g3 h3
          obtain ⟨_, _, _, s, s', _, _, rfl⟩ := sortAdd_ok h3
          exact hx.same rfl
      · rw [hk]
        exact hx.same rfl
    | writeDone =>
      refine stateOf_all ?_
      unfold dataWriteDone
      rcases chk_cases g [.wRaw, .wMap, .wStr, .wDomRaw, .wDomMap, .wDomStr] with ⟨hm, hcc⟩ | ⟨hm, hcc⟩
      · simp only [hcc, Bool.true_eq_false, if_false]
        refine (?_ : Res.All _ _)
        split
        · refine Res.All.bind' ?_
          intro g1 h1
          refine .not ?_
          rw [show g1.mode = _ from (finishBlock_sm h1).1]
          decide
        · refine Res.All.bind' ?_
          intro s h1
          refine Res.All.bind' ?_
          intro g1 h2
          refine Res.All.bind' ?_
          intro recs h3
          refine Res.All.bind' ?_
          intro g2 h4
          refine Res.All.bind' ?_
          intro g3 h5
          refine .not ?_
          rw [show g3.mode = _ from (finishBlock_sm h5).1]
          decide
      · simp only [hcc, if_true]
        exact h.same rfl
    | setDomain ids =>
      refine stateOf_all ?_
      refine (symbolSetDomain_cases g ids).mono ?_
      rintro ⟨g', b⟩ ⟨g1, ⟨_, _, _, _, _, rfl⟩, hh⟩
      rcases hh with ⟨h1, _⟩ | ⟨m, syms, s, l, e1, e2, e3, hm, h1 | h1⟩
      · have h1' : g' = _ := h1
        subst h1'
        exact h.same rfl
      all_goals
        have h1' : g' = _ := h1
        subst h1'
        refine h.same ?_
        first
          | rfl
          | show fam g.mode.dataOf = fam g.mode
            revert hm
            generalize g.mode = mm
            cases mm <;> decide
    | openWrite n i p k =>
      refine stateOf_all ?_
      unfold openWriteEx
      refine (?_ : Res.All _ _)
      split
      · exact h
      refine (?_ : Res.All _ _)
      split
      · exact h.same rfl
      refine (?_ : Res.All _ _)
      split
      · exact h.same rfl
      refine Res.All.bind' ?_
      intro hd _
      exact .not (show ¬ Writing .wInit by decide)
    | openRead d m =>
      refine stateOf_all ((openReadXX_mode z g d m).mono ?_)
      rintro x (⟨_, hx, _⟩ | ⟨_, hx | hx⟩)
      · rw [hx]; exact h
      · exact .not (by rw [hx]; decide)
      · exact .not (by rw [hx]; decide)
    | openAppend d p =>
      refine stateOf_all ?_
      unfold openAppend
      refine Res.All.bind (openReadXX_mode z _ d 0) ?_
      rintro ⟨g1, r⟩ hx
      have h1 : Fam a g1 := by
        rcases hx with ⟨_, hx, _⟩ | ⟨_, hx | hx⟩
        · have : g1 = _ := hx
          subst this
          exact h.same rfl
        · exact .not (by rw [show g1.mode = _ from hx]; decide)
        · exact .not (by rw [show g1.mode = _ from hx]; decide)
      simp only
      refine (?_ : Res.All _ _)
      split
      · exact h1
      refine (?_ : Res.All _ _)
      split
      · refine Res.All.bind (gdxClose_mode z _) ?_
        rintro ⟨g2, x⟩ h2
        exact .not (by rw [show g2.mode = _ from h2]; decide)
      · exact .not (show ¬ Writing .wInit by decide)
    | close => exact stateOf_all ((gdxClose_mode z g).mono fun x hx => .not (by rw [hx]; decide))
    | rawStart => cases hst
    | rawStartBounds => cases hst
    | mapStart => cases hst
    | strStart => cases hst
    | _ => cases hq


/-! ### string mode: numbers within the table -/

/-- what is remembered about an index position is within the bounds -/
structure PosIn (u : Uel) (p : StrPos) : Prop where
  idx : p.cache ≠ none → 1 ≤ p.last ∧ p.bnd.1 ≤ p.last ∧ p.last ≤ p.bnd.2
  bnd : BndOk u.ents.length p.bnd

theorem PosIn.keep {u u' : Uel} {p : StrPos} (h : PosIn u p) (hl : u.ents.length ≤ u'.ents.length) : PosIn u' p := ⟨h.idx, h.bnd.mono hl⟩

theorem PosOk.toIn {u : Uel} {p : StrPos} (h : PosOk u p) : PosIn u p where
  idx := by
    intro hc
    obtain ⟨s, hs⟩ := Option.ne_none_iff_exists'.mp hc
    exact (h.idx s hs).2
  bnd := h.bnd

theorem strPos_in {u u' : Uel} {p p' : StrPos} {s : Str} (hp : PosIn u p) (h : strPos u p s = some (u', p')) :
    u.ents.length ≤ u'.ents.length ∧ PosIn u' p' ∧ 1 ≤ p'.last ∧ p'.last ≤ u'.ents.length ∧
      p'.bnd.1 ≤ p'.last ∧ p'.last ≤ p'.bnd.2 ∧ p'.bnd.1 ≤ p.bnd.1 ∧ p.bnd.2 ≤ p'.bnd.2 := by
  unfold strPos at h
  by_cases hc : p.cache = some s
  · rw [if_pos hc] at h
    cases h
    obtain ⟨h2, h3, h4⟩ := hp.idx (by rw [hc]; exact fun hx => nomatch hx)
    exact ⟨le_refl _, hp, h2, h4.trans hp.bnd.2.2.2, h3, h4, le_refl _, le_refl _⟩
  · rw [if_neg hc] at h
    dsimp only at h
    by_cases hi : u.indexOf s = -1
    · rw [if_pos hi] at h
      by_cases hgd : goodUEL s = true
      · rw [if_pos hgd] at h
        obtain ⟨a1, _, _⟩ := addObject_new hi
        rw [a1] at h
        dsimp only at h
        cases h
        have hl : ({ u with ents := u.ents ++ [(s, -1)] } : Uel).ents.length = u.ents.length + 1 := by simp
        have hb : BndOk (u.ents.length + 1) p.bnd := hp.bnd.mono (by omega)
        obtain ⟨w1, w2, w3, w4, w5⟩ := widen_spec hb (k := (u.ents.length : Int) + 1) (by omega) (by push_cast; omega)
        refine ⟨by rw [hl]; omega, ⟨fun _ => ⟨?_, w4, w5⟩, by rw [hl]; exact w1⟩, ?_, ?_, w4, w5, w2, w3⟩
        · dsimp only; omega
        · dsimp only; omega
        · rw [hl]
      · rw [if_neg hgd] at h
        cases h
    · rw [if_neg hi] at h
      cases h
      rcases indexOf_range u s with h | ⟨h1, h2⟩
      · exact absurd h hi
      obtain ⟨w1, w2, w3, w4, w5⟩ := widen_spec hp.bnd h1 h2
      exact ⟨le_refl _, ⟨fun _ => ⟨h1, w4, w5⟩, w1⟩, h1, h2, w4, w5, w2, w3⟩

theorem strKey_in : ∀ (ps : List StrPos) (ks : List Str) (u : Uel), ps.length = ks.length → (∀ p ∈ ps, PosIn u p) →
    ∀ u' ps' ok, strKey u ps ks = .ok (u', ps', ok) → u.ents.length ≤ u'.ents.length ∧ ps'.length = ps.length ∧ (∀ p ∈ ps', PosIn u' p) ∧
      Wider (ps.map StrPos.bnd) (ps'.map StrPos.bnd) ∧
      (ok = true → (∀ k ∈ ps'.map StrPos.last, 1 ≤ k ∧ k ≤ u'.ents.length) ∧ InB (ps'.map StrPos.bnd) (ps'.map StrPos.last)) := by
  intro ps
  induction ps with
  | nil =>
    intro ks u hl _ u' ps' ok h
    cases ks with
    | nil =>
      cases h
      exact ⟨le_refl _, rfl, by simp, .nil, fun _ => ⟨by simp, .nil⟩⟩
    | cons => cases hl
  | cons p ps ih =>
    intro ks u hl hp u' ps' ok h
    cases ks with
    | nil => cases hl
    | cons k ks =>
      rw [strKey] at h
      obtain ⟨s, hs, h⟩ := Res.bind_eq_ok.mp h
      cases hx : strPos u p s with
      | none =>
        rw [hx] at h
        cases h
        exact ⟨le_refl _, rfl, hp, Wider.refl _, by simp⟩
      | some x =>
        obtain ⟨u1, p1⟩ := x
        obtain ⟨e1, e2, e4, e5, e6, e7, e8, e9⟩ := strPos_in (hp p (by simp)) hx
        rw [hx] at h
        dsimp only at h
        obtain ⟨⟨u2, ps2, ok2⟩, h2, h⟩ := Res.bind_eq_ok.mp h
        cases h
        obtain ⟨i1, i2, i3, i4, i5⟩ := ih ks u1 (by simpa using hl) (fun q hq => (hp q (by simp [hq])).keep e1) _ _ _ h2
        refine ⟨e1.trans i1, by simp [i2], ?_, .cons ⟨e8, e9⟩ i4, ?_⟩
        · intro q hq
          rcases List.mem_cons.mp hq with rfl | hq
          · exact e2.keep i1
          · exact i3 q hq
        · intro hok
          obtain ⟨j1, j2⟩ := i5 hok
          refine ⟨?_, .cons ⟨e6, e7⟩ j2⟩
          intro k hk
          rcases List.mem_cons.mp hk with rfl | hk
          · exact ⟨e4, e5.trans (by exact_mod_cast i1)⟩
          · exact j1 k hk

/-- in the string mode: what is remembered about the positions is within the bounds -/
structure StrIn (g : Gx) : Prop where
  len : g.lastStr.length = g.nd ∧ g.last.length = g.nd
  pos : ∀ u, g.uel = some u → ∀ p ∈ g.strPoss, PosIn u p

theorem StrOk.toIn {g : Gx} (h : StrOk g) : StrIn g := ⟨h.len, fun u hu p hp => (h.pos u hu p hp).toIn⟩

theorem StrIn.congr {g g' : Gx} (h : StrIn g) (h1 : g'.lastStr = g.lastStr) (h2 : g'.last = g.last) (h3 : g'.bounds = g.bounds) (h4 : g'.nd = g.nd)
    (hk : ∀ u', g'.uel = some u' → ∃ u, g.uel = some u ∧ u.ents.length ≤ u'.ents.length) : StrIn g' := by
  refine ⟨by rw [h1, h2, h4]; exact h.len, ?_⟩
  intro u' hu' p hp
  obtain ⟨u, hu, hk⟩ := hk u' hu'
  have : g'.strPoss = g.strPoss := by unfold Gx.strPoss; rw [h1, h2, h3]
  rw [this] at hp
  exact (h.pos u hu p hp).keep hk

theorem Coll.strInTotal {g : Gx} {m : Nat} {d : SymDesc} {its : List Given} {key : List Str} {vals : List Dbl} (h : Coll g m d its)
    (hp : StrIn g) (hr : StrMode g.mode) (ht : ∀ u, g.uel = some u → ((u.ents.length + key.length : Nat) : Int) ≤ 2147483391)
    (hl : key.length = g.nd) (hk : ∀ k ∈ key, ∃ t, trimR k = .ok t) (hv : vals.length = g.dataSize) :
    ∃ r, dataWriteStr g key vals = .ok r := by
  rw [dataWriteStr_eq hr]
  unfold dataWriteStr
  rw [if_neg (by show ¬ (Mode.wStr = Mode.wDomStr); decide)]
  rcases chk_cases ({ g with mode := .wStr } : Gx) [.wStr] with ⟨_, hc⟩ | ⟨hc, _⟩
  swap
  · exact absurd (List.mem_singleton.mpr rfl) hc
  simp only [hc, Bool.true_eq_false, if_false]
  rw [if_neg (not_not.mpr (show key.length = ({ g with mode := .wStr } : Gx).nd from hl))]
  obtain ⟨u, t1, t2, t3⟩ := h.tab
  rw [t1]
  simp only [need, Res.bind_ok]
  obtain ⟨⟨u', ps, ok⟩, e1⟩ := strKey_total g.strPoss key u hk
  have e2 := strKey_grow e1
  show ∃ r, (strKey u g.strPoss key >>= _) = .ok r
  rw [e1]
  simp only [Res.bind_ok]
  obtain ⟨l1, l2⟩ := strPoss_map hp.len h.beg.bl
  obtain ⟨k1, k2, k3, k4, k5⟩ := strKey_in g.strPoss key u (l1.trans hl.symm) (hp.pos u t1) u' ps ok e1
  cases ok with
  | false => exact ⟨_, rfl⟩
  | true =>
    simp only [Bool.true_eq_false, if_false]
    obtain ⟨hkeys, j2⟩ := k5 rfl
    have hsz := ht u t1
    obtain ⟨s, s1, s2, s3⟩ := h.sort
    have hl2 : (ps.map StrPos.last).length = g.nd := by rw [List.length_map, k2, l1]
    obtain ⟨s', a1, _⟩ := s2.add ⟨ps.map StrPos.last, vals⟩ ⟨hl2, fun k hk1 => by have := hkeys k hk1; omega⟩
    unfold sortAdd
    simp only [s1, need, Res.bind_ok]
    rw [if_neg, a1]
    · exact ⟨_, rfl⟩
    · push Not
      refine ⟨hv, hl2, ?_⟩
      intro k hk1
      have := hkeys k hk1
      unfold I32
      omega

/-- one record with strings, also after elements were renamed -/
theorem Coll.strIn {g g' : Gx} {m : Nat} {d : SymDesc} {its : List Given} {key : List Str} {vals : List Dbl} {b : Bool} (h : Coll g m d its)
    (hp : StrIn g) (hr : StrMode g.mode) (ht : TabFits g') (hw : dataWriteStr g key vals = .ok (g', b)) :
    StrIn g' ∧ ∃ its', Coll g' m d its' := by
  rw [dataWriteStr_eq hr] at hw
  unfold dataWriteStr at hw
  rw [if_neg (by show ¬ (Mode.wStr = Mode.wDomStr); decide)] at hw
  rcases chk_cases ({ g with mode := .wStr } : Gx) [.wStr] with ⟨_, hc⟩ | ⟨hc, _⟩
  swap
  · exact absurd (List.mem_singleton.mpr rfl) hc
  simp only [hc, Bool.true_eq_false, if_false] at hw
  split at hw
  · cases hw
  rename_i hl
  obtain ⟨u, h1, hw⟩ := Res.bind_eq_ok.mp hw
  have h1 : g.uel = some u := need_ok h1
  obtain ⟨⟨u', ps, ok⟩, h2, hw⟩ := Res.bind_eq_ok.mp hw
  have h2 : strKey u g.strPoss key = .ok (u', ps, ok) := h2
  obtain ⟨l1, l2⟩ := strPoss_map hp.len h.beg.bl
  have hl : key.length = g.nd := not_not.mp hl
  obtain ⟨k1, k2, k3, k4, k5⟩ := strKey_in g.strPoss key u (l1.trans hl.symm) (hp.pos u h1) u' ps ok h2
  rw [l2] at k4
  dsimp only at hw
  have c1 : Coll ({ g with mode := .wStr, uel := some u', lastStr := ps.map StrPos.cache, last := ps.map StrPos.last, bounds := ps.map StrPos.bnd } : Gx) m d its := by
    obtain ⟨v, t1, t2, t3⟩ := h.tab
    rw [h1] at t1
    cases t1
    refine ⟨⟨h.beg.cur, h.beg.sym, h.beg.dim, by show (ps.map StrPos.bnd).length = g.nd; rw [List.length_map, k2, l1]⟩, h.sym, h.sort, h.size, fun x hx => (h.bnd x hx).wider k4,
      ⟨u', rfl, ?_, ?_⟩, h.errs, h.doms⟩
    · intro b hb
      obtain ⟨p, p1, rfl⟩ := List.mem_map.mp hb
      exact (k3 p p1).bnd
    · intro x hx k hk
      have := t3 x hx k hk
      omega
  have p1 : StrIn ({ g with mode := .wStr, uel := some u', lastStr := ps.map StrPos.cache, last := ps.map StrPos.last, bounds := ps.map StrPos.bnd } : Gx) := by
    refine ⟨⟨?_, ?_⟩, ?_⟩
    · show (ps.map StrPos.cache).length = g.nd
      rw [List.length_map, k2, l1]
    · show (ps.map StrPos.last).length = g.nd
      rw [List.length_map, k2, l1]
    · rintro v ⟨⟩ p hp'
      unfold Gx.strPoss at hp'
      dsimp only at hp'
      rw [strPoss_of] at hp'
      exact k3 p hp'
  cases ok with
  | false =>
    simp only [if_true] at hw
    cases hw
    exact ⟨⟨p1.len, p1.pos⟩, _, c1.raise _⟩
  | true =>
    simp only [Bool.true_eq_false, if_false] at hw
    obtain ⟨g2, h3, hw⟩ := Res.bind_eq_ok.mp hw
    cases hw
    obtain ⟨j1, j2⟩ := k5 rfl
    obtain ⟨_, _, _, _, s, _, _, hg2⟩ := sortAdd_ok h3
    obtain ⟨a1, s, a2⟩ := c1.add (key := ps.map StrPos.last) (vals := vals) j2 (by rintro v ⟨⟩; exact j1)
      (by
        rintro v ⟨⟩
        exact ht u' (by rw [hg2])) h3
    refine ⟨?_, _, a1⟩
    rw [a2]
    exact ⟨p1.len, p1.pos⟩

theorem mapMode_fam {m : Mode} : MapMode m ↔ fam m = 2 := by
  unfold MapMode
  cases m <;> decide

theorem strMode_fam {m : Mode} : StrMode m ↔ fam m = 3 := by
  unfold StrMode
  cases m <;> decide

/-- While records are collected: CurSyPtr is null, or the records are in order. -/
def SortInv (g : Gx) : Prop :=
  SortMode g.mode → (g.cur = .none ∧ g.sort = none) ∨ (TabFits g → ∃ m d its, Coll g m d its ∧ (StrMode g.mode → StrIn g))

theorem SortInv.not {g : Gx} (h : ¬ SortMode g.mode) : SortInv g := fun hk => absurd hk h

/-- the table of elements does not become smaller -/
theorem TabFits.back {e : Env} {z : Cz} {g g' : Gx} {c : Call} (ht : TabFits g') (hc : c.WF) (ha : Aft g) (hr : c.opensRead = false)
    (hw : c.opensWrite = false) (hcl : c ≠ .close) (hs : step e z g c = .ok g') : TabFits g := by
  intro u hu
  obtain ⟨u', h1, h2⟩ := (show AtLeast u.ents.length g from ⟨u, hu, le_refl _⟩).step hc ha hr hw hcl hs
  have := ht u' h1
  omega

/-- a state that differs only in what does not matter -/
theorem SortInv.congr {g g' : Gx} (h : SortInv g) (hm : g'.mode = g.mode) (hs : g'.ses = g.ses) (hn : g'.names = g.names)
    (hu : g'.uel = g.uel) (hl : g'.lastStr = g.lastStr) : SortInv g' := by
  intro hk
  rw [hm] at hk
  have en := fun {α : Type} (f : SesCore → α) => congrArg f hs
  rcases h hk with h | h
  · exact Or.inl ⟨(en SesCore.cur).trans h.1, (en SesCore.sort).trans h.2⟩
  · refine Or.inr fun ht => ?_
    obtain ⟨m, d, its, h1, h2⟩ := h (by unfold TabFits; rw [← hu]; exact ht)
    refine ⟨m, d, its, h1.ses ⟨hs, by rw [hn]; exact SymsSame.refl _⟩ fun u h => ⟨u, hu.trans h, le_refl _⟩, fun hx => ?_⟩
    rw [hm] at hx
    obtain ⟨⟨a1, a2⟩, a3⟩ := h2 hx
    have hnd : g'.nd = g.nd := by unfold Gx.nd; rw [show g'.curDim = g.curDim from en SesCore.curDim]
    have hla : g'.last = g.last := en SesCore.last
    have hp : g'.strPoss = g.strPoss := by unfold Gx.strPoss; rw [hl, hla, show g'.bounds = g.bounds from en SesCore.bounds]
    exact ⟨⟨by rw [hl, hnd]; exact a1, by rw [hla, hnd]; exact a2⟩, by rw [hu, hp]; exact a3⟩

theorem sortMode_fam {m : Mode} : SortMode m ↔ fam m = 2 ∨ fam m = 3 := by
  unfold SortMode
  rw [mapMode_fam, strMode_fam]

theorem starts_refused {e : Env} {z : Cz} {g g' : Gx} {c : Call} (hst : c.begins = true) (hwr : Writing g.mode) (hs : step e z g c = .ok g') :
    g'.cur = .none ∧ g'.sort = none := by
  have : (step e z g c).All fun g' => g'.cur = .none ∧ g'.sort = none := by
    cases c with
    | rawStart n t d ty ui =>
      refine stateOf_all ?_
      unfold dataWriteRawStart
      refine Res.All.bind' ?_
      rintro ⟨g1, ok⟩ h1
      obtain ⟨rfl, h2, h3, _⟩ := prepare_refused hwr h1
      exact ⟨h2, h3⟩
    | rawStartBounds n t d ty ui bs =>
      refine stateOf_all ?_
      unfold dataWriteRawStartKeyBounds
      refine Res.All.bind' ?_
      rintro ⟨g1, ok⟩ h1
      obtain ⟨rfl, h2, h3, _⟩ := prepare_refused hwr h1
      exact ⟨h2, h3⟩
    | mapStart n t d ty ui =>
      refine stateOf_all ?_
      unfold dataWriteMapStart
      refine Res.All.bind' ?_
      rintro ⟨g1, ok⟩ h1
      obtain ⟨rfl, h2, h3, _⟩ := prepare_refused hwr h1
      exact ⟨h2, h3⟩
    | strStart n t d ty ui =>
      refine stateOf_all ?_
      unfold dataWriteStrStart
      refine Res.All.bind' ?_
      rintro ⟨g1, ok⟩ h1
      obtain ⟨rfl, h2, h3, _⟩ := prepare_refused hwr h1
      exact ⟨h2, h3⟩
    | _ => cases hst
  exact this.of_ok hs

theorem rawStarts_mode {g : Gx} (n t : Str) (d ty ui : Int) : (dataWriteRawStart g n t d ty ui).All fun r => fam r.1.mode = fam g.mode ∨ fam r.1.mode = 1 := by
  unfold dataWriteRawStart
  refine Res.All.bind' ?_
  rintro ⟨g1, ok⟩ h1
  cases ok with
  | false =>
    rcases prepareWrite_cases h1 with ⟨_, k, rfl⟩ | ⟨hx, _⟩
    · exact Or.inl rfl
    · cases hx
  | true =>
    simp only [Bool.true_eq_false, if_false]
    refine Res.All.bind' ?_
    intro g2 h2
    exact Or.inr rfl

theorem rawStartBounds_mode {g : Gx} (n t : Str) (d ty ui : Int) (bs : List (Int × Int)) :
    (dataWriteRawStartKeyBounds g n t d ty ui bs).All fun r => fam r.1.mode = fam g.mode ∨ fam r.1.mode = 1 := by
  unfold dataWriteRawStartKeyBounds
  refine Res.All.bind' ?_
  rintro ⟨g1, ok⟩ h1
  cases ok with
  | false =>
    rcases prepareWrite_cases h1 with ⟨_, k, rfl⟩ | ⟨hx, _⟩
    · exact Or.inl rfl
    · cases hx
  | true =>
    simp only [Bool.true_eq_false, if_false]
    refine (?_ : Res.All _ _)
    split
    · trivial
    refine Res.All.bind' ?_
    intro g2 h2
    exact Or.inr rfl

theorem mapStart_no {g g' : Gx} {n t : Str} {d ty ui : Int} (h : dataWriteMapStart g n t d ty ui = .ok (g', false)) : g'.mode = g.mode := by
  unfold dataWriteMapStart at h
  obtain ⟨⟨g1, ok⟩, h1, h⟩ := Res.bind_eq_ok.mp h
  cases ok with
  | false =>
    cases h
    rcases prepareWrite_cases h1 with ⟨_, k, rfl⟩ | ⟨hx, _⟩
    · rfl
    · cases hx
  | true =>
    simp only [Bool.true_eq_false, if_false] at h
    cases h

theorem strStart_no {g g' : Gx} {n t : Str} {d ty ui : Int} (h : dataWriteStrStart g n t d ty ui = .ok (g', false)) : g'.mode = g.mode := by
  unfold dataWriteStrStart at h
  obtain ⟨⟨g1, ok⟩, h1, h⟩ := Res.bind_eq_ok.mp h
  cases ok with
  | false =>
    cases h
    rcases prepareWrite_cases h1 with ⟨_, k, rfl⟩ | ⟨hx, _⟩
    · rfl
    · cases hx
  | true =>
    simp only [Bool.true_eq_false, if_false] at h
    cases h

theorem stateOf_ok {α : Type} {r : Res (Gx × α)} {g' : Gx} (h : stateOf r = .ok g') : ∃ a, r = .ok (g', a) := by
  unfold stateOf at h
  obtain ⟨⟨x, a⟩, h1, h2⟩ := Res.bind_eq_ok.mp h
  cases h2
  exact ⟨a, h1⟩

theorem SortInv.raise {g : Gx} (h : SortInv g) (k : Int) : SortInv (g.raise k) := h.congr rfl rfl rfl rfl rfl

theorem SortInv.step {e : Env} {z : Cz} {g g' : Gx} {c : Call} (h : SortInv g) (hf : Fine g) (hc : c.WF)
    (hs : step e z g c = .ok g') : SortInv g' := by
  by_cases hk : SortMode g.mode
  · have hwr := hk.writing
    have hno : g.mode ≠ .notOpen := by rintro hx; rw [hx] at hwr; exact absurd hwr (by decide)
    rcases h hk with h0 | h0
    · exact fun hk' => Or.inl ((NoCur.step (fun _ => h0) hwr hf.ph e z c).of_ok hs hk'.writing)
    by_cases hb : c.between
    · intro hk'
      refine Or.inr fun ht => ?_
      obtain ⟨c1, c2, c3⟩ := between_calls hb
      obtain ⟨m, d, its, h1, h2⟩ := h0 (ht.back hc hf.aft c1 c2 c3 hs)
      rcases h1.between hk hf.aft hb hc hs with ⟨x1, x2, x3, x4, x5, x6, x7⟩ | x
      · refine ⟨m, d, its, x1, fun hs2 => ?_⟩
        have hns : ¬ MapMode g.mode := by
          intro hx
          have := mapMode_fam.mp (x3.mpr hx)
          rw [strMode_fam.mp hs2] at this
          cases this
        refine (h2 (hk.resolve_left hns)).congr x4 x5 x6 x7 ?_
        intro u' hu'
        obtain ⟨u, hu, _, _⟩ := h1.tab
        obtain ⟨v, hv, hkk⟩ := (show AtLeast u.ents.length g from ⟨u, hu, le_refl _⟩).step hc hf.aft c1 c2 c3 hs
        rw [hu'] at hv
        cases hv
        exact ⟨u, hu, hkk⟩
      · exact absurd hk'.writing x.notWrite.2
    by_cases hst : c.begins = true
    · exact fun _ => Or.inl (starts_refused hst hwr hs)
    cases c with
    | rawStart => exact absurd rfl hst
    | rawStartBounds => exact absurd rfl hst
    | mapStart => exact absurd rfl hst
    | strStart => exact absurd rfl hst
    | setDomain ids => exact absurd (Or.inr ⟨ids, rfl⟩) hb
    | writeRaw k v =>
      obtain ⟨b, hs⟩ := stateOf_ok hs
      unfold dataWriteRaw at hs
      rw [if_neg (fun hx => by rw [hx] at hk; revert hk; rw [sortMode_fam]; rintro (h | h) <;> cases h)] at hs
      rcases chk_cases g [.wRaw] with ⟨hm, hcc⟩ | ⟨hm, hcc⟩
      · rw [List.mem_singleton] at hm
        rw [hm, sortMode_fam] at hk
        rcases hk with h | h <;> cases h
      · simp only [hcc, if_true] at hs
        cases hs
        exact h.raise _
    | writeMap k v =>
      by_cases hm : MapMode g.mode
      · intro hk'
        refine Or.inr fun ht => ?_
        have ht0 := ht.back hc hf.aft rfl rfl (by simp) hs
        obtain ⟨b, hs⟩ := stateOf_ok hs
        obtain ⟨m, d, its, h1, h2⟩ := h0 ht0
        obtain ⟨y1, _, _, u, _, _, y2⟩ := h1.map hm hf.usr ht0 hs
        refine ⟨m, d, _, y2, fun hx => ?_⟩
        have := mapMode_fam.mp y1
        rw [strMode_fam.mp hx] at this
        cases this
      · obtain ⟨b, hs⟩ := stateOf_ok hs
        unfold dataWriteMap at hs
        rw [if_neg (fun hx => hm (Or.inr hx))] at hs
        rcases chk_cases g [.wMap] with ⟨hm', hcc⟩ | ⟨hm', hcc⟩
        · exact absurd (Or.inl (List.mem_singleton.mp hm')) hm
        · simp only [hcc, if_true] at hs
          cases hs
          exact h.raise _
    | writeStr k v =>
      by_cases hm : StrMode g.mode
      · intro hk'
        refine Or.inr fun ht => ?_
        have ht0 := ht.back hc hf.aft rfl rfl (by simp) hs
        obtain ⟨b, hs⟩ := stateOf_ok hs
        obtain ⟨m, d, its, h1, h2⟩ := h0 ht0
        obtain ⟨y2, its', y3⟩ := h1.strIn (h2 hm) hm ht hs
        exact ⟨m, d, its', y3, fun _ => y2⟩
      · obtain ⟨b, hs⟩ := stateOf_ok hs
        unfold dataWriteStr at hs
        rw [if_neg (fun hx => hm (Or.inr hx))] at hs
        rcases chk_cases g [.wStr] with ⟨hm', hcc⟩ | ⟨hm', hcc⟩
        · exact absurd (Or.inl (List.mem_singleton.mp hm')) hm
        · simp only [hcc, if_true] at hs
          cases hs
          exact h.raise _
    | writeDone =>
      obtain ⟨b, hs⟩ := stateOf_ok hs
      refine .not fun hx => ?_
      rw [show g'.mode = _ from (Props.dataWriteDone_mode hwr).of_ok hs, sortMode_fam] at hx
      rcases hx with h | h <;> cases h
    | openWrite n i p k =>
      obtain ⟨b, hs⟩ := stateOf_ok hs
      unfold openWriteEx at hs
      rw [if_pos hno] at hs
      cases hs
      exact h
    | openRead d m =>
      obtain ⟨b, hs⟩ := stateOf_ok hs
      rcases (openReadXX_mode z g d m).of_ok hs with ⟨_, hx, _⟩ | ⟨hx, _⟩
      · have hx : g' = g := hx
        rw [hx]; exact h
      · exact absurd hx hno
    | openAppend d p =>
      obtain ⟨b, hs⟩ := stateOf_ok hs
      unfold openAppend at hs
      obtain ⟨⟨g1, r⟩, h1, hs⟩ := Res.bind_eq_ok.mp hs
      rcases (openReadXX_mode z _ d 0).of_ok h1 with ⟨_, hx, hy⟩ | ⟨hx, _⟩
      · have hx : g1 = { g with producer2 := p, appendActive := true } := hx
        have hy : r.1 = false := hy
        simp only [hy, if_true] at hs
        subst hx
        cases hs
        exact h.congr rfl rfl rfl rfl rfl
      · exact absurd hx hno
    | close =>
      obtain ⟨b, hs⟩ := stateOf_ok hs
      refine .not fun hx => ?_
      rw [show g'.mode = _ from (gdxClose_mode z g).of_ok hs, sortMode_fam] at hx
      rcases hx with h | h <;> cases h
    | _ => exact absurd (Or.inl rfl) hb
  · by_cases hst : c.begins = true
    · have hu : g.mode = .wInit → g.uel.isSome = true := fun hm => (hf.inv.head (hf.stat hm)).tabs.uel
      cases c with
      | rawStart n t d ty ui =>
        obtain ⟨b, hs⟩ := stateOf_ok hs
        refine .not fun hx => ?_
        rcases (rawStarts_mode n t d ty ui).of_ok hs with h1 | h1 <;> simp only at h1
        · rw [sortMode_fam, h1, ← sortMode_fam] at hx
          exact hk hx
        · rw [sortMode_fam, h1] at hx
          rcases hx with h | h <;> cases h
      | rawStartBounds n t d ty ui bs =>
        obtain ⟨b, hs⟩ := stateOf_ok hs
        refine .not fun hx => ?_
        rcases (rawStartBounds_mode n t d ty ui bs).of_ok hs with h1 | h1 <;> simp only at h1
        · rw [sortMode_fam, h1, ← sortMode_fam] at hx
          exact hk hx
        · rw [sortMode_fam, h1] at hx
          rcases hx with h | h <;> cases h
      | mapStart n t d ty ui =>
        obtain ⟨b, hs⟩ := stateOf_ok hs
        cases b with
        | false => exact .not (by rw [mapStart_no hs]; exact hk)
        | true =>
          obtain ⟨_, y1, syms, _, y2, _⟩ := Coll.mapStart hs hu
          refine fun _ => Or.inr fun _ => ⟨_, _, _, y2, fun hx => ?_⟩
          have := mapMode_fam.mp y1
          rw [strMode_fam.mp hx] at this
          cases this
      | strStart n t d ty ui =>
        obtain ⟨b, hs⟩ := stateOf_ok hs
        cases b with
        | false => exact .not (by rw [strStart_no hs]; exact hk)
        | true =>
          obtain ⟨_, y1, syms, _, y2, _, y3⟩ := Coll.strStart hs hu
          exact fun _ => Or.inr fun _ => ⟨_, _, _, y2, fun _ => y3.toIn⟩
      | _ => cases hst
    · refine .not fun hx => hk ?_
      rw [sortMode_fam] at hx ⊢
      rcases (Fam.step (a := fam g.mode) (Or.inl rfl) hf.ph e z c (by simpa using hst)).of_ok hs with h1 | h1
      · rwa [h1] at hx
      · rw [h1] at hx
        rcases hx with h | h <;> cases h

theorem SortInv.run {e : Env} {z : Cz} (hz : z.Good) {g0 : Gx} (hf0 : Fine g0) {cs : List Call} (hc : ∀ c ∈ cs, c.WF) (ho : OpensOwn z cs)
    (h : SortInv g0) {g : Gx} (hs : Gdx.run e z g0 cs = .ok g) : SortInv g := by
  induction cs generalizing g0 with
  | nil => cases hs; exact h
  | cons c cs ih =>
    unfold Gdx.run at hs
    obtain ⟨g1, h1, hs⟩ := Res.bind_eq_ok.mp hs
    have hf1 : Fine g1 := Fine.run hz (cs := [c]) (by simpa using hc c (List.mem_cons_self ..))
      (fun x hx => ho x (by rw [List.mem_singleton.mp hx]; exact List.mem_cons_self ..)) hf0 (run_one h1)
    exact ih hf1 (fun x hx => hc x (List.mem_cons_of_mem _ hx)) (fun x hx => ho x (List.mem_cons_of_mem _ hx)) (h.step hf0 (hc c (List.mem_cons_self ..)) h1) hs

end Gdx
