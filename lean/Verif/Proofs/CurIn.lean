import Verif.Proofs.Fine

/-!
Over all histories: while a symbol is being written, CurSyPtr is null or points to a symbol of the table. It is null after a Start function that
was refused (gxfile.cpp:733).
-/

namespace Gdx

def CurIn (g : Gx) : Prop := Writing g.mode → g.cur = .none ∨ ∃ n syms, g.cur = .sym (n + 1) ∧ g.names = some syms ∧ n < syms.length

theorem CurIn.not {g : Gx} (h : ¬ Writing g.mode) : CurIn g := fun hw => absurd hw h

theorem CurIn.same {g g' : Gx} (h : CurIn g) (hw : Writing g'.mode → Writing g.mode) (hc : g'.cur = g.cur) (hn : g'.names = g.names) : CurIn g' := by
  intro hm
  rw [hc, hn]
  exact h (hw hm)

/-- the table has at least as many symbols -/
theorem CurIn.grow {g g' : Gx} (h : CurIn g) (hw : Writing g'.mode → Writing g.mode) (hc : g'.cur = g.cur)
    (hn : ∀ syms, g.names = some syms → ∃ syms', g'.names = some syms' ∧ syms.length ≤ syms'.length) : CurIn g' := by
  intro hm
  rw [hc]
  rcases h (hw hm) with h | ⟨n, syms, h1, h2, h3⟩
  · exact Or.inl h
  · obtain ⟨syms', h4, h5⟩ := hn syms h2
    exact Or.inr ⟨n, syms', h1, h4, by omega⟩

theorem CurIn.doWrite {g g' : Gx} {key : List Int} {vals : List Dbl} {b : Bool} (h : doWrite g key vals = .ok (g', b)) (hg : CurIn g) : CurIn g' := by
  obtain ⟨_, _, _, syms, bad, _, _, hh⟩ := doWrite_cases h
  rcases hh with ⟨_, rfl, rfl⟩ | ⟨_, o, _, ⟨_, rfl, rfl⟩ | ⟨_, rfl, rfl⟩ | ⟨bs, l, _, ha⟩⟩
  · obtain ⟨l, hl⟩ := addErrDom_same (g.raise Err.domainViolation) (List.zipWith (fun b k => if b then -k else k) bad key) vals
    rw [hl]; exact hg.same id rfl rfl
  · obtain ⟨l, hl⟩ := addErr_same (g.raise Err.dataDuplicate) key vals
    rw [hl]; exact hg.same id rfl rfl
  · obtain ⟨l, hl⟩ := addErr_same (g.raise Err.rawNotSorted) key vals
    rw [hl]; exact hg.same id rfl rfl
  · obtain ⟨_, _, acros, acros', n, syms, s, s', e1, e2, e3, e4, e5, e6, rfl⟩ := acceptRec_cases ha
    refine hg.grow id rfl fun l hl => ?_
    rw [e4] at hl
    cases hl
    exact ⟨_, rfl, by simp⟩

theorem CurIn.prepare {g g' : Gx} {name text : Str} {dim typ ui : Int} {b : Bool} (hp : prepareWrite g name text dim typ ui = .ok (g', b)) :
    g'.cur = .none ∨ ∃ n syms, g'.cur = .sym (n + 1) ∧ g'.names = some syms ∧ n < syms.length := by
  rcases prepareWrite_cases hp with ⟨rfl, k, rfl⟩ | ⟨rfl, hm, syms, sy, h1, _, _, _, _, _, _, _, _, _, _, rfl⟩
  · exact Or.inl rfl
  · exact Or.inr ⟨syms.length, _, rfl, rfl, by simp⟩

theorem CurIn.start {g g' : Gx} {n : Int} (h : initDoWrite g n = .ok g') (m : Mode) : CurIn { g' with mode := m } := by
  obtain ⟨_, _, _, k, syms, s, e0, e1, e2, rfl⟩ := initDoWrite_ok h
  intro _
  refine Or.inr ⟨k, _, e0, rfl, ?_⟩
  rw [List.length_set]
  exact (List.getElem?_eq_some_iff.mp e2).1

theorem CurIn.step {g : Gx} (h : CurIn g) (hp : Phased g) (e : Env) (z : Cz) (c : Call) : (step e z g c).All CurIn := by
  by_cases hq : c.quiet = true
  · refine (step_tame e z g c hq hp.aft).mono ?_
    intro g' ht
    rcases ht with ht | ⟨hs, ht⟩
    · exact .not ht.notWrite.2
    · have hcur : g'.cur = g.cur := congrArg SesCore.cur hs.ses
      rcases ht with ⟨h1, _⟩ | ⟨_, h2⟩
      · refine h.grow (by rw [h1]; exact id) hcur fun syms hn => ?_
        obtain ⟨syms', h3, h4, _⟩ := hs.names syms hn
        exact ⟨syms', h3, h4⟩
      · refine .not fun hw => ?_
        rcases h2 with h2 | ⟨h2, _⟩
        · rw [h2] at hw; exact absurd hw (by decide)
        · revert hw h2
          generalize g'.mode = m
          cases m <;> decide
  · have hq : c.quiet = false := by simpa using hq
    cases c with
    | rawStart n t d ty ui =>
      refine stateOf_all ?_
      unfold dataWriteRawStart
      refine Res.All.bind' ?_
      rintro ⟨g1, ok⟩ h1
      cases ok with
      | false => exact fun _ => CurIn.prepare h1
      | true =>
        simp only [Bool.true_eq_false, if_false]
        refine Res.All.bind' ?_
        intro g2 h2
        exact CurIn.start h2 _
    | rawStartBounds n t d ty ui bs =>
      refine stateOf_all ?_
      unfold dataWriteRawStartKeyBounds
      refine Res.All.bind' ?_
      rintro ⟨g1, ok⟩ h1
      cases ok with
      | false => exact fun _ => CurIn.prepare h1
      | true =>
        simp only [Bool.true_eq_false, if_false]
        refine (?_ : Res.All _ _)
        split
        · trivial
        refine Res.All.bind' ?_
        intro g2 h2
        exact CurIn.start h2 _
    | mapStart n t d ty ui =>
      refine stateOf_all ?_
      unfold dataWriteMapStart
      refine Res.All.bind' ?_
      rintro ⟨g1, ok⟩ h1
      cases ok with
      | false => exact fun _ => CurIn.prepare h1
      | true =>
        have := CurIn.prepare h1
        exact fun _ => this
    | strStart n t d ty ui =>
      refine stateOf_all ?_
      unfold dataWriteStrStart
      refine Res.All.bind' ?_
      rintro ⟨g1, ok⟩ h1
      cases ok with
      | false => exact fun _ => CurIn.prepare h1
      | true =>
        have := CurIn.prepare h1
        exact fun _ => this
    | writeRaw k v =>
      refine stateOf_all ?_
      unfold dataWriteRaw
      generalize hg1 : (if g.mode = .wDomRaw then { g with mode := .wRaw } else g) = g1
      dsimp only
      have hx : CurIn g1 := by
        subst hg1
        split
        · rename_i hm
          exact h.same (fun _ => by rw [hm]; decide) rfl rfl
        · exact h
      rcases chk_cases g1 [.wRaw] with ⟨hm, hcc⟩ | ⟨hm, hcc⟩
      · simp only [hcc, Bool.true_eq_false, if_false]
        refine (?_ : Res.All _ _)
        cases hd : Gdx.doWrite g1 k v with
        | ub => trivial
        | ok x => exact hx.doWrite hd
      · simp only [hcc, if_true]
        exact hx.same id rfl rfl
    | writeMap k v =>
      refine stateOf_all ?_
      unfold dataWriteMap
      generalize hg1 : (if g.mode = .wDomMap then { g with mode := .wMap } else g) = g1
      dsimp only
      have hx : CurIn g1 := by
        subst hg1
        split
        · rename_i hm
          exact h.same (fun _ => by rw [hm]; decide) rfl rfl
        · exact h
      rcases chk_cases g1 [.wMap] with ⟨hm, hk⟩ | ⟨hm, hk⟩
      · rw [hk]
        simp only [Bool.true_eq_false, if_false]
        refine (?_ : Res.All _ _)
        split
        · trivial
        refine Res.All.bind' ?_
        intro u _
        refine (?_ : Res.All _ _)
        split
        · exact hx.same id rfl rfl
        · refine Res.All.bind' ?_
          intro g3 h3
          obtain ⟨_, _, _, s, s', _, _, rfl⟩ := sortAdd_ok h3
          exact hx.same id rfl rfl
      · rw [hk]
        exact hx.same id rfl rfl
    | writeStr k v =>
      refine stateOf_all ?_
      unfold dataWriteStr
      generalize hg1 : (if g.mode = .wDomStr then { g with mode := .wStr } else g) = g1
      dsimp only
      have hx : CurIn g1 := by
        subst hg1
        split
        · rename_i hm
          exact h.same (fun _ => by rw [hm]; decide) rfl rfl
        · exact h
      rcases chk_cases g1 [.wStr] with ⟨hm, hk⟩ | ⟨hm, hk⟩
      · rw [hk]
        simp only [Bool.true_eq_false, if_false]
        refine (?_ : Res.All _ _)
        split
        · trivial
        refine Res.All.bind' ?_
        intro u _
        refine Res.All.bind' ?_
        rintro ⟨u', ps, ok⟩ _
        refine (?_ : Res.All _ _)
        split
        · exact hx.same id rfl rfl
        · refine Res.All.bind' ?_
          intro g3 h3
          obtain ⟨_, _, _, s, s', _, _, rfl⟩ := sortAdd_ok h3
          exact hx.same id rfl rfl
      · rw [hk]
        exact hx.same id rfl rfl
    | writeDone =>
      refine stateOf_all ?_
      unfold dataWriteDone
      rcases chk_cases g [.wRaw, .wMap, .wStr, .wDomRaw, .wDomMap, .wDomStr] with ⟨hm, hcc⟩ | ⟨hm, hcc⟩
      · simp only [hcc, Bool.true_eq_false, if_false]
        refine (?_ : Res.All _ _)
        split
        · refine Res.All.bind' ?_
          intro g1 h1
          refine .not ?_
          rw [show g1.mode = _ from (finishBlock_sm h1).1]
          decide
        · refine Res.All.bind' ?_
          intro s h1
          refine Res.All.bind' ?_
          intro g1 h2
          refine Res.All.bind' ?_
          intro recs h3
          refine Res.All.bind' ?_
          intro g2 h4
          refine Res.All.bind' ?_
          intro g3 h5
          refine .not ?_
          rw [show g3.mode = _ from (finishBlock_sm h5).1]
          decide
      · simp only [hcc, if_true]
        exact h.same id rfl rfl
    | setDomain ids =>
      refine stateOf_all ?_
      refine (symbolSetDomain_cases g ids).mono ?_
      rintro ⟨g', b⟩ ⟨g1, ⟨_, _, _, _, _, rfl⟩, hh⟩
      rcases hh with ⟨h1, _⟩ | ⟨m, syms, s, l, e1, e2, e3, hm, h1 | h1⟩
      · have h1' : g' = _ := h1
        subst h1'
        exact h.same id rfl rfl
      all_goals
        have h1' : g' = _ := h1
        subst h1'
        refine h.grow (fun _ => ?_) rfl fun l hl => ?_
        · revert hm
          generalize g.mode = mm
          cases mm <;> decide
        · rw [e2] at hl
          cases hl
          exact ⟨_, rfl, by simp⟩
    | openWrite n i p k =>
      refine stateOf_all ?_
      unfold openWriteEx
      refine (?_ : Res.All _ _)
      split
      · exact h
      refine (?_ : Res.All _ _)
      split
      · exact h.same id rfl rfl
      refine (?_ : Res.All _ _)
      split
      · exact h.same id rfl rfl
      refine Res.All.bind' ?_
      intro hd _
      exact .not (show ¬ Writing .wInit by decide)
    | openRead d m =>
      refine stateOf_all ((openReadXX_mode z g d m).mono ?_)
      rintro x (⟨_, hx, _⟩ | ⟨_, hx | hx⟩)
      · rw [hx]; exact h
      · exact .not (by rw [hx]; decide)
      · exact .not (by rw [hx]; decide)
    | openAppend d p =>
      refine stateOf_all ?_
      unfold openAppend
      refine Res.All.bind (openReadXX_mode z _ d 0) ?_
      rintro ⟨g1, r⟩ hx
      have h1 : CurIn g1 := by
        rcases hx with ⟨_, hx, _⟩ | ⟨_, hx | hx⟩
        · have : g1 = _ := hx
          subst this
          exact h.same id rfl rfl
        · exact .not (by rw [show g1.mode = _ from hx]; decide)
        · exact .not (by rw [show g1.mode = _ from hx]; decide)
      simp only
      refine (?_ : Res.All _ _)
      split
      · exact h1
      refine (?_ : Res.All _ _)
      split
      · refine Res.All.bind (gdxClose_mode z _) ?_
        rintro ⟨g2, x⟩ h2
        exact .not (by rw [show g2.mode = _ from h2]; decide)
      · exact .not (show ¬ Writing .wInit by decide)
    | close => exact stateOf_all ((gdxClose_mode z g).mono fun x hx => .not (by rw [hx]; decide))
    | _ => cases hq

theorem CurIn.run (e : Env) (z : Cz) : ∀ (cs : List Call) (g : Gx), CurIn g → Phased g → (run e z g cs).All CurIn
  | [], _, h, _ => h
  | c :: cs, g, h, hp => by
    unfold Gdx.run
    refine Res.All.bind' ?_
    intro g1 h1
    exact CurIn.run e z cs g1 ((h.step hp e z c).of_ok h1) ((hp.step e z c).of_ok h1)

end Gdx
