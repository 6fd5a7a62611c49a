import Verif.Proofs.RawLog

/-!
Over all histories: the writing modes occur only while a file is being written.
-/

namespace Gdx

theorem openHeader_mode (g : Gx) (l : List UInt8) : (openHeader g l).All fun x => x.1.mode = g.mode := by
  unfold openHeader
  refine Res.All.bind' ?_
  rintro ⟨b, l⟩ _
  simp only
  split
  · rfl
  split
  · rfl
  refine Res.All.bind' ?_
  rintro ⟨v, l⟩ _
  simp only
  split
  · rfl
  refine Res.All.bind' ?_
  rintro ⟨c, l⟩ _
  simp only
  refine Res.All.bind' ?_
  rintro ⟨m, l⟩ _
  simp only
  split
  · rfl
  refine Res.All.bind' ?_
  rintro ⟨ix, l⟩ _
  rfl

theorem openSyms_mode (z : Cz) (ix : Index) (g : Gx) : (openSyms z ix g).All fun x => x.1.mode = g.mode := by
  unfold openSyms
  refine Res.All.bind' ?_
  intro l _
  simp only
  split
  · rfl
  refine Res.All.bind' ?_
  rintro ⟨n, l⟩ _
  simp only
  refine Res.All.bind' ?_
  rintro ⟨syms, l⟩ _
  simp only
  split <;> split <;> rfl

theorem openUels_mode (z : Cz) (ix : Index) (g : Gx) : (openUels z ix g).All fun x => x.1.mode = g.mode := by
  unfold openUels
  refine Res.All.bind' ?_
  intro l _
  simp only
  split
  · rfl
  refine Res.All.bind' ?_
  rintro ⟨n, l⟩ _
  simp only
  refine Res.All.bind' ?_
  rintro ⟨strs, l⟩ _
  simp only
  split <;> rfl

theorem openTexts_mode (z : Cz) (ix : Index) (g : Gx) : (openTexts z ix g).All fun x => x.1.mode = g.mode := by
  unfold openTexts
  refine Res.All.bind' ?_
  intro l _
  simp only
  split
  · rfl
  refine Res.All.bind' ?_
  rintro ⟨n, l⟩ _
  simp only
  refine Res.All.bind' ?_
  rintro ⟨strs, l⟩ _
  simp only
  refine Res.All.bind' ?_
  rintro ⟨t, mp⟩ _
  simp only
  split <;> rfl

theorem openAcros_mode (z : Cz) (ix : Index) (g : Gx) : (openAcros z ix g).All fun x => x.1.mode = g.mode := by
  unfold openAcros
  refine Res.All.bind' ?_
  intro l _
  simp only
  split
  · rfl
  refine Res.All.bind' ?_
  rintro ⟨a, l⟩ _
  simp only
  split <;> rfl

theorem openDoms_mode (z : Cz) (ix : Index) (g : Gx) : (openDoms z ix g).All fun x => x.1.mode = g.mode := by
  unfold openDoms
  refine Res.All.bind' ?_
  intro l _
  simp only
  split
  · rfl
  refine Res.All.bind' ?_
  rintro ⟨n, l⟩ _
  simp only
  refine Res.All.bind' ?_
  rintro ⟨strs, l⟩ _
  simp only
  split
  · rfl
  refine Res.All.bind' ?_
  intro syms _
  refine Res.All.bind' ?_
  rintro ⟨syms, l⟩ _
  simp only
  split <;> rfl

theorem openTables_mode (z : Cz) (ix : Index) (m : Int) (g : Gx) :
    (openTables z ix m g).All fun x => x.1.mode = g.mode := by
  unfold openTables
  refine thenOk_all (P := fun x => x.mode = g.mode) (openSyms_mode z ix g) fun g1 h1 => ?_
  refine thenOk_all (P := fun x => x.mode = g.mode) ((openUels_mode z ix g1).mono fun _ h => h.trans h1) fun g2 h2 => ?_
  refine thenOk_all (P := fun x => x.mode = g.mode) ?_ fun g3 h3 => ?_
  · split
    · exact (openTexts_mode z ix g2).mono fun _ h => h.trans h2
    · exact h2
  refine thenOk_all (P := fun x => x.mode = g.mode) ?_ fun g4 h4 => ?_
  · split
    · exact (openAcros_mode z ix g3).mono fun _ h => h.trans h3
    · exact h3
  simp only
  split
  · exact (openDoms_mode z ix _).mono fun _ h => h.trans h4
  · exact h4

theorem openReadXX_mode (z : Cz) (g : Gx) (d : Disk) (m : Int) : (openReadXX z g d m).All fun x =>
    (g.mode ≠ .notOpen ∧ x.1 = g ∧ x.2.1 = false) ∨ (g.mode = .notOpen ∧ (x.1.mode = .notOpen ∨ x.1.mode = .rInit)) := by
  unfold openReadXX
  by_cases hm : g.mode = .notOpen
  swap
  · rw [if_pos hm]
    exact Or.inl ⟨hm, rfl, rfl⟩
  rw [if_neg (not_not.mpr hm)]
  refine Res.All.mono (P := fun x : Gx × (Bool × Int) => x.1.mode = .notOpen ∨ x.1.mode = .rInit) ?_ fun x hx => Or.inr ⟨hm, hx⟩
  cases d with
  | noName => exact Or.inl hm
  | ioErr e => exact Or.inl hm
  | content f =>
    refine Res.All.bind' ?_
    rintro ⟨o, l⟩ _
    simp only
    refine (?_ : Res.All _ _)
    split
    · exact Or.inl hm
    split
    · trivial
    refine Res.All.bind (openHeader_mode _ l) ?_
    rintro ⟨g1, ix⟩ h1
    cases ix with
    | none => exact Or.inl (h1.trans hm)
    | some ix =>
      refine Res.All.bind (openTables_mode z ix m g1) ?_
      rintro ⟨g2, ok⟩ h2
      simp only
      refine (?_ : Res.All _ _)
      split
      · exact Or.inl ((h2.trans h1).trans hm)
      · exact Or.inr rfl

/-- not writing, no symbol can be begun -/
def Idle (g : Gx) : Prop := g.mode ≠ .wInit ∧ ¬ Writing g.mode

theorem Idle.chk {g : Gx} (h : Idle g) (l : List Mode) (hl : ∀ m ∈ l, m = .wInit ∨ Writing m) :
    g.chk l = (g.raise Err.badMode, false) := by
  rcases chk_cases g l with ⟨hm, _⟩ | ⟨_, hc⟩
  · rcases hl _ hm with h1 | h1
    · exact absurd h1 h.1
    · exact absurd h1 h.2
  · exact hc

def SameMode (g g' : Gx) : Prop := g'.mode = g.mode ∧ g'.modeAft = g.modeAft ∧ g'.stat = g.stat

theorem Idle.start {g g' : Gx} (h : Idle g) {name text : Str} {dim typ ui : Int} {b : Bool}
    (hp : prepareWrite g name text dim typ ui = .ok (g', b)) : b = false ∧ SameMode g g' := by
  rcases prepareWrite_cases hp with ⟨rfl, k, rfl⟩ | ⟨rfl, hm, _⟩
  · exact ⟨rfl, rfl, rfl, rfl⟩
  · exact absurd hm h.1

theorem Idle.step {g : Gx} (h : Idle g) (e : Env) (z : Cz) (c : Call) (hc : c.inFile = true) (hq : c.quiet = false) :
    (step e z g c).All (SameMode g) := by
  have hr : ∀ n, SameMode g (g.raise n) := fun n => ⟨rfl, rfl, rfl⟩
  cases c with
  | rawStart n t d ty ui =>
    refine stateOf_all ?_
    unfold dataWriteRawStart
    refine Res.All.bind' ?_
    rintro ⟨g1, ok⟩ h1
    obtain ⟨rfl, h2⟩ := h.start h1
    exact h2
  | rawStartBounds n t d ty ui bs =>
    refine stateOf_all ?_
    unfold dataWriteRawStartKeyBounds
    refine Res.All.bind' ?_
    rintro ⟨g1, ok⟩ h1
    obtain ⟨rfl, h2⟩ := h.start h1
    exact h2
  | mapStart n t d ty ui =>
    refine stateOf_all ?_
    unfold dataWriteMapStart
    refine Res.All.bind' ?_
    rintro ⟨g1, ok⟩ h1
    obtain ⟨rfl, h2⟩ := h.start h1
    exact h2
  | strStart n t d ty ui =>
    refine stateOf_all ?_
    unfold dataWriteStrStart
    refine Res.All.bind' ?_
    rintro ⟨g1, ok⟩ h1
    obtain ⟨rfl, h2⟩ := h.start h1
    exact h2
  | writeRaw k v =>
    refine stateOf_all ?_
    unfold dataWriteRaw
    have hm : g.mode ≠ .wDomRaw := fun hx => h.2 (by rw [hx]; decide)
    simp only [if_neg hm, h.chk [.wRaw] (by decide)]
    exact hr _
  | writeMap k v =>
    refine stateOf_all ?_
    unfold dataWriteMap
    have hm : g.mode ≠ .wDomMap := fun hx => h.2 (by rw [hx]; decide)
    simp only [if_neg hm, h.chk [.wMap] (by decide)]
    exact hr _
  | writeStr k v =>
    refine stateOf_all ?_
    unfold dataWriteStr
    have hm : g.mode ≠ .wDomStr := fun hx => h.2 (by rw [hx]; decide)
    simp only [if_neg hm, h.chk [.wStr] (by decide)]
    exact hr _
  | writeDone =>
    refine stateOf_all ?_
    unfold dataWriteDone
    simp only [h.chk [.wRaw, .wMap, .wStr, .wDomRaw, .wDomMap, .wDomStr] (by decide)]
    exact hr _
  | setDomain ids =>
    refine stateOf_all ?_
    unfold symbolSetDomain
    simp only [h.chk [.wDomRaw, .wDomMap, .wDomStr] (by decide)]
    exact hr _
  | openWrite => cases hc
  | openRead => cases hc
  | openAppend => cases hc
  | close => cases hc
  | _ => cases hq

/-! ### writing calls outside of element registration keep modeAft, never enter element registration -/

theorem initDoWrite_sm {g g' : Gx} {n : Int} (h : initDoWrite g n = .ok g') : SameMode g g' := by
  obtain ⟨_, _, _, _, _, _, _, _, _, rfl⟩ := initDoWrite_ok h
  exact ⟨rfl, rfl, rfl⟩

theorem doWrite_sm {g g' : Gx} {key : List Int} {vals : List Dbl} {b : Bool} (h : doWrite g key vals = .ok (g', b)) : SameMode g g' := by
  obtain ⟨_, _, _, syms, bad, _, _, hh⟩ := doWrite_cases h
  rcases hh with ⟨_, rfl, rfl⟩ | ⟨_, o, _, ⟨_, rfl, rfl⟩ | ⟨_, rfl, rfl⟩ | ⟨bs, l, _, ha⟩⟩
  · obtain ⟨l, hl⟩ := addErrDom_same (g.raise Err.domainViolation) (List.zipWith (fun b k => if b then -k else k) bad key) vals
    rw [hl]
    exact ⟨rfl, rfl, rfl⟩
  · obtain ⟨l, hl⟩ := addErr_same (g.raise Err.dataDuplicate) key vals
    rw [hl]
    exact ⟨rfl, rfl, rfl⟩
  · obtain ⟨l, hl⟩ := addErr_same (g.raise Err.rawNotSorted) key vals
    rw [hl]
    exact ⟨rfl, rfl, rfl⟩
  · obtain ⟨rfl, hmax, acros, acros', n, syms, s, s', e1, e2, e3, e4, e5, e6, rfl⟩ := acceptRec_cases ha
    exact ⟨rfl, rfl, rfl⟩

theorem SameMode.trans {a b c : Gx} (h : SameMode a b) (k : SameMode b c) : SameMode a c :=
  ⟨k.1.trans h.1, k.2.1.trans h.2.1, k.2.2.trans h.2.2⟩

theorem doWrites_sm : ∀ (l : List (LItem (List Dbl))) (g g' : Gx), doWrites g l = .ok g' → SameMode g g'
  | [], g, g', h => by cases h; exact ⟨rfl, rfl, rfl⟩
  | r :: l, g, g', h => by
    obtain ⟨⟨g1, b⟩, h1, h⟩ := Res.bind_eq_ok.mp h
    exact (doWrite_sm h1).trans (doWrites_sm l g1 g' h)

/-- a file is being written and no elements are being registered -/
def Active (g : Gx) : Prop := g.mode = .wInit ∨ Writing g.mode

def StaysActive (g g' : Gx) : Prop := Active g' ∧ g'.stat = g.stat

theorem SameMode.active {g g' : Gx} (h : SameMode g g') (ha : Active g) : StaysActive g g' := by
  unfold StaysActive Active
  rw [h.1]
  exact ⟨ha, h.2.2⟩

theorem prepareWrite_sm {g g' : Gx} {name text : Str} {dim typ ui : Int} {b : Bool}
    (hp : prepareWrite g name text dim typ ui = .ok (g', b)) : SameMode g g' := by
  rcases prepareWrite_cases hp with ⟨rfl, k, rfl⟩ | ⟨rfl, hm, syms, sy, h1, _, _, _, _, _, _, _, _, _, _, rfl⟩
  · exact ⟨rfl, rfl, rfl⟩
  · exact ⟨rfl, rfl, rfl⟩

theorem sortAdd_sm {g g' : Gx} {key : List Int} {vals : List Dbl} (h : sortAdd g key vals = .ok g') : SameMode g g' := by
  obtain ⟨_, _, _, s, s', _, _, rfl⟩ := sortAdd_ok h
  exact ⟨rfl, rfl, rfl⟩

theorem finishBlock_sm {z : Cz} {g g' : Gx} (h : finishBlock z g = .ok g') : g'.mode = .wInit ∧ g'.stat = g.stat := by
  obtain ⟨h0, m', syms, s, e1, e2, e3, rfl⟩ := finishBlock_ok h
  exact ⟨rfl, rfl⟩

theorem Active.step {g : Gx} (h : Active g) (e : Env) (z : Cz) (c : Call) (hc : c.inFile = true) (hq : c.quiet = false) :
    (step e z g c).All (StaysActive g) := by
  have hr : ∀ n, StaysActive g (g.raise n) := fun n => ⟨h, rfl⟩
  cases c with
  | rawStart n t d ty ui =>
    refine stateOf_all ?_
    unfold dataWriteRawStart
    refine Res.All.bind' ?_
    rintro ⟨g1, ok⟩ h1
    have a1 := prepareWrite_sm h1
    cases ok with
    | false => exact a1.active h
    | true =>
      simp only [Bool.true_eq_false, if_false]
      refine Res.All.bind' ?_
      intro g2 h2
      exact ⟨Or.inr (show Writing .wDomRaw by decide), (initDoWrite_sm h2).2.2.trans a1.2.2⟩
  | rawStartBounds n t d ty ui bs =>
    refine stateOf_all ?_
    unfold dataWriteRawStartKeyBounds
    refine Res.All.bind' ?_
    rintro ⟨g1, ok⟩ h1
    have a1 := prepareWrite_sm h1
    cases ok with
    | false => exact a1.active h
    | true =>
      simp only [Bool.true_eq_false, if_false]
      refine (?_ : Res.All _ _)
      split
      · trivial
      refine Res.All.bind' ?_
      intro g2 h2
      exact ⟨Or.inr (show Writing .wDomRaw by decide), (initDoWrite_sm h2).2.2.trans a1.2.2⟩
  | mapStart n t d ty ui =>
    refine stateOf_all ?_
    unfold dataWriteMapStart
    refine Res.All.bind' ?_
    rintro ⟨g1, ok⟩ h1
    have a1 := prepareWrite_sm h1
    cases ok with
    | false => exact a1.active h
    | true => exact ⟨Or.inr (show Writing .wDomMap by decide), a1.2.2⟩
  | strStart n t d ty ui =>
    refine stateOf_all ?_
    unfold dataWriteStrStart
    refine Res.All.bind' ?_
    rintro ⟨g1, ok⟩ h1
    have a1 := prepareWrite_sm h1
    cases ok with
    | false => exact a1.active h
    | true => exact ⟨Or.inr (show Writing .wDomStr by decide), a1.2.2⟩
  | writeRaw k v =>
    refine stateOf_all ?_
    unfold dataWriteRaw
    generalize hg1 : (if g.mode = .wDomRaw then { g with mode := .wRaw } else g) = g1
    dsimp only
    have hx : StaysActive g g1 := by
      subst hg1
      split
      · exact ⟨Or.inr (show Writing .wRaw by decide), rfl⟩
      · exact ⟨h, rfl⟩
    rcases chk_cases g1 [.wRaw] with ⟨hm, hcc⟩ | ⟨hm, hcc⟩
    · simp only [hcc, Bool.true_eq_false, if_false]
      refine (?_ : Res.All _ _)
      cases hd : doWrite g1 k v with
      | ub => trivial
      | ok x =>
        obtain ⟨g2, b⟩ := x
        have := doWrite_sm hd
        exact ⟨(this.active hx.1).1, this.2.2.trans hx.2⟩
    · simp only [hcc, if_true]
      exact ⟨hx.1, hx.2⟩
  | writeMap k v =>
    refine stateOf_all ?_
    unfold dataWriteMap
    generalize hg1 : (if g.mode = .wDomMap then { g with mode := .wMap } else g) = g1
    dsimp only
    have hx : StaysActive g g1 := by
      subst hg1
      split
      · exact ⟨Or.inr (show Writing .wMap by decide), rfl⟩
      · exact ⟨h, rfl⟩
    have hcl : ∀ g2 : Gx, SameMode g1 g2 → StaysActive g g2 := fun g2 h2 => ⟨(h2.active hx.1).1, h2.2.2.trans hx.2⟩
    rcases chk_cases g1 [.wMap] with ⟨hm, hk⟩ | ⟨hm, hk⟩
    · rw [hk]
      simp only [Bool.true_eq_false, if_false]
      refine (?_ : Res.All _ _)
      split
      · trivial
      refine Res.All.bind' ?_
      intro u _
      refine (?_ : Res.All _ _)
      split
      · exact hcl _ ⟨rfl, rfl, rfl⟩
      · refine Res.All.bind' ?_
        intro g3 h3
        have h4 := sortAdd_sm h3
        exact hcl _ ⟨h4.1, h4.2.1, h4.2.2⟩
    · rw [hk]
      exact hcl _ ⟨rfl, rfl, rfl⟩
  | writeStr k v =>
    refine stateOf_all ?_
    unfold dataWriteStr
    generalize hg1 : (if g.mode = .wDomStr then { g with mode := .wStr } else g) = g1
    dsimp only
    have hx : StaysActive g g1 := by
      subst hg1
      split
      · exact ⟨Or.inr (show Writing .wStr by decide), rfl⟩
      · exact ⟨h, rfl⟩
    have hcl : ∀ g2 : Gx, SameMode g1 g2 → StaysActive g g2 := fun g2 h2 => ⟨(h2.active hx.1).1, h2.2.2.trans hx.2⟩
    rcases chk_cases g1 [.wStr] with ⟨hm, hk⟩ | ⟨hm, hk⟩
    · rw [hk]
      simp only [Bool.true_eq_false, if_false]
      refine (?_ : Res.All _ _)
      split
      · trivial
      refine Res.All.bind' ?_
      intro u _
      refine Res.All.bind' ?_
      rintro ⟨u', ps, ok⟩ _
      refine (?_ : Res.All _ _)
      split
      · exact hcl _ ⟨rfl, rfl, rfl⟩
      · refine Res.All.bind' ?_
        intro g3 h3
        have h4 := sortAdd_sm h3
        exact hcl _ ⟨h4.1, h4.2.1, h4.2.2⟩
    · rw [hk]
      exact hcl _ ⟨rfl, rfl, rfl⟩
  | writeDone =>
    refine stateOf_all ?_
    unfold dataWriteDone
    rcases chk_cases g [.wRaw, .wMap, .wStr, .wDomRaw, .wDomMap, .wDomStr] with ⟨hm, hcc⟩ | ⟨hm, hcc⟩
    · simp only [hcc, Bool.true_eq_false, if_false]
      refine (?_ : Res.All _ _)
      split
      · refine Res.All.bind' ?_
        intro g1 h1
        have := finishBlock_sm h1
        exact ⟨Or.inl this.1, this.2⟩
      · refine Res.All.bind' ?_
        intro s h1
        refine Res.All.bind' ?_
        intro g1 h2
        refine Res.All.bind' ?_
        intro recs h3
        refine Res.All.bind' ?_
        intro g2 h4
        refine Res.All.bind' ?_
        intro g3 h5
        have a1 := initDoWrite_sm h2
        have a2 := doWrites_sm _ _ _ h4
        have a3 := finishBlock_sm h5
        exact ⟨Or.inl a3.1, a3.2.trans (a2.2.2.trans a1.2.2)⟩
    · simp only [hcc, if_true]
      exact hr _
  | setDomain ids =>
    refine stateOf_all ?_
    refine (symbolSetDomain_cases g ids).mono ?_
    rintro ⟨g', b⟩ ⟨g1, ⟨_, _, _, _, _, rfl⟩, hh⟩
    rcases hh with ⟨h1, _⟩ | ⟨m, syms, s, l, _, _, _, hm, h1 | h1⟩
    · have h1' : g' = _ := h1
      subst h1'
      exact ⟨h, rfl⟩
    · have h1' : g' = _ := h1
      subst h1'
      exact ⟨h, rfl⟩
    · have h1' : g' = _ := h1
      subst h1'
      refine ⟨Or.inr ?_, rfl⟩
      show Writing g.mode.dataOf
      revert hm
      generalize g.mode = mm
      cases mm <;> decide
  | openWrite => cases hc
  | openRead => cases hc
  | openAppend => cases hc
  | close => cases hc
  | _ => cases hq

/-! ### all calls -/

/-- the modes of writing occur only while a file is being written; element registration goes back to a known mode -/
structure Phased (g : Gx) : Prop where
  aft : AftOk g
  stat : Calm g ∨ Writing g.mode → g.stat = .write

theorem Phased.new : Phased Gx.new where
  aft := fun h => absurd (show ElemMode .notOpen from h) (by decide)
  stat := by
    rintro ((h | ⟨h, _⟩) | h)
    · exact absurd (show Mode.notOpen = .wInit from h) (by decide)
    · exact absurd (show ElemMode .notOpen from h) (by decide)
    · exact absurd (show Writing .notOpen from h) (by decide)

theorem Phased.of_notOpen {g : Gx} (h : g.mode = .notOpen) : Phased g where
  aft := fun he => by rw [h] at he; exact absurd he (by decide)
  stat := by
    rintro ((h' | ⟨h', _⟩) | h')
    · rw [h] at h'; cases h'
    · rw [h] at h'; exact absurd h' (by decide)
    · rw [h] at h'; exact absurd h' (by decide)

theorem Phased.of_read {g : Gx} (h : InRead g) : Phased g where
  aft := h.aftOk
  stat := by
    rintro (h' | h')
    · exact absurd h' h.notCalm
    · exact absurd h' h.notWrite.2

theorem Phased.same {g g' : Gx} (h : Phased g) (hs : SameMode g g') : Phased g' where
  aft := by
    unfold AftOk
    rw [hs.1, hs.2.1]
    exact h.aft
  stat := by
    unfold Calm
    rw [hs.1, hs.2.1, hs.2.2]
    exact h.stat

theorem Phased.of_active {g : Gx} (h : Active g) (hs : g.stat = .write) : Phased g where
  aft := by
    intro he
    rcases h with h | h
    · rw [h] at he; exact absurd he (by decide)
    · exact absurd he h.ne
  stat := fun _ => hs

theorem gdxClose_mode (z : Cz) (g : Gx) : (gdxClose z g).All fun x => x.1.mode = .notOpen := by
  unfold gdxClose
  refine Res.All.bind' ?_
  intro g1 _
  refine Res.All.bind' ?_
  intro g2 _
  rfl

theorem Phased.step {g : Gx} (h : Phased g) (e : Env) (z : Cz) (c : Call) : (step e z g c).All Phased := by
  by_cases hf : c.inFile = true
  · by_cases hq : c.quiet = true
    · refine (step_tame e z g c hq h.aft).mono ?_
      intro g' ht
      refine ⟨ht.aftOk h.aft, ?_⟩
      rcases ht with ht | ⟨hs, ht⟩
      · exact (Phased.of_read ht).stat
      · have hst : g'.stat = g.stat := congrArg SesCore.stat hs.ses
        rcases ht with ⟨h1, h2⟩ | ⟨h1, _⟩
        · exact (h.same ⟨h1, h2, hst⟩).stat
        · intro _
          rw [hst]
          exact h.stat (Or.inl h1)
    · have hq : c.quiet = false := by simpa using hq
      by_cases ha : Active g
      · have hst : g.stat = .write := h.stat (by
          rcases ha with ha | ha
          · exact Or.inl (Or.inl ha)
          · exact Or.inr ha)
        refine (ha.step e z c hf hq).mono ?_
        intro g' hg
        exact Phased.of_active hg.1 (hg.2.trans hst)
      · have hi : Idle g := ⟨fun hx => ha (Or.inl hx), fun hx => ha (Or.inr hx)⟩
        exact (hi.step e z c hf hq).mono fun g' hg => h.same hg
  · cases c with
    | openWrite n i p k =>
      refine stateOf_all ?_
      unfold openWriteEx
      refine (?_ : Res.All _ _)
      split
      · exact h
      refine (?_ : Res.All _ _)
      split
      · exact h.same ⟨rfl, rfl, rfl⟩
      refine (?_ : Res.All _ _)
      split
      · exact h.same ⟨rfl, rfl, rfl⟩
      refine Res.All.bind' ?_
      intro hd _
      exact Phased.of_active (Or.inl rfl) rfl
    | openRead d m =>
      refine stateOf_all ((openReadXX_mode z g d m).mono ?_)
      rintro x (⟨_, hx, _⟩ | ⟨_, hx | hx⟩)
      · rw [hx]; exact h
      · exact Phased.of_notOpen hx
      · exact Phased.of_read (Or.inl (by rw [hx]; decide))
    | openAppend d p =>
      refine stateOf_all ?_
      unfold openAppend
      refine Res.All.bind (openReadXX_mode z _ d 0) ?_
      rintro ⟨g1, r⟩ hx
      have h1 : Phased g1 := by
        rcases hx with ⟨_, hx, _⟩ | ⟨_, hx | hx⟩
        · have : g1 = _ := hx
          subst this
          exact h.same ⟨rfl, rfl, rfl⟩
        · exact Phased.of_notOpen hx
        · exact Phased.of_read (Or.inl (by have : g1.mode = _ := hx; rw [this]; decide))
      simp only
      refine (?_ : Res.All _ _)
      split
      · exact h1
      refine (?_ : Res.All _ _)
      split
      · refine Res.All.bind (gdxClose_mode z _) ?_
        rintro ⟨g2, x⟩ h2
        exact Phased.of_notOpen h2
      · exact Phased.of_active (Or.inl rfl) rfl
    | close => exact stateOf_all ((gdxClose_mode z g).mono fun x hx => Phased.of_notOpen hx)
    | _ => exact absurd rfl hf

theorem Phased.run (e : Env) (z : Cz) : ∀ (cs : List Call) (g : Gx), Phased g → (run e z g cs).All Phased
  | [], g, h => h
  | c :: cs, g, h => by
    unfold Gdx.run
    refine Res.All.bind (h.step e z c) ?_
    intro g1 h1
    exact Phased.run e z cs g1 h1

end Gdx
