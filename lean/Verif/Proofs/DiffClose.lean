import Verif.Model.Diff
import Verif.Proofs.MergeClose

/-! Comments and acronyms of the difference file of gdxdiff: they are always short enough for gdxClose. -/

namespace Gdx.Props
open Gdx Gdx.Diff Gdx.Spec

theorem stateOf_all {α : Type} {r : Res (Gx × α)} {P : Gx → Prop} (h : ∀ g a, r = .ok (g, a) → P g) : (stateOf r).All P := by
  unfold stateOf
  refine Res.All.bind' fun x hx => ?_
  obtain ⟨g, a⟩ := x
  exact h g a hx

theorem regAll_closable : ∀ (ss : List Str) (g : Gx), Closable g → (regAll g ss).All Closable
  | [], _, hg => hg
  | s :: ss, g, hg => by
    unfold regAll
    refine Res.All.bind' fun a h => ?_
    obtain ⟨g1, r⟩ := a
    exact regAll_closable ss g1 (regStr_closable h hg)

theorem registerDiff_closable (o : Opt) (x : Objs) (h : Closable x.gd) : (registerDiff o x).All fun y => Closable y.gd := by
  unfold registerDiff
  split
  · exact h
  · refine Res.All.bind (regAll_closable _ _ (regStart_closable h)) ?_
    intro g hg
    exact (regDone_closable hg).same rfl rfl

theorem openSymb_closable (o : Opt) (s : Sy) (g : Gx) (h : Closable g) : (openSymb o s g).All Closable := by
  unfold openSymb
  split
  · refine Res.All.bind' fun n _ => ?_
    exact stateOf_all fun g a hr => dataWriteStrStart_closable hr h
  · split
    · exact stateOf_all fun g a hr => dataWriteStrStart_closable hr h
    · exact stateOf_all fun g a hr => dataWriteStrStart_closable hr h

theorem checkOpen_closable (o : Opt) (s : Sy) (c : Cmp) (h : Closable c.o.gd) : (checkOpen o s c).All fun y => Closable y.1.o.gd := by
  unfold checkOpen
  refine Res.All.bind (registerDiff_closable o c.o h) ?_
  intro x hx
  split
  · refine Res.All.bind (openSymb_closable o s x.gd hx) ?_
    intro g hg
    exact hg
  · exact hx

theorem diffRec_closable (g : Gx) (ks : List Str) (vs : List Dbl) (h : Closable g) : (Diff.writeRec g ks vs).All Closable := by
  unfold Diff.writeRec
  split
  · trivial
  · exact stateOf_all fun g a hr => dataWriteStr_closable hr h

theorem writeDiff_closable (o : Opt) (s : Sy) (c : Cmp) (act fld : Str) (ks : List Int) (vs : List Dbl) (h : Closable c.o.gd) :
    (writeDiff o s c act fld ks vs).All fun y => Closable y.o.gd := by
  unfold writeDiff
  refine Res.All.bind (registerDiff_closable o c.o h) ?_
  intro x hx
  refine Res.All.bind' fun _ _ => ?_
  refine Res.All.bind' fun _ _ => ?_
  refine Res.All.bind (diffRec_closable x.gd _ _ hx) ?_
  intro g hg
  exact hg

theorem writeSetDiff_closable (o : Opt) (c : Cmp) (act : Str) (ks : List Int) (t : Str) (h : Closable c.o.gd) : (writeSetDiff o c act ks t).All fun y => Closable y.o.gd := by
  unfold writeSetDiff
  refine Res.All.bind (registerDiff_closable o c.o h) ?_
  intro x hx
  refine Res.All.bind' fun _ _ => ?_
  dsimp only
  refine Res.All.bind (diffRec_closable _ _ _ (addSetText_closable t hx)) ?_
  intro g hg
  exact hg

theorem writeFields_closable (o : Opt) (s : Sy) (ks : List Int) (v1 v2 : List Dbl) : ∀ (ts : List Nat) (c : Cmp), Closable c.o.gd →
    (writeFields o s ks v1 v2 ts c).All fun y => Closable y.o.gd
  | [], _, h => h
  | t :: ts, c, h => by
    unfold writeFields
    refine Res.All.bind' fun _ _ => ?_
    refine Res.All.bind' fun _ _ => ?_
    refine Res.All.bind' fun _ _ => ?_
    refine Res.All.bind' fun _ _ => ?_
    split
    · exact writeFields_closable o s ks v1 v2 ts c h
    · refine Res.All.bind (writeDiff_closable o s c _ _ _ _ h) ?_
      intro c1 h1
      refine Res.All.bind (writeDiff_closable o s c1 _ _ _ _ h1) ?_
      intro c2 h2
      exact writeFields_closable o s ks v1 v2 ts c2 h2

theorem checkPar_closable (o : Opt) (s : Sy) (c : Cmp) (ks : List Int) (v1 v2 : List Dbl) (h : Closable c.o.gd) : (checkPar o s c ks v1 v2).All fun y => Closable y.1.o.gd := by
  unfold checkPar
  refine Res.All.bind' fun e _ => ?_
  split
  · exact h
  refine Res.All.bind (checkOpen_closable o s c h) ?_
  rintro ⟨c1, ok⟩ h1
  dsimp only at h1 ⊢
  split
  · exact h1
  split
  · refine Res.All.bind (writeFields_closable o s ks v1 v2 _ c1 h1) ?_
    intro c2 h2
    exact h2
  · refine Res.All.bind (writeDiff_closable o s c1 _ _ _ _ h1) ?_
    intro c2 h2
    refine Res.All.bind (writeDiff_closable o s c2 _ _ _ _ h2) ?_
    intro c3 h3
    exact h3

theorem checkSet_closable (o : Opt) (s : Sy) (c : Cmp) (ks : List Int) (v1 v2 : Dbl) (h : Closable c.o.gd) : (checkSet o s c ks v1 v2).All fun y => Closable y.1.o.gd := by
  unfold checkSet
  refine Res.All.bind' fun t1 _ => ?_
  refine Res.All.bind' fun t2 _ => ?_
  split
  · exact h
  refine Res.All.bind (checkOpen_closable o s c h) ?_
  rintro ⟨c1, ok⟩ h1
  dsimp only at h1 ⊢
  split
  · exact h1
  refine Res.All.bind (writeSetDiff_closable o c1 _ _ _ h1) ?_
  intro c2 h2
  refine Res.All.bind (writeSetDiff_closable o c2 _ _ _ h2) ?_
  intro c3 h3
  exact h3

theorem writeInsFields_closable (o : Opt) (s : Sy) (act : Str) (ks : List Int) (v : List Dbl) : ∀ (ts : List Nat) (c : Cmp), Closable c.o.gd →
    (writeInsFields o s act ks v ts c).All fun y => Closable y.o.gd
  | [], _, h => h
  | t :: ts, c, h => by
    unfold writeInsFields
    refine Res.All.bind' fun _ _ => ?_
    refine Res.All.bind' fun _ _ => ?_
    refine Res.All.bind (writeDiff_closable o s c _ _ _ _ h) ?_
    intro c1 h1
    exact writeInsFields_closable o s act ks v ts c1 h1

theorem insText_closable (s : Sy) (g gd : Gx) (vs : List Dbl) (h : Closable gd) : (insText s g gd vs).All fun y => Closable y.1 := by
  unfold insText
  refine Res.All.bind' fun _ _ => ?_
  split
  · refine Res.All.bind' fun n _ => ?_
    exact addSetText_closable _ h
  · exact h

theorem showInsert_closable (o : Opt) (s : Sy) (c : Cmp) (first : Bool) (ks : List Int) (vs : List Dbl) (h : Closable c.o.gd) :
    (showInsert o s c first ks vs).All fun y => Closable y.o.gd := by
  unfold showInsert
  refine Res.All.bind' fun eq _ => ?_
  split
  · exact h
  split
  · exact h
  refine Res.All.bind (checkOpen_closable o s { c with st := c.st.toKey } h) ?_
  rintro ⟨c1, ok⟩ h1
  dsimp only at h1 ⊢
  split
  · exact h1
  refine Res.All.bind (insText_closable s _ c1.o.gd vs h1) ?_
  rintro ⟨gd, vs1⟩ h2
  dsimp only at h2 ⊢
  split
  · exact writeInsFields_closable o s _ ks vs1 _ _ h2
  · exact writeDiff_closable o s _ _ _ _ _ h2

theorem next1_closable (o : Opt) (c : Cmp) (k : List Int) (h : Closable c.o.gd) : (next1 o c k).All fun y => Closable y.1.o.gd :=
  Res.All.bind' fun _ _ => h

theorem next2_closable (o : Opt) (c : Cmp) (k : List Int) (h : Closable c.o.gd) : (next2 o c k).All fun y => Closable y.1.o.gd :=
  Res.All.bind' fun _ _ => h

theorem bothRecs_closable (o : Opt) (s : Sy) (c : Cmp) (a b : RecOut Int) (h : Closable c.o.gd) : (bothRecs o s c a b).All fun y => Closable y.o.gd := by
  unfold bothRecs
  refine Res.All.bind (Q := fun y : Cmp × Bool => Closable y.1.o.gd) ?_ ?_
  · unfold checkRec
    split
    · split
      · refine Res.All.bind' fun _ _ => ?_
        refine Res.All.bind' fun _ _ => ?_
        exact checkSet_closable o s c _ _ _ h
      · exact h
    · exact checkPar_closable o s c _ _ _ h
  · rintro ⟨c1, eq⟩ h1
    exact h1

theorem cmpLoop_closable (o : Opt) (s : Sy) : ∀ (n : Nat) (c : Cmp) (r1 r2 : Option (RecOut Int)), Closable c.o.gd → (cmpLoop o s n c r1 r2).All fun y => Closable y.o.gd
  | 0, c, r1, r2, h => by cases r1 <;> cases r2 <;> trivial
  | n + 1, c, none, none, h => h
  | n + 1, c, some a, none, h => by
    unfold cmpLoop
    refine Res.All.bind (showInsert_closable o s c true _ _ h) ?_
    intro c1 h1
    refine Res.All.bind (next1_closable o c1 _ h1) ?_
    rintro ⟨c2, r⟩ h2
    exact cmpLoop_closable o s n c2 r none h2
  | n + 1, c, none, some b, h => by
    unfold cmpLoop
    refine Res.All.bind (showInsert_closable o s c false _ _ h) ?_
    intro c1 h1
    refine Res.All.bind (next2_closable o c1 _ h1) ?_
    rintro ⟨c2, r⟩ h2
    exact cmpLoop_closable o s n c2 none r h2
  | n + 1, c, some a, some b, h => by
    unfold cmpLoop
    refine Res.All.bind' fun d _ => ?_
    split
    · refine Res.All.bind (bothRecs_closable o s c a b h) ?_
      intro c1 h1
      refine Res.All.bind (next1_closable o c1 _ h1) ?_
      rintro ⟨c2, r⟩ h2
      refine Res.All.bind (next2_closable o c2 _ h2) ?_
      rintro ⟨c3, r'⟩ h3
      exact cmpLoop_closable o s n c3 r r' h3
    · split
      · refine Res.All.bind (showInsert_closable o s c true _ _ h) ?_
        intro c1 h1
        refine Res.All.bind (next1_closable o c1 _ h1) ?_
        rintro ⟨c2, r⟩ h2
        exact cmpLoop_closable o s n c2 r (some b) h2
      · refine Res.All.bind (showInsert_closable o s c false _ _ h) ?_
        intro c1 h1
        refine Res.All.bind (next2_closable o c1 _ h1) ?_
        rintro ⟨c2, r⟩ h2
        exact cmpLoop_closable o s n c2 (some a) r h2

theorem compareSy_closable (o : Opt) (z : Cz) (fuel : Nat) (x : Objs) (n n' : Int) (h : Closable x.gd) : (compareSy o z fuel x n n').All fun y => Closable y.1.gd := by
  unfold compareSy
  dsimp only
  split
  · exact h
  split
  · exact h
  refine Res.All.bind (Q := fun y : Objs × Bool => Closable y.1.gd) ?_ ?_
  · unfold domsDiffer
    split
    · refine Res.All.bind' fun _ _ => ?_
      refine Res.All.bind' fun _ _ => ?_
      exact h
    · exact h
  rintro ⟨x1, df⟩ h1
  dsimp only at h1 ⊢
  split
  · exact h1
  refine Res.All.bind' fun _ _ => ?_
  refine Res.All.bind' fun r1 _ => ?_
  refine Res.All.bind' fun r2 _ => ?_
  refine Res.All.bind (cmpLoop_closable o _ fuel _ _ _ h1) ?_
  intro c hc
  refine Res.All.bind (Q := fun y : Cmp => Closable y.o.gd) ?_ ?_
  · unfold symbClose
    split
    · refine Res.All.bind' fun a ha => ?_
      obtain ⟨g, b⟩ := a
      exact (dataWriteDone_closable ha (hc.same rfl rfl)).same rfl rfl
    · exact hc
  · intro c1 h2
    exact h2

theorem compareAll_closable (o : Opt) (z : Cz) (fuel : Nat) : ∀ (l : List (Str × Int)) (x : Objs) (t : List (Str × Status)), Closable x.gd →
    (compareAll o z fuel l x t).All fun y => Closable y.1.gd
  | [], _, _, h => h
  | (id, n) :: l, x, t, h => by
    unfold compareAll
    split
    · refine Res.All.bind (compareSy_closable o z fuel x n _ h) ?_
      rintro ⟨x1, e⟩ h1
      exact compareAll_closable o z fuel l x1 _ h1
    · exact compareAll_closable o z fuel l x _ h

/-- For all input files and options: the comments and acronyms of the difference file are short enough. -/
theorem statusTable_closable (o : Opt) (e : Env) (z : Cz) (fuel : Nat) (f1 f2 : List UInt8) :
    (statusTable o e z fuel f1 f2).All fun y => ∀ x t, y = some (x, t) → Closable x.gd := by
  unfold statusTable
  refine Res.All.bind (Q := fun y : Option Objs => ∀ x, y = some x → Closable x.gd) ?_ ?_
  · unfold prepare
    refine Res.All.bind' fun a h0 => ?_
    obtain ⟨gd, b, err⟩ := a
    have hm : Closable gd := openWrite_closable h0
    dsimp only
    split
    · intro x hx; cases hx
    refine Res.All.bind' fun y1 _ => ?_
    split
    · intro x hx; cases hx
    refine Res.All.bind' fun y2 _ => ?_
    split
    · intro x hx; cases hx
    · intro x hx
      cases hx
      exact hm.same rfl rfl
  · intro y hy
    cases y with
    | none => intro x t h; cases h
    | some x =>
      refine Res.All.bind (compareAll_closable o z fuel _ x [] (hy x rfl)) ?_
      rintro ⟨x1, t1⟩ h1
      intro x2 t2 h2
      cases h2
      exact h1

theorem finishTo_closable (z : Cz) (fuel : Nat) (gd : Gx) (in1 in2 : Str) (h : Closable gd) : (finishTo z fuel gd in1 in2).All Closable := by
  unfold finishTo
  refine Res.All.bind' fun id _ => ?_
  refine Res.All.bind' fun a h1 => ?_
  obtain ⟨g1, b⟩ := a
  dsimp only
  refine Res.All.bind (diffRec_closable _ _ _ (addSetText_closable in1 (dataWriteStrStart_closable h1 h))) ?_
  intro g2 h2
  refine Res.All.bind (diffRec_closable _ _ _ (addSetText_closable in2 h2)) ?_
  intro g3 h3
  refine Res.All.bind' fun a h4 => ?_
  obtain ⟨g4, b⟩ := a
  exact dataWriteDone_closable h4 h3

/-- closing the difference file, once the program has come that far -/
theorem diff_closes {o : Opt} {e : Env} {z : Cz} (hz : z.Good) {fuel fuel' : Nat} {f1 f2 : List UInt8} {x : Objs} {t : List (Str × Status)} {in1 in2 : Str} {G : Gx}
    (h : statusTable o e z fuel f1 f2 = .ok (some (x, t))) (hf : finishTo z fuel' x.gd in1 in2 = .ok G) (ha : After e z G) (hm : G.mode = .wInit) :
    ∃ file, finishDiff z fuel' x.gd in1 in2 = .ok file := by
  have h1 := (statusTable_closable o e z fuel f1 f2).of_ok h x t rfl
  obtain ⟨g, r, hc⟩ := (C87_close hz ha hm).mpr ((finishTo_closable z fuel' x.gd in1 in2 h1).of_ok hf)
  refine ⟨g.file, ?_⟩
  unfold finishDiff
  rw [hf, Res.bind_ok, hc]
  rfl

end Gdx.Props
