import Verif.Proofs.DiffLoop
import Verif.Proofs.ReadFix

/-!
`gdxdiff`: two symbols without differences; reading the records of a symbol.
-/

namespace Gdx.Diff
open Gdx

/-! ### the loop ends without doing anything if there is no difference -/

theorem showInsert_ignored {o : Opt} {s : Sy} {c : Cmp} {first : Bool} {keys : List Int} {vals : List Dbl}
    (h : ignored o s c.o.g1 c.o.g2 vals = .ok true) : showInsert o s c first keys vals = .ok c := by
  unfold ignored at h
  obtain ⟨d, h1, h2⟩ := Res.bind_eq_ok.mp h
  unfold showInsert
  rw [h1]
  simp only [Res.bind_ok]
  rw [if_pos (by injection h2)]
  rfl

theorem bothRecs_same {o : Opt} {s : Sy} {c : Cmp} {a b : RecOut Int} (h : sameRec o s c.o.g1 c.o.g2 a.vals b.vals = .ok true) :
    bothRecs o s c a b = .ok c := by
  have hc : checkRec o s c a b = .ok (c, true) := by
    unfold sameRec at h
    unfold checkRec
    by_cases ht : s.typ = dtSet
    · rw [if_pos ht] at h ⊢
      by_cases hx : o.compText = true
      · rw [if_pos hx] at h ⊢
        obtain ⟨v1, e1, h⟩ := Res.bind_eq_ok.mp h
        obtain ⟨v2, e2, h⟩ := Res.bind_eq_ok.mp h
        obtain ⟨t1, e3, h⟩ := Res.bind_eq_ok.mp h
        obtain ⟨t2, e4, h⟩ := Res.bind_eq_ok.mp h
        simp only [e1, e2, Res.bind_ok]
        unfold checkSet
        simp only [e3, e4, Res.bind_ok]
        rw [if_pos (of_decide_eq_true (by injection h))]
        rfl
      · rw [if_neg hx]
    · rw [if_neg ht] at h ⊢
      unfold checkPar
      rw [h]
      rfl
  unfold bothRecs
  rw [hc]
  obtain ⟨x, p, st⟩ := c
  simp only [Res.bind_ok, Res.pure_eq, Status.toData, Bool.true_eq_false, false_and, if_false]

theorem cmpLoop_same {o : Opt} {s : Sy} {G1 G2 : Gx} {dim : Nat} : ∀ {n : Nat} {c : Cmp} {r1 r2 : Option (RecOut Int)} {A B : List (RecOut Int)}
    {gE1 gE2 : Gx}, Rem o G1 c.o.g1 r1 A gE1 → Rem o G2 c.o.g2 r2 B gE2 → Sorted dim A → Sorted dim B → (∀ a ∈ A, KeyOk a.key) →
    (∀ b ∈ B, KeyOk b.key) → NoDiff o s G1 G2 A B → A.length + B.length < n → cmpLoop o s n c r1 r2 = .ok (c.withG gE1 gE2)
  | 0, c, r1, r2, A, B, gE1, gE2, _, _, _, _, _, _, _, h => by omega
  | n + 1, c, r1, r2, A, B, gE1, gE2, h1, h2, hA, hB, kA, kB, hn, hf => by
    have e1 := h1.eyes
    have e2 := h2.eyes
    cases h1 with
    | done _ =>
      cases h2 with
      | done _ => rfl
      | next _ hr =>
        rename_i b B _
        obtain ⟨i1, i2⟩ := (noDiff_right (by simp)).mp hn
        obtain ⟨g', r, j1, j2⟩ := hr.step
        unfold cmpLoop
        rw [showInsert_ignored (by rw [ignored_eyes e1 e2]; exact i1)]
        simp only [Res.bind_ok, next2_eq j1]
        exact cmpLoop_same (c := c.withG c.o.g1 g') (.done e1) j2 hA hB.tail kA (fun x hx => kB x (by simp [hx])) i2 (by simpa using hf)
    | next _ hr1 =>
      rename_i a A _
      cases h2 with
      | done _ =>
        obtain ⟨i1, i2⟩ := (noDiff_left (by simp)).mp hn
        obtain ⟨g', r, j1, j2⟩ := hr1.step
        unfold cmpLoop
        rw [showInsert_ignored (by rw [ignored_eyes e1 e2]; exact i1)]
        simp only [Res.bind_ok, next1_eq j1]
        exact cmpLoop_same (c := c.withG g' c.o.g2) j2 (.done e2) hA.tail hB (fun x hx => kA x (by simp [hx])) kB i2 (by simpa using hf)
      | next _ hr2 =>
        rename_i b B _
        obtain ⟨d, hd⟩ := keyDiff_ok (kA a (by simp)) (kB b (by simp))
        obtain ⟨d1, d2, d3⟩ := keyDiff_spec ((hA.len a (by simp)).trans (hB.len b (by simp)).symm) hd
        simp only [List.length_cons] at hf
        unfold cmpLoop
        rw [hd]
        simp only [Res.bind_ok]
        by_cases hd0 : d = 0
        · have hab := d1 hd0
          rw [if_pos hd0]
          obtain ⟨i1, i2⟩ := (noDiff_both hab (fun x hx hc => absurd (hA.head x hx) (by rw [hc, hab]; exact lt_irrefl _))
            (fun y hy hc => absurd (hB.head y hy) (by rw [← hc, hab]; exact lt_irrefl _))).mp hn
          obtain ⟨g', r, j1, j2⟩ := hr1.step
          obtain ⟨g'', r', j3, j4⟩ := hr2.step
          rw [bothRecs_same (by rw [sameRec_eyes e1 e2]; exact i1)]
          simp only [Res.bind_ok, next1_eq j1, next2_eq (c := c.withG g' c.o.g2) j3]
          exact cmpLoop_same (c := c.withG g' g'') j2 j4 hA.tail hB.tail (fun x hx => kA x (by simp [hx])) (fun x hx => kB x (by simp [hx])) i2 (by omega)
        · rw [if_neg hd0]
          by_cases hd1 : d < 0
          · rw [if_pos hd1]
            have hab := d2 hd1
            obtain ⟨i1, i2⟩ := (noDiff_left (by
              intro y hy
              rcases List.mem_cons.mp hy with rfl | hy
              · exact ne_of_lt hab
              · exact ne_of_lt (lt_trans hab (hB.head y hy)))).mp hn
            obtain ⟨g', r, j1, j2⟩ := hr1.step
            rw [showInsert_ignored (by rw [ignored_eyes e1 e2]; exact i1)]
            simp only [Res.bind_ok, next1_eq j1]
            exact cmpLoop_same (c := c.withG g' c.o.g2) j2 (.next (r := b) (rs := B) (gE := gE2) e2 hr2) hA.tail hB (fun x hx => kA x (by simp [hx])) kB i2
              (by simp only [List.length_cons]; omega)
          · rw [if_neg hd1]
            have hab := d3 (by omega)
            obtain ⟨i1, i2⟩ := (noDiff_right (by
              intro x hx
              rcases List.mem_cons.mp hx with rfl | hx
              · exact (ne_of_lt hab).symm
              · exact (ne_of_lt (lt_trans hab (hA.head x hx))).symm)).mp hn
            obtain ⟨g', r, j1, j2⟩ := hr2.step
            rw [showInsert_ignored (by rw [ignored_eyes e1 e2]; exact i1)]
            simp only [Res.bind_ok, next2_eq j1]
            exact cmpLoop_same (c := c.withG c.o.g1 g') (.next (r := a) (rs := A) (gE := gE1) e1 hr1) j2 hA hB.tail kA (fun x hx => kB x (by simp [hx])) i2
              (by simp only [List.length_cons]; omega)

/-! ### reading the records of a symbol -/

theorem Eyes.of_fixed {g g' : Gx} (h : g'.fixed = g.fixed) : Eyes g g' :=
  ⟨congrArg Fixed.sv h, congrArg Fixed.acros h, congrArg Fixed.texts h⟩

theorem recs_map {o : Opt} (ho : o.matrix = false) {g0 g gE : Gx} {key : List Int} {rs : List (RecOut Int)} (h : DeliversMap g key rs gE)
    (ha : g.nextAuto ≤ 0) (hn : g.noGrow) (hf : g.fixed = g0.fixed) : Recs o g0 g key rs gE ∧ gE.fixed = g0.fixed := by
  induction h with
  | done h =>
    have f := (dataReadMap_fix ha hn h).fix.trans hf
    exact ⟨.done (by unfold readRec; rw [ho]; exact h) (.of_fixed f), f⟩
  | next h _ ih =>
    have f := dataReadMap_fix ha hn h
    obtain ⟨k1, k2⟩ := ih (by rw [RFix.auto f.fix]; exact ha) (f.noGrow hn) (f.fix.trans hf)
    exact ⟨.next (by unfold readRec; rw [ho]; exact h) (.of_fixed (f.fix.trans hf)) k1, k2⟩

theorem recs_raw {o : Opt} (ho : o.matrix = true) {g0 g gE : Gx} {rs : List (RecOut Int)} (h : DeliversRaw g rs gE)
    (ha : g.nextAuto ≤ 0) (h0 : g.nrMapped = 0) (hf : g.fixed = g0.fixed) (key : List Int) : Recs o g0 g key rs gE ∧ gE.fixed = g0.fixed := by
  induction h generalizing key with
  | done h =>
    have f := (dataReadRaw_fix ha h0 h).fix.trans hf
    exact ⟨.done (by unfold readRec; rw [ho]; exact h) (.of_fixed f), f⟩
  | next h _ ih =>
    have f := dataReadRaw_fix ha h0 h
    obtain ⟨k1, k2⟩ := ih (by rw [RFix.auto f.fix]; exact ha) ((congrArg Fixed.nrm f.fix).trans h0) (f.fix.trans hf) (RecOut.key _)
    exact ⟨.next (by unfold readRec; rw [ho]; exact h) (.of_fixed (f.fix.trans hf)) k1, k2⟩

/-- the program finds these records when it reads symbol `nr`, and the object is `gE` afterwards -/
structure Reads (o : Opt) (z : Cz) (g : Gx) (nr : Int) (dim : Nat) (A : List (RecOut Int)) (gE : Gx) : Prop where
  start : ∃ g1 r, startRead o z g nr dim = .ok (g1, r) ∧ Rem o g g1 r A gE
  sorted : Sorted dim A
  keys : ∀ a ∈ A, KeyOk a.key
  fix : gE.fixed = g.fixed

theorem reads_map {o : Opt} (ho : o.matrix = false) {z : Cz} {g g1 gE : Gx} {nr n : Int} {dim : Nat} {A : List (RecOut Int)}
    (hs : dataReadMapStart z g nr = .ok (g1, (true, n))) (hd : DeliversMap g1 (List.replicate dim 0) A gE) (ha : g.nextAuto ≤ 0) (h0 : g.nrMapped = 0)
    (hA : Sorted dim A) (hk : ∀ a ∈ A, KeyOk a.key) : Reads o z g nr dim A gE := by
  obtain ⟨f1, f2⟩ := dataReadMapStart_fix ha h0 hs
  obtain ⟨k1, k2⟩ := recs_map ho hd (by rw [RFix.auto f1]; exact ha) (f2 rfl) f1
  obtain ⟨g', r, j1, j2⟩ := k1.step
  refine ⟨⟨g', r, ?_, j2⟩, hA, hk, k2⟩
  unfold startRead
  rw [ho]
  simp only [Bool.false_eq_true, if_false, hs, Res.bind_ok, if_true]
  exact j1

theorem reads_raw {o : Opt} (ho : o.matrix = true) {z : Cz} {g g1 gE : Gx} {nr n : Int} {dim : Nat} {A : List (RecOut Int)}
    (hs : dataReadRawStart z g nr = .ok (g1, (true, n))) (hd : DeliversRaw g1 A gE) (ha : g.nextAuto ≤ 0) (h0 : g.nrMapped = 0)
    (hA : Sorted dim A) (hk : ∀ a ∈ A, KeyOk a.key) : Reads o z g nr dim A gE := by
  obtain ⟨f1, f2⟩ := dataReadRawStart_fix ha h0 hs
  obtain ⟨k1, k2⟩ := recs_raw ho hd (by rw [RFix.auto f1]; exact ha) ((congrArg Fixed.nrm f1).trans h0) f1 (List.replicate dim 0)
  obtain ⟨g', r, j1, j2⟩ := k1.step
  refine ⟨⟨g', r, ?_, j2⟩, hA, hk, k2⟩
  unfold startRead
  rw [ho]
  simp only [if_true, hs, Res.bind_ok]
  exact j1

/-! ### one symbol -/

/-- the symbol as CompareSy describes it to its local functions -/
def syOf (x : Objs) (sy1 sy2 : Int) (defs : List Dbl) : Sy :=
  ⟨(symbolInfo x.g2 sy2).name, (symbolInfo x.g1 sy1).dim.toNat, symTyp (symbolInfo x.g1 sy1).typ, (symbolInfoX x.g1 sy1).userInfo, defs⟩

theorem symbClose_keeps {z : Cz} {c c' : Cmp} (h : symbClose z c = .ok c') : c'.o.g1 = c.o.g1 ∧ c'.o.g2 = c.o.g2 ∧ c'.st = c.st ∧
    (c.opn = false → c' = c) := by
  unfold symbClose at h
  split at h
  · rename_i ho
    obtain ⟨⟨gd, b⟩, h1, h⟩ := Res.bind_eq_ok.mp h
    cases h
    exact ⟨rfl, rfl, rfl, fun hc => by rw [hc] at ho; cases ho⟩
  · cases h
    exact ⟨rfl, rfl, rfl, fun _ => rfl⟩

/-- the two symbols can be compared: same type, same dimension, domains that are not compared or the same, a default record -/
structure Comparable (o : Opt) (x : Objs) (sy1 sy2 : Int) (defs : List Dbl) : Prop where
  typ : symTyp (symbolInfo x.g1 sy1).typ = symTyp (symbolInfo x.g2 sy2).typ
  dim : (symbolInfo x.g1 sy1).dim = (symbolInfo x.g2 sy2).dim
  doms : domsDiffer o x sy1 sy2 (symbolInfo x.g1 sy1).dim.toNat = .ok (x, false)
  defs : defRecord (symTyp (symbolInfo x.g1 sy1).typ) (symbolInfoX x.g1 sy1).userInfo = .ok defs

theorem compareSy_diff {o : Opt} {z : Cz} {fuel : Nat} {x x' : Objs} {sy1 sy2 : Int} {defs : List Dbl} {r : Option (Str × Status)} {A B : List (RecOut Int)}
    {gE1 gE2 : Gx} (hc : Comparable o x sy1 sy2 defs) (h1 : Reads o z x.g1 sy1 (symbolInfo x.g1 sy1).dim.toNat A gE1)
    (h2 : Reads o z x.g2 sy2 (symbolInfo x.g1 sy1).dim.toNat B gE2) (h : compareSy o z fuel x sy1 sy2 = .ok (x', r)) :
    x'.g1 = gE1 ∧ x'.g2 = gE2 ∧ (r = none ↔ NoDiff o (syOf x sy1 sy2 defs) x.g1 x.g2 A B) ∧
      (∀ p, r = some p → p.1 = (symbolInfo x.g2 sy2).name ∧ ¬ Clean p.2) := by
  unfold compareSy at h
  dsimp only at h
  rw [if_neg (not_not.mpr hc.typ), if_neg (not_not.mpr hc.dim), hc.doms] at h
  simp only [Res.bind_ok, Bool.false_eq_true, if_false, hc.defs] at h
  obtain ⟨g1, r1, s1, m1⟩ := h1.start
  obtain ⟨g2, r2, s2, m2⟩ := h2.start
  rw [s1, s2] at h
  simp only [Res.bind_ok] at h
  obtain ⟨c1, k1, h⟩ := Res.bind_eq_ok.mp h
  obtain ⟨c2, k2, h⟩ := Res.bind_eq_ok.mp h
  generalize hst : (if 20 ≤ (symbolInfo x.g1 sy1).dim ∨ o.diffOnly = true ∧ 20 ≤ (symbolInfo x.g1 sy1).dim - 1 then Status.dim10 else Status.same) = st at k1
  have hcl : Clean st := by
    rw [← hst]
    split
    · exact Or.inr rfl
    · exact Or.inl rfl
  have hd := cmpLoop_done m1 m2 h1.sorted h2.sorted k1
  obtain ⟨q1, q2, q3, q4⟩ := symbClose_keeps k2
  have hr : c2.st = .same ∨ c2.st = .dim10 ↔ NoDiff o (syOf x sy1 sy2 defs) x.g1 x.g2 A B := by
    rw [q3]
    exact hd.clean hcl
  cases h
  refine ⟨q1.trans hd.g1, q2.trans hd.g2, ?_, ?_⟩
  · rw [← hr]
    split
    · rename_i hs
      exact ⟨fun _ => hs, fun _ => rfl⟩
    · rename_i hs
      exact ⟨fun hx => (by cases hx), fun hx => absurd hx hs⟩
  · intro p hp
    split at hp
    · cases hp
    · rename_i hs
      cases hp
      exact ⟨rfl, hs⟩

theorem compareSy_same {o : Opt} {z : Cz} {fuel : Nat} {x : Objs} {sy1 sy2 : Int} {defs : List Dbl} {A B : List (RecOut Int)}
    {gE1 gE2 : Gx} (hc : Comparable o x sy1 sy2 defs) (h1 : Reads o z x.g1 sy1 (symbolInfo x.g1 sy1).dim.toNat A gE1)
    (h2 : Reads o z x.g2 sy2 (symbolInfo x.g1 sy1).dim.toNat B gE2) (hn : NoDiff o (syOf x sy1 sy2 defs) x.g1 x.g2 A B)
    (hf : A.length + B.length < fuel) : compareSy o z fuel x sy1 sy2 = .ok ({ x with g1 := gE1, g2 := gE2 }, none) := by
  unfold compareSy
  dsimp only
  rw [if_neg (not_not.mpr hc.typ), if_neg (not_not.mpr hc.dim), hc.doms]
  simp only [Res.bind_ok, Bool.false_eq_true, if_false, hc.defs]
  obtain ⟨g1, r1, s1, m1⟩ := h1.start
  obtain ⟨g2, r2, s2, m2⟩ := h2.start
  rw [s1, s2]
  simp only [Res.bind_ok]
  generalize hst : (if 20 ≤ (symbolInfo x.g1 sy1).dim ∨ o.diffOnly = true ∧ 20 ≤ (symbolInfo x.g1 sy1).dim - 1 then Status.dim10 else Status.same) = st
  have hcl : Clean st := by
    rw [← hst]
    split
    · exact Or.inr rfl
    · exact Or.inl rfl
  have hl := cmpLoop_same (s := syOf x sy1 sy2 defs) (c := { o := { x with g1 := g1, g2 := g2 }, st := st }) m1 m2 h1.sorted h2.sorted h1.keys h2.keys hn hf
  unfold syOf at hl
  rw [hl]
  simp only [Res.bind_ok, symbClose, Cmp.withG, Bool.false_eq_true, if_false]
  rw [if_pos (show st = .same ∨ st = .dim10 from hcl)]
  rfl

end Gdx.Diff
