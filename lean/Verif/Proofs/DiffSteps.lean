import Verif.Proofs.DiffEvents

/-!
`gdxdiff`: the comparison of two symbols writes their differences.
-/

namespace Gdx.Diff
open Gdx Gdx.Spec Gdx.Props
open Gdx.Merge (Out namesOf textsOf Label GoodLabel HasText)

/-- the status after the entries `W` -/
def stOf (dim : Nat) (W : List Ev) : Status :=
  if 20 ≤ dim then (if W = [] then .dim10 else .dim10diff)
  else match W with
  | [] => .same
  | w :: _ => if w.ins then .key else .data

theorem stOf_append {dim : Nat} {W : List Ev} (h : W ≠ []) (V : List Ev) : stOf dim (W ++ V) = stOf dim W := by
  cases W with
  | nil => exact absurd rfl h
  | cons w W => rfl

theorem stOf_low {dim : Nat} (hd : dim < 20) (W : List Ev) : stOf dim W ≠ .dim10 ∧ stOf dim W ≠ .dim10diff ∧ (stOf dim W = .same ↔ W = []) := by
  unfold stOf
  rw [if_neg (by omega)]
  cases W with
  | nil => simp
  | cons w W =>
    dsimp only
    split <;> simp

theorem Ground.withG {e : Env} {z : Cz} {A N L T : List Str} {x y : Objs} (h : Ground e z A N L T x) (h1 : y.gd = x.gd) (h2 : y.uels = x.uels) (h3 : y.reg = x.reg) :
    Ground e z A N L T y :=
  ⟨by rw [h1]; exact h.out, h2.trans h.uels, by rw [h1, h3]; exact h.tab, h.sub⟩

section
variable (o : Opt) (e : Env) (z : Cz) (A N L0 T0 : List Str) (s : Sy) (G1 G2 b : Gx)

/-- the entries `W` are written -/
structure Stage (W : List Ev) (c : Cmp) : Prop where
  uels : c.o.uels = A
  idle : W = [] ∨ 20 ≤ s.dim → c.opn = false ∧ StaysIn e z b c.o.gd ∧ ∃ L, Ground e z A N L T0 c.o ∧ L0 <+: L
  busy : ¬ (W = [] ∨ 20 ≤ s.dim) → c.opn = true ∧ c.o.reg = true ∧ Writes o e z A N L0 T0 s G1 G2 b W c.o.gd

/-- … and the status is the one of these entries -/
structure Prog (W : List Ev) (c : Cmp) : Prop where
  stage : Stage o e z A N L0 T0 s G1 G2 b W c
  st : c.st = stOf s.dim W

end

section
variable {o : Opt} {e : Env} {z : Cz} {A N L0 T0 : List Str} {s : Sy} {G1 G2 b : Gx}

theorem Prog.withG {W : List Ev} {c : Cmp} (h : Prog o e z A N L0 T0 s G1 G2 b W c) (g1 g2 : Gx) : Prog o e z A N L0 T0 s G1 G2 b W (c.withG g1 g2) := by
  refine ⟨⟨h.stage.uels, fun hi => ?_, h.stage.busy⟩, h.st⟩
  obtain ⟨h1, h2, L, h3, h4⟩ := h.stage.idle hi
  exact ⟨h1, h2, L, h3.withG rfl rfl rfl, h4⟩

theorem headTyp_le (o : Opt) {typ : Nat} (h : typ ≤ 3) : headTyp o typ ≤ 3 := by
  unfold headTyp
  split
  · decide
  · exact h

theorem headVet_ok (o : Opt) (typ : Nat) {vet : Int} (h : I32 vet) : I32 (headVet o typ vet) := by
  unfold headVet
  split
  · decide
  · exact h

theorem txtOnly_zfree : ZFree txtOnly := by
  intro b
  revert b
  decide

theorem headText_zfree {o : Opt} (hf : ∀ f, o.fldOnly = some f → f < 5) (typ : Nat) : ZFree (headText o typ) := by
  unfold headText
  split
  · rename_i f h
    have := hf f (lone_some h).1
    intro b
    revert b
    interval_cases f <;> decide
  · split
    · exact txtOnly_zfree
    · intro b
      revert b
      decide

theorem SyOk.head (hf : ∀ f, o.fldOnly = some f → f < 5) (hs : SyOk o N s) (hd : s.dim < 20) :
    HeadOk N s.id (headText o s.typ) (headDim o s.typ s.dim : Nat) (headTyp o s.typ) (headVet o s.typ s.vet) where
  ident := hs.ident
  new := hs.new
  ztext := headText_zfree hf _
  dimOk := by have := headDim_le hd hs.room; omega
  typOk := by have := headTyp_le o hs.typ; omega
  uiOk := headVet_ok o _ hs.vet

theorem openSymb_eq (hA : Setup o A) (gd : Gx) :
    openSymb o s gd = stateOf (dataWriteStrStart gd s.id (headText o s.typ) (headDim o s.typ s.dim : Nat) (headTyp o s.typ) (headVet o s.typ s.vet)) := by
  unfold openSymb headText headTyp headVet headDim
  cases hi : isVarEqu s.typ with
  | false =>
    have hb : byField o s.typ = false := by unfold byField; rw [hi, Bool.and_false]
    have hl : lone o s.typ = none := by unfold lone; rw [hi]; rfl
    rw [hb, hl]
    cases o.fldOnly <;> simp
  | true =>
    have hl : lone o s.typ = o.fldOnly := by unfold lone; rw [if_pos hi]
    have hbe : byField o s.typ = o.diffOnly := by unfold byField; rw [hi, Bool.and_true]
    rw [hl, hbe]
    cases hf : o.fldOnly with
    | none =>
      cases hdo : o.diffOnly <;> simp
    | some f =>
      have hdo : o.diffOnly = false := by
        cases hdo : o.diffOnly with
        | false => rfl
        | true =>
          have := (hA.all hdo).1
          rw [hf] at this
          cases this
      have := hA.fld f hf
      have hl : fieldNames[f]? = some (fieldNames[f]?.getD []) := fieldName_lt this
      simp only [hdo]
      rw [hl]
      rfl

/-- the symbol is begun, unless it is begun already -/
theorem Stage.opens (hz : z.Good) (hA : Setup o A) (hs : SyOk o N s) (hd : s.dim < 20) {W : List Ev} {c : Cmp} (h : Stage o e z A N L0 T0 s G1 G2 b W c)
    (h1 : c.st ≠ .dim10) (h2 : c.st ≠ .dim10diff) :
    ∃ gd, checkOpen o s c = .ok ({ o := { c.o with gd := gd, reg := true }, opn := true, st := c.st }, true) ∧ Writes o e z A N L0 T0 s G1 G2 b W gd := by
  have hst : c.st.toDiff = c.st := by unfold Status.toDiff; rw [if_neg h1]
  unfold checkOpen
  rw [hst]
  by_cases hW : W = []
  · obtain ⟨i1, i2, L, i3, i4⟩ := h.idle (Or.inl hW)
    obtain ⟨gd, L', a1, a2, a3, a4⟩ := registerDiff_ok o i3 hA.few hA.good
    obtain ⟨u, u1, u2, u3⟩ := a2.tab
    obtain ⟨g1, b1, b2, b3, b4⟩ := start_ok hz a2.out u1 (by rw [u2]; exact a2.sub) (hs.head hA.fld hd)
    refine ⟨g1, ?_, ?_⟩
    · rw [a1]
      simp only [Res.bind_ok]
      rw [if_pos ⟨i1, h2⟩]
      rw [openSymb_eq hA, b1]
      rfl
    · subst hW
      refine ⟨[], .nil, gd, g1, u, T0, [], a2.out, i2.trans a4, b1, b2, by rw [u2]; exact i4.trans a3, List.prefix_refl _, .nil, by rw [b3]; omega, ?_⟩
      rw [b4]
      congr 1
  · obtain ⟨j1, j2, j3⟩ := h.busy (by
      rintro (h | h)
      · exact hW h
      · omega)
    refine ⟨c.o.gd, ?_, j3⟩
    unfold registerDiff
    rw [if_pos j2]
    simp only [Res.bind_ok]
    rw [if_neg (by rw [j1]; simp), j1]
    obtain ⟨⟨x1, x2, x3, x4, x5, x6⟩, x7, x8⟩ := c
    cases j2
    rfl

/-- too many dimensions: the symbol is not begun -/
theorem Stage.closed (hA : Setup o A) (hd : 20 ≤ s.dim) {W : List Ev} {c : Cmp} (h : Stage o e z A N L0 T0 s G1 G2 b W c) (h1 : c.st = .dim10 ∨ c.st = .dim10diff) (V : List Ev) :
    ∃ gd, checkOpen o s c = .ok ({ o := { c.o with gd := gd, reg := true }, opn := false, st := .dim10diff }, false) ∧
      Stage o e z A N L0 T0 s G1 G2 b V { o := { c.o with gd := gd, reg := true }, opn := false, st := .dim10diff } := by
  have hst : c.st.toDiff = .dim10diff := by unfold Status.toDiff; rcases h1 with h | h <;> rw [h] <;> decide
  obtain ⟨i1, i2, L, i3, i4⟩ := h.idle (Or.inr hd)
  obtain ⟨gd, L', a1, a2, a3, a4⟩ := registerDiff_ok o i3 hA.few hA.good
  refine ⟨gd, ?_, h.uels, fun _ => ⟨rfl, i2.trans a4, L', a2, i4.trans a3⟩, fun hc => absurd (Or.inr hd) hc⟩
  unfold checkOpen
  rw [hst, a1]
  simp only [Res.bind_ok]
  rw [if_neg (by simp), i1]
  rfl

theorem stage_busy {W : List Ev} {c : Cmp} (hW : W ≠ []) (hd : s.dim < 20) (hu : c.o.uels = A) (ho : c.opn = true) (hr : c.o.reg = true) (h : Writes o e z A N L0 T0 s G1 G2 b W c.o.gd) :
    Stage o e z A N L0 T0 s G1 G2 b W c :=
  ⟨hu, fun hc => by
    rcases hc with hc | hc
    · exact absurd hc hW
    · omega, fun _ => ⟨ho, hr, h⟩⟩

/-- a record that is in one file only -/
theorem insStep (hz : z.Good) (hA : Setup o A) (hs : SyOk o N s) {W : List Ev} {c : Cmp} (h : Prog o e z A N L0 T0 s G1 G2 b W c) {first : Bool} {r : RecOut Int}
    (hf : RecFit A (if first then G1 else G2) s.typ s.dim r) (e1 : Eyes G1 c.o.g1) (e2 : Eyes G2 c.o.g2) (hi : ignored o s G1 G2 r.vals = .ok false) :
    ∃ c', showInsert o s c first r.key r.vals = .ok c' ∧ Prog o e z A N L0 T0 s G1 G2 b (W ++ [⟨true, first, r.key, r.vals, insFlds o s.typ⟩]) c' ∧ c'.o.g1 = c.o.g1 ∧ c'.o.g2 = c.o.g2 := by
  rw [← ignored_eyes e1 e2] at hi
  unfold ignored at hi
  obtain ⟨d, i1, i2⟩ := Res.bind_eq_ok.mp hi
  have hnot : (d && !o.showDef) = false := by injection i2
  unfold showInsert
  rw [i1]
  simp only [Res.bind_ok]
  rw [if_neg (by rw [hnot]; simp)]
  by_cases hd : 20 ≤ s.dim
  · have hk : c.st.toKey = .dim10diff := by
      rw [h.st]
      unfold stOf Status.toKey Status.toDiff
      rw [if_pos hd]
      split <;> rfl
    rw [hk, if_pos rfl]
    refine ⟨_, rfl, ⟨⟨h.stage.uels, fun _ => h.stage.idle (Or.inr hd), fun hc => absurd (Or.inr hd) hc⟩, ?_⟩, rfl, rfl⟩
    unfold stOf
    rw [if_pos hd, if_neg (by simp)]
  · have hl := stOf_low (by omega : s.dim < 20) W
    have hk : c.st.toKey = stOf s.dim (W ++ [⟨true, first, r.key, r.vals, insFlds o s.typ⟩]) := by
      by_cases hW : W = []
      · rw [h.st]
        subst hW
        unfold stOf
        rw [if_neg hd, if_neg hd]
        rfl
      · rw [stOf_append hW, h.st]
        unfold Status.toKey Status.toDiff
        rw [if_neg (fun hc => hW (hl.2.2.mp hc)), if_neg hl.1]
    have hl' := stOf_low (by omega : s.dim < 20) (W ++ [⟨true, first, r.key, r.vals, insFlds o s.typ⟩])
    rw [hk, if_neg hl'.2.1]
    obtain ⟨gd, a1, a2⟩ := Stage.opens (c := { c with st := stOf s.dim (W ++ [⟨true, first, r.key, r.vals, insFlds o s.typ⟩]) }) hz hA hs (by omega) ⟨h.stage.uels, h.stage.idle, h.stage.busy⟩ hl'.1 hl'.2.1
    rw [a1]
    simp only [Res.bind_ok]
    rw [if_neg (by simp)]
    cases hb : byField o s.typ with
    | false =>
      obtain ⟨g2, vs, gd', b1, b2, b3⟩ := Writes.putIns
        (c := { o := { c.o with gd := gd, reg := true }, opn := true, st := stOf s.dim (W ++ [⟨true, first, r.key, r.vals, insFlds o s.typ⟩]) }) hA hb (by omega) a2 rfl
        h.stage.uels hf hs.typ (w := ⟨true, first, r.key, r.vals, insFlds o s.typ⟩) rfl rfl rfl (g := if first then c.o.g1 else c.o.g2) (by cases first <;> assumption)
      rw [show Ev.act ⟨true, first, r.key, r.vals, insFlds o s.typ⟩ = if first then ins1 else ins2 by cases first <;> rfl] at b2
      have hb' : (o.diffOnly && isVarEqu s.typ) = false := hb
      rw [b1]
      simp only [Res.bind_ok]
      rw [if_neg (by rw [hb']; simp), b2]
      exact ⟨_, rfl, ⟨stage_busy (by simp) (by omega) h.stage.uels rfl rfl b3, rfl⟩, rfl, rfl⟩
    | true =>
      have hve : isVarEqu s.typ = true := (Bool.and_eq_true_iff.mp hb).2
      have hns : s.typ ≠ dtSet := by
        intro hc
        rw [hc] at hve
        cases hve
      obtain ⟨v0, vr, hv⟩ : ∃ v0 vr, r.vals = v0 :: vr := by
        have hvl := hf.vals
        rw [size_varEqu hve] at hvl
        cases hr : r.vals with
        | nil =>
          rw [hr] at hvl
          cases hvl
        | cons a l => exact ⟨a, l, rfl⟩
      have hit : insText s (if first then c.o.g1 else c.o.g2) gd r.vals = .ok (gd, r.vals) := by
        unfold insText
        rw [hv]
        simp only [List.head?_cons, need, Res.bind_ok]
        rw [if_neg (by simp [hns])]
        rfl
      obtain ⟨ps, p1, p2⟩ := a2
      obtain ⟨gd', b1, b2⟩ := WritesP.insFields (c := { o := { c.o with gd := gd, reg := true }, opn := true, st := stOf s.dim (W ++ [⟨true, first, r.key, r.vals, insFlds o s.typ⟩]) })
        hA hb (by omega) (hs.room hb) hf (w := ⟨true, first, r.key, r.vals, insFlds o s.typ⟩) rfl rfl (ts := fieldsOf o) (fun _ h => fieldsOf_lt h) p2 rfl h.stage.uels
      rw [show Ev.act ⟨true, first, r.key, r.vals, insFlds o s.typ⟩ = if first then ins1 else ins2 by cases first <;> rfl] at b1
      have hb' : (o.diffOnly && isVarEqu s.typ) = true := hb
      rw [hit]
      simp only [Res.bind_ok]
      rw [if_pos hb', b1]
      refine ⟨_, rfl, ⟨stage_busy (by simp) (by omega) h.stage.uels rfl rfl ⟨_, ?_, b2⟩, rfl⟩, rfl, rfl⟩
      have : pairsOf o s.typ (W ++ [⟨true, first, r.key, r.vals, insFlds o s.typ⟩]) =
          pairsOf o s.typ W ++ ((fieldsOf o).map some).map (Prod.mk ⟨true, first, r.key, r.vals, insFlds o s.typ⟩) := by
        unfold pairsOf partsOf
        rw [List.flatMap_append]
        simp [hb, insFlds]
      rw [this]
      exact p1.append_right _

/-- two records with the same key and other values -/
theorem bothStep (hz : z.Good) (hA : Setup o A) (hs : SyOk o N s) {W : List Ev} {c : Cmp} (h : Prog o e z A N L0 T0 s G1 G2 b W c) {r q : RecOut Int} (hrq : r.key = q.key)
    (hf : RecFit A G1 s.typ s.dim r) (hf' : RecFit A G2 s.typ s.dim q) (e1 : Eyes G1 c.o.g1) (e2 : Eyes G2 c.o.g2) (hi : sameRec o s G1 G2 r.vals q.vals = .ok false)
    (hdf : byField o s.typ = true → ∀ t ∈ fieldsOf o, ∃ e, fieldsEqual o G1 G2 r.vals q.vals [t] = .ok e) :
    ∃ c', bothRecs o s c r q = .ok c' ∧ Prog o e z A N L0 T0 s G1 G2 b (W ++ [⟨false, true, r.key, r.vals, difFlds o s.typ G1 G2 r.vals q.vals⟩, ⟨false, false, q.key, q.vals, difFlds o s.typ G1 G2 r.vals q.vals⟩]) c' ∧
      c'.o.g1 = c.o.g1 ∧ c'.o.g2 = c.o.g2 := by
  have hi' := hi
  rw [← sameRec_eyes e1 e2] at hi
  -- what is written once the symbol is begun
  have key : ∃ c' : Cmp, checkRec o s c r q = .ok (c', false) ∧ c'.o.g1 = c.o.g1 ∧ c'.o.g2 = c.o.g2 ∧
      Stage o e z A N L0 T0 s G1 G2 b (W ++ [⟨false, true, r.key, r.vals, difFlds o s.typ G1 G2 r.vals q.vals⟩, ⟨false, false, q.key, q.vals, difFlds o s.typ G1 G2 r.vals q.vals⟩]) c' ∧
      c'.st = if 20 ≤ s.dim then .dim10diff else c.st := by
    by_cases hd : 20 ≤ s.dim
    · obtain ⟨gd, a1, a2⟩ := h.stage.closed hA hd (by
        rw [h.st]
        unfold stOf
        rw [if_pos hd]
        split <;> simp) (W ++ [⟨false, true, r.key, r.vals, difFlds o s.typ G1 G2 r.vals q.vals⟩, ⟨false, false, q.key, q.vals, difFlds o s.typ G1 G2 r.vals q.vals⟩])
      refine ⟨{ o := { c.o with gd := gd, reg := true }, opn := false, st := .dim10diff }, ?_, rfl, rfl, a2, by rw [if_pos hd]⟩
      unfold sameRec at hi
      unfold checkRec
      by_cases ht : s.typ = dtSet
      · rw [if_pos ht] at hi ⊢
        by_cases hx : o.compText = true
        · rw [if_pos hx] at hi ⊢
          obtain ⟨v1, c1, hi⟩ := Res.bind_eq_ok.mp hi
          obtain ⟨v2, c2, hi⟩ := Res.bind_eq_ok.mp hi
          obtain ⟨t1, c3, hi⟩ := Res.bind_eq_ok.mp hi
          obtain ⟨t2, c4, hi⟩ := Res.bind_eq_ok.mp hi
          simp only [c1, c2, Res.bind_ok]
          unfold checkSet
          simp only [c3, c4, Res.bind_ok]
          rw [if_neg (of_decide_eq_false (by injection hi)), a1]
          rfl
        · rw [if_neg hx] at hi
          cases hi
      · rw [if_neg ht] at hi ⊢
        unfold checkPar
        rw [hi]
        simp only [Res.bind_ok, Bool.false_eq_true, if_false]
        rw [a1]
        rfl
    · have hd' : s.dim < 20 := by omega
      have hl := stOf_low hd' W
      obtain ⟨gd, a1, a2⟩ := h.stage.opens hz hA hs hd' (by rw [h.st]; exact hl.1) (by rw [h.st]; exact hl.2.1)
      unfold sameRec at hi
      unfold checkRec
      by_cases ht : s.typ = dtSet
      · rw [if_pos ht] at hi ⊢
        by_cases hx : o.compText = true
        · rw [if_pos hx] at hi ⊢
          obtain ⟨v1, c1, hi⟩ := Res.bind_eq_ok.mp hi
          obtain ⟨v2, c2, hi⟩ := Res.bind_eq_ok.mp hi
          obtain ⟨t1, c3, hi⟩ := Res.bind_eq_ok.mp hi
          obtain ⟨t2, c4, hi⟩ := Res.bind_eq_ok.mp hi
          obtain ⟨d1, x1, p1, p2, p3⟩ := hf.set ht
          obtain ⟨d2, x2, q1, q2, q3⟩ := hf'.set ht
          rw [p1] at c1
          rw [q1] at c2
          cases c1
          cases c2
          have ht1 : t1 = x1 := by
            obtain ⟨n, n1, n2, n3, n4⟩ := p2
            rw [setText_eyes e1] at c3
            unfold setText at c3
            rw [n3, Merge.roundInt_intDbl n1 n2] at c3
            cases c3
            rw [n4]
          have ht2 : t2 = x2 := by
            obtain ⟨n, n1, n2, n3, n4⟩ := q2
            rw [setText_eyes e2] at c4
            unfold setText at c4
            rw [n3, Merge.roundInt_intDbl n1 n2] at c4
            cases c4
            rw [n4]
          subst ht1 ht2
          obtain ⟨gd1, b1, b2⟩ := Writes.putSet (c := { o := { c.o with gd := gd, reg := true }, opn := true, st := c.st }) hA hd' ht a2 rfl h.stage.uels hf
            (w := ⟨false, true, r.key, r.vals, difFlds o s.typ G1 G2 r.vals q.vals⟩) rfl rfl rfl p1 p2 p3
          obtain ⟨gd2, b3, b4⟩ := Writes.putSet (c := { o := { c.o with gd := gd1, reg := true }, opn := true, st := c.st }) hA hd' ht b2 rfl h.stage.uels hf'
            (w := ⟨false, false, q.key, q.vals, difFlds o s.typ G1 G2 r.vals q.vals⟩) rfl rfl rfl q1 q2 q3
          have b1' : writeSetDiff o _ dif1 r.key t1 = _ := b1
          have b3' : writeSetDiff o _ dif2 q.key t2 = _ := b3
          refine ⟨{ o := { c.o with gd := gd2, reg := true }, opn := true, st := c.st }, ?_, rfl, rfl, ?_, by rw [if_neg hd]⟩
          · rw [p1, q1]
            simp only [List.head?_cons, need, Res.bind_ok]
            unfold checkSet
            simp only [c3, c4, Res.bind_ok]
            rw [if_neg (of_decide_eq_false (by injection hi)), a1]
            simp only [Res.bind_ok]
            rw [if_neg (by simp), b1']
            simp only [Res.bind_ok]
            rw [hrq, b3']
            rfl
          · refine stage_busy (by simp) hd' h.stage.uels rfl rfl ?_
            rw [List.append_assoc] at b4
            exact b4
        · rw [if_neg hx] at hi
          cases hi
      · rw [if_neg ht] at hi ⊢
        cases hb : byField o s.typ with
        | false =>
          obtain ⟨gd1, b1, b2⟩ := Writes.put (c := { o := { c.o with gd := gd, reg := true }, opn := true, st := c.st }) hA hb hd' ht a2 rfl h.stage.uels hf
              (w := ⟨false, true, r.key, r.vals, difFlds o s.typ G1 G2 r.vals q.vals⟩) rfl rfl
          obtain ⟨gd2, b3, b4⟩ := Writes.put (c := { o := { c.o with gd := gd1, reg := true }, opn := true, st := c.st }) hA hb hd' ht b2 rfl h.stage.uels hf'
              (w := ⟨false, false, q.key, q.vals, difFlds o s.typ G1 G2 r.vals q.vals⟩) rfl rfl
          have b1' : writeDiff o s _ dif1 [] r.key r.vals = _ := b1
          have b3' : writeDiff o s _ dif2 [] q.key q.vals = _ := b3
          have hb' : (o.diffOnly && isVarEqu s.typ) = false := hb
          refine ⟨{ o := { c.o with gd := gd2, reg := true }, opn := true, st := c.st }, ?_, rfl, rfl, ?_, by rw [if_neg hd]⟩
          · unfold checkPar
            rw [hi]
            simp only [Res.bind_ok, Bool.false_eq_true, if_false]
            rw [a1]
            simp only [Res.bind_ok]
            rw [if_neg (by simp), if_neg (by rw [hb']; simp), b1']
            simp only [Res.bind_ok]
            rw [hrq, b3']
            rfl
          · refine stage_busy (by simp) hd' h.stage.uels rfl rfl ?_
            rw [List.append_assoc] at b4
            exact b4
        | true =>
          obtain ⟨ps, p1, p2⟩ := a2
          obtain ⟨gd2, qs, b1, b2, b3⟩ := WritesP.difFields (c := { o := { c.o with gd := gd, reg := true }, opn := true, st := c.st }) hA hb hd' (hs.room hb) hf hf' hrq
            (w := ⟨false, true, r.key, r.vals, difFlds o s.typ G1 G2 r.vals q.vals⟩) (w' := ⟨false, false, q.key, q.vals, difFlds o s.typ G1 G2 r.vals q.vals⟩) rfl rfl rfl rfl rfl rfl (ts := fieldsOf o) (fun _ h => fieldsOf_lt h) (hdf hb)
            p2 rfl h.stage.uels e1 e2
          have hb' : (o.diffOnly && isVarEqu s.typ) = true := hb
          refine ⟨{ o := { c.o with gd := gd2, reg := true }, opn := true, st := c.st }, ?_, rfl, rfl, ?_, by rw [if_neg hd]⟩
          · unfold checkPar
            rw [hi]
            simp only [Res.bind_ok, Bool.false_eq_true, if_false]
            rw [a1]
            simp only [Res.bind_ok]
            rw [if_neg (by simp), if_pos hb', b1]
            rfl
          · refine stage_busy (by simp) hd' h.stage.uels rfl rfl ⟨_, ?_, b2⟩
            have : pairsOf o s.typ (W ++ [⟨false, true, r.key, r.vals, difFlds o s.typ G1 G2 r.vals q.vals⟩, ⟨false, false, q.key, q.vals, difFlds o s.typ G1 G2 r.vals q.vals⟩]) = pairsOf o s.typ W ++
                ((((fieldsOf o).filter (differAt o G1 G2 r.vals q.vals)).map some).map (Prod.mk ⟨false, true, r.key, r.vals, difFlds o s.typ G1 G2 r.vals q.vals⟩) ++
                  (((fieldsOf o).filter (differAt o G1 G2 r.vals q.vals)).map some).map (Prod.mk ⟨false, false, q.key, q.vals, difFlds o s.typ G1 G2 r.vals q.vals⟩)) := by
              unfold pairsOf partsOf
              rw [List.flatMap_append]
              simp [hb, difFlds]
            rw [this]
            exact p1.append b3
  obtain ⟨c', k1, k2, k3, k4, k5⟩ := key
  unfold bothRecs
  rw [k1]
  refine ⟨_, rfl, ⟨⟨k4.uels, k4.idle, k4.busy⟩, ?_⟩, k2, k3⟩
  show c'.st.toData false = _
  rw [k5]
  by_cases hd : 20 ≤ s.dim
  · rw [if_pos hd]
    unfold stOf
    rw [if_pos hd, if_neg (by simp)]
    rfl
  · rw [if_neg hd, h.st]
    have hl := stOf_low (by omega : s.dim < 20) W
    by_cases hW : W = []
    · subst hW
      unfold stOf
      rw [if_neg hd, if_neg hd]
      rfl
    · rw [stOf_append hW]
      unfold Status.toData
      rw [if_neg (fun hc => hW (hl.2.2.mp hc.2))]

end

/-! ### which entries are written -/

/-- an entry for the records `A` of file 1 and `B` of file 2 -/
def IsEv (o : Opt) (s : Sy) (G1 G2 : Gx) (A B : List (RecOut Int)) (w : Ev) : Prop :=
  (w.ins = true ∧ ∃ r ∈ (if w.first then A else B), (∀ q ∈ (if w.first then B else A), q.key ≠ r.key) ∧ ignored o s G1 G2 r.vals = .ok false ∧
    w.key = r.key ∧ w.vals = r.vals ∧ w.flds = insFlds o s.typ) ∨
  (w.ins = false ∧ ∃ a ∈ A, ∃ q ∈ B, a.key = q.key ∧ sameRec o s G1 G2 a.vals q.vals = .ok false ∧ w.key = a.key ∧
    (w.vals = if w.first then a.vals else q.vals) ∧ w.flds = difFlds o s.typ G1 G2 a.vals q.vals)

/-- `v` is written before `w` -/
def Before (v w : Ev) : Prop := v.key < w.key ∨ (v.key = w.key ∧ v.first = true ∧ w.first = false ∧ v.ins = false ∧ w.ins = false)

/-- the entries of two symbols, in the order in which they are written -/
structure Entries (o : Opt) (s : Sy) (G1 G2 : Gx) (A B : List (RecOut Int)) (W : List Ev) : Prop where
  mem : ∀ w, w ∈ W ↔ IsEv o s G1 G2 A B w
  ord : W.Pairwise Before
  len : W.length ≤ A.length + B.length

theorem isEv_key {o : Opt} {s : Sy} {G1 G2 : Gx} {A B : List (RecOut Int)} {w : Ev} (h : IsEv o s G1 G2 A B w) : ∃ r, (r ∈ A ∨ r ∈ B) ∧ w.key = r.key := by
  rcases h with ⟨_, r, h1, _, _, h2, _⟩ | ⟨_, a, h1, q, _, _, _, h2, _⟩
  · refine ⟨r, ?_, h2⟩
    split at h1
    · exact Or.inl h1
    · exact Or.inr h1
  · exact ⟨a, Or.inl h1, h2⟩

section
variable {o : Opt} {s : Sy} {G1 G2 : Gx} {dim : Nat}

theorem entries_nil : Entries o s G1 G2 [] [] [] := by
  refine ⟨fun w => ⟨fun h => (by cases h), fun h => ?_⟩, .nil, by simp⟩
  obtain ⟨r, h, _⟩ := isEv_key h
  rcases h with h | h <;> cases h

/-- the entries with a record of file 1 whose key is smaller than all others -/
theorem isEv_left {a : RecOut Int} {A B : List (RecOut Int)} (hA : ∀ x ∈ A, a.key < x.key) (hB : ∀ x ∈ B, a.key < x.key) (w : Ev) :
    IsEv o s G1 G2 (a :: A) B w ↔ (w = ⟨true, true, a.key, a.vals, insFlds o s.typ⟩ ∧ ignored o s G1 G2 a.vals = .ok false) ∨ IsEv o s G1 G2 A B w := by
  obtain ⟨i, f, k, v, l⟩ := w
  constructor
  · rintro (⟨h1, r, h2, h3, h4, h5, h6, h8⟩ | ⟨h1, x, h2, q, h3, h4, h5, h6, h7, h8⟩)
    · dsimp only at h1 h2 h3 h5 h6 h8
      subst h1 h5 h6 h8
      cases f with
      | true =>
        simp only [if_true] at h2 h3
        rcases List.mem_cons.mp h2 with rfl | h2
        · exact Or.inl ⟨rfl, h4⟩
        · exact Or.inr (Or.inl ⟨rfl, r, by simpa using h2, by simpa using h3, h4, rfl, rfl, rfl⟩)
      | false =>
        simp only [Bool.false_eq_true, if_false] at h2 h3
        exact Or.inr (Or.inl ⟨rfl, r, by simpa using h2, by simpa using fun q hq => h3 q (by simp [hq]), h4, rfl, rfl, rfl⟩)
    · rcases List.mem_cons.mp h2 with rfl | h2
      · exact absurd (hB q h3) (by rw [h4]; exact lt_irrefl _)
      · exact Or.inr (Or.inr ⟨h1, x, h2, q, h3, h4, h5, h6, h7, h8⟩)
  · rintro (⟨h1, h2⟩ | ⟨h1, r, h2, h3, h4, h5, h6, h8⟩ | ⟨h1, x, h2, q, h3, h4, h5, h6, h7, h8⟩)
    · rw [h1]
      exact Or.inl ⟨rfl, a, by simp, by simpa using fun q hq => ne_of_gt (hB q hq), h2, rfl, rfl, rfl⟩
    · refine Or.inl ⟨h1, r, ?_, ?_, h4, h5, h6, h8⟩
      · dsimp only at h2 ⊢
        split at h2 <;> simp_all
      · cases f with
        | true => exact h3
        | false =>
          intro q hq
          rcases List.mem_cons.mp (show q ∈ a :: A from hq) with rfl | hq
          · exact ne_of_lt (hB r h2)
          · exact h3 q hq
    · exact Or.inr ⟨h1, x, by simp [h2], q, h3, h4, h5, h6, h7, h8⟩

/-- … with a record of file 2 -/
theorem isEv_right {a : RecOut Int} {A B : List (RecOut Int)} (hA : ∀ x ∈ A, a.key < x.key) (hB : ∀ x ∈ B, a.key < x.key) (w : Ev) :
    IsEv o s G1 G2 A (a :: B) w ↔ (w = ⟨true, false, a.key, a.vals, insFlds o s.typ⟩ ∧ ignored o s G1 G2 a.vals = .ok false) ∨ IsEv o s G1 G2 A B w := by
  obtain ⟨i, f, k, v, l⟩ := w
  constructor
  · rintro (⟨h1, r, h2, h3, h4, h5, h6, h8⟩ | ⟨h1, x, h2, q, h3, h4, h5, h6, h7, h8⟩)
    · dsimp only at h1 h2 h3 h5 h6 h8
      subst h1 h5 h6 h8
      cases f with
      | false =>
        simp only [Bool.false_eq_true, if_false] at h2 h3
        rcases List.mem_cons.mp h2 with rfl | h2
        · exact Or.inl ⟨rfl, h4⟩
        · exact Or.inr (Or.inl ⟨rfl, r, by simpa using h2, by simpa using h3, h4, rfl, rfl, rfl⟩)
      | true =>
        simp only [if_true] at h2 h3
        exact Or.inr (Or.inl ⟨rfl, r, by simpa using h2, by simpa using fun q hq => h3 q (by simp [hq]), h4, rfl, rfl, rfl⟩)
    · rcases List.mem_cons.mp h3 with rfl | h3
      · exact absurd (hA x h2) (by rw [h4]; exact lt_irrefl _)
      · exact Or.inr (Or.inr ⟨h1, x, h2, q, h3, h4, h5, h6, h7, h8⟩)
  · rintro (⟨h1, h2⟩ | ⟨h1, r, h2, h3, h4, h5, h6, h8⟩ | ⟨h1, x, h2, q, h3, h4, h5, h6, h7, h8⟩)
    · rw [h1]
      exact Or.inl ⟨rfl, a, by simp, by simpa using fun q hq => ne_of_gt (hA q hq), h2, rfl, rfl, rfl⟩
    · refine Or.inl ⟨h1, r, ?_, ?_, h4, h5, h6, h8⟩
      · dsimp only at h2 ⊢
        split at h2 <;> simp_all
      · cases f with
        | false => exact h3
        | true =>
          intro q hq
          rcases List.mem_cons.mp (show q ∈ a :: B from hq) with rfl | hq
          · exact ne_of_lt (hA r h2)
          · exact h3 q hq
    · exact Or.inr ⟨h1, x, h2, q, by simp [h3], h4, h5, h6, h7, h8⟩

/-- … with two records with the same key -/
theorem isEv_both {a q : RecOut Int} (haq : a.key = q.key) {A B : List (RecOut Int)} (hA : ∀ x ∈ A, a.key < x.key) (hB : ∀ x ∈ B, a.key < x.key) (w : Ev) :
    IsEv o s G1 G2 (a :: A) (q :: B) w ↔
      ((w = ⟨false, true, a.key, a.vals, difFlds o s.typ G1 G2 a.vals q.vals⟩ ∨ w = ⟨false, false, q.key, q.vals, difFlds o s.typ G1 G2 a.vals q.vals⟩) ∧ sameRec o s G1 G2 a.vals q.vals = .ok false) ∨ IsEv o s G1 G2 A B w := by
  obtain ⟨i, f, k, v, l⟩ := w
  constructor
  · rintro (⟨h1, r, h2, h3, h4, h5, h6, h8⟩ | ⟨h1, x, h2, y, h3, h4, h5, h6, h7, h8⟩)
    · refine Or.inr (Or.inl ⟨h1, r, ?_, ?_, h4, h5, h6, h8⟩)
      · cases f with
        | true =>
          rcases List.mem_cons.mp (show r ∈ a :: A from h2) with rfl | h2
          · exact absurd haq.symm (h3 q (List.mem_cons_self (l := B)))
          · exact h2
        | false =>
          rcases List.mem_cons.mp (show r ∈ q :: B from h2) with rfl | h2
          · exact absurd haq (h3 a (List.mem_cons_self (l := A)))
          · exact h2
      · cases f with
        | true => exact fun y hy => h3 y (List.mem_cons_of_mem q hy)
        | false => exact fun y hy => h3 y (List.mem_cons_of_mem a hy)
    · rcases List.mem_cons.mp h2 with rfl | h2
      · rcases List.mem_cons.mp h3 with rfl | h3
        · dsimp only at h1 h6 h7 h8
          cases h1
          cases h6
          cases f with
          | true => exact Or.inl ⟨Or.inl (by rw [h7, h8]; rfl), h5⟩
          | false => exact Or.inl ⟨Or.inr (by rw [h7, h8, haq]; rfl), h5⟩
        · exact absurd (hB y h3) (by rw [h4]; exact lt_irrefl _)
      · rcases List.mem_cons.mp h3 with rfl | h3
        · exact absurd (hA x h2) (by rw [h4, haq]; exact lt_irrefl _)
        · exact Or.inr (Or.inr ⟨h1, x, h2, y, h3, h4, h5, h6, h7, h8⟩)
  · rintro (⟨h1 | h1, h2⟩ | ⟨h1, r, h2, h3, h4, h5, h6, h8⟩ | ⟨h1, x, h2, y, h3, h4, h5, h6, h7, h8⟩)
    · rw [h1]
      exact Or.inr ⟨rfl, a, by simp, q, by simp, haq, h2, rfl, rfl, rfl⟩
    · rw [h1]
      exact Or.inr ⟨rfl, a, by simp, q, by simp, haq, h2, haq.symm, rfl, rfl⟩
    · refine Or.inl ⟨h1, r, ?_, ?_, h4, h5, h6, h8⟩
      · dsimp only at h2 ⊢
        split at h2 <;> simp_all
      · cases f with
        | true =>
          intro y hy
          rcases List.mem_cons.mp (show y ∈ q :: B from hy) with rfl | hy
          · rw [← haq]
            exact ne_of_lt (hA r h2)
          · exact h3 y hy
        | false =>
          intro y hy
          rcases List.mem_cons.mp (show y ∈ a :: A from hy) with rfl | hy
          · exact ne_of_lt (hB r h2)
          · exact h3 y hy
    · exact Or.inr ⟨h1, x, by simp [h2], y, by simp [h3], h4, h5, h6, h7, h8⟩

theorem Entries.after {a : List Int} {A B : List (RecOut Int)} (hA : ∀ x ∈ A, a < x.key) (hB : ∀ x ∈ B, a < x.key) {W : List Ev} (h : Entries o s G1 G2 A B W) :
    ∀ w ∈ W, a < w.key := by
  intro w hw
  obtain ⟨r, hr, hk⟩ := isEv_key ((h.mem w).mp hw)
  rw [hk]
  rcases hr with hr | hr
  · exact hA r hr
  · exact hB r hr

/-- a first entry in front -/
theorem Entries.left {a : RecOut Int} {A B : List (RecOut Int)} (hA : ∀ x ∈ A, a.key < x.key) (hB : ∀ x ∈ B, a.key < x.key) {W : List Ev} (h : Entries o s G1 G2 A B W) :
    (ignored o s G1 G2 a.vals = .ok true → Entries o s G1 G2 (a :: A) B W) ∧
    (ignored o s G1 G2 a.vals = .ok false → Entries o s G1 G2 (a :: A) B (⟨true, true, a.key, a.vals, insFlds o s.typ⟩ :: W)) := by
  have hl := h.len
  refine ⟨fun hi => ⟨fun w => ?_, h.ord, by simp only [List.length_cons]; omega⟩, fun hi => ⟨fun w => ?_, ?_, by simp only [List.length_cons]; omega⟩⟩
  · rw [isEv_left hA hB, hi, h.mem]
    simp
  · rw [isEv_left hA hB, hi, List.mem_cons, h.mem]
    simp
  · exact List.pairwise_cons.mpr ⟨fun w hw => Or.inl (h.after hA hB w hw), h.ord⟩

theorem Entries.right {a : RecOut Int} {A B : List (RecOut Int)} (hA : ∀ x ∈ A, a.key < x.key) (hB : ∀ x ∈ B, a.key < x.key) {W : List Ev} (h : Entries o s G1 G2 A B W) :
    (ignored o s G1 G2 a.vals = .ok true → Entries o s G1 G2 A (a :: B) W) ∧
    (ignored o s G1 G2 a.vals = .ok false → Entries o s G1 G2 A (a :: B) (⟨true, false, a.key, a.vals, insFlds o s.typ⟩ :: W)) := by
  have hl := h.len
  refine ⟨fun hi => ⟨fun w => ?_, h.ord, by simp only [List.length_cons]; omega⟩, fun hi => ⟨fun w => ?_, ?_, by simp only [List.length_cons]; omega⟩⟩
  · rw [isEv_right hA hB, hi, h.mem]
    simp
  · rw [isEv_right hA hB, hi, List.mem_cons, h.mem]
    simp
  · exact List.pairwise_cons.mpr ⟨fun w hw => Or.inl (h.after hA hB w hw), h.ord⟩

theorem Entries.both {a q : RecOut Int} (haq : a.key = q.key) {A B : List (RecOut Int)} (hA : ∀ x ∈ A, a.key < x.key) (hB : ∀ x ∈ B, a.key < x.key) {W : List Ev}
    (h : Entries o s G1 G2 A B W) :
    (sameRec o s G1 G2 a.vals q.vals = .ok true → Entries o s G1 G2 (a :: A) (q :: B) W) ∧
    (sameRec o s G1 G2 a.vals q.vals = .ok false → Entries o s G1 G2 (a :: A) (q :: B) (⟨false, true, a.key, a.vals, difFlds o s.typ G1 G2 a.vals q.vals⟩ :: ⟨false, false, q.key, q.vals, difFlds o s.typ G1 G2 a.vals q.vals⟩ :: W)) := by
  have hl := h.len
  refine ⟨fun hi => ⟨fun w => ?_, h.ord, by simp only [List.length_cons]; omega⟩, fun hi => ⟨fun w => ?_, ?_, by simp only [List.length_cons]; omega⟩⟩
  · rw [isEv_both haq hA hB, hi, h.mem]
    simp
  · rw [isEv_both haq hA hB, hi, List.mem_cons, List.mem_cons, h.mem]
    simp [or_assoc]
  · refine List.pairwise_cons.mpr ⟨fun w hw => ?_, List.pairwise_cons.mpr ⟨fun w hw => Or.inl ?_, h.ord⟩⟩
    · rcases List.mem_cons.mp hw with rfl | hw
      · exact Or.inr ⟨haq, rfl, rfl, rfl, rfl⟩
      · exact Or.inl (h.after hA hB w hw)
    · rw [← haq]
      exact h.after hA hB w hw

end

/-! ### the loop -/

/-- the comparisons of the program are defined for these records -/
structure Defd (o : Opt) (s : Sy) (G1 G2 : Gx) (A B : List (RecOut Int)) : Prop where
  left : ∀ a ∈ A, ∃ e, ignored o s G1 G2 a.vals = .ok e
  right : ∀ q ∈ B, ∃ e, ignored o s G1 G2 q.vals = .ok e
  both : ∀ a ∈ A, ∀ q ∈ B, a.key = q.key → ∃ e, sameRec o s G1 G2 a.vals q.vals = .ok e
  flds : ∀ a ∈ A, ∀ q ∈ B, a.key = q.key → byField o s.typ = true → ∀ t ∈ fieldsOf o, ∃ e, fieldsEqual o G1 G2 a.vals q.vals [t] = .ok e

theorem cmpLoop_events {o : Opt} {e : Env} {z : Cz} {U N L0 T0 : List Str} {s : Sy} {G1 G2 b : Gx} (hz : z.Good) (hU : Setup o U) (hs : SyOk o N s) :
    ∀ {n : Nat} {c : Cmp} {r1 r2 : Option (RecOut Int)} {A B : List (RecOut Int)} {gE1 gE2 : Gx} {W0 : List Ev}, Rem o G1 c.o.g1 r1 A gE1 → Rem o G2 c.o.g2 r2 B gE2 →
    Sorted s.dim A → Sorted s.dim B → (∀ a ∈ A, KeyOk a.key) → (∀ b ∈ B, KeyOk b.key) → (∀ a ∈ A, RecFit U G1 s.typ s.dim a) → (∀ a ∈ B, RecFit U G2 s.typ s.dim a) →
    Defd o s G1 G2 A B → Prog o e z U N L0 T0 s G1 G2 b W0 c → A.length + B.length < n →
    ∃ c' W, cmpLoop o s n c r1 r2 = .ok c' ∧ c'.o.g1 = gE1 ∧ c'.o.g2 = gE2 ∧ Entries o s G1 G2 A B W ∧ Prog o e z U N L0 T0 s G1 G2 b (W0 ++ W) c'
  | 0, c, r1, r2, A, B, gE1, gE2, W0, _, _, _, _, _, _, _, _, _, _, h => by omega
  | n + 1, c, r1, r2, A, B, gE1, gE2, W0, h1, h2, hA, hB, kA, kB, fA, fB, hD, hP, hf => by
    have e1 := h1.eyes
    have e2 := h2.eyes
    -- a record of file 1 that is alone
    have left : ∀ {a : RecOut Int} {A' : List (RecOut Int)}, A = a :: A' → Recs o G1 c.o.g1 a.key A' gE1 → (∀ x ∈ B, a.key < x.key) →
        ∃ c' W, (do
          let c ← showInsert o s c true a.key a.vals
          let (c, r) ← next1 o c a.key
          cmpLoop o s n c r r2) = .ok c' ∧ c'.o.g1 = gE1 ∧ c'.o.g2 = gE2 ∧ Entries o s G1 G2 A B W ∧ Prog o e z U N L0 T0 s G1 G2 b (W0 ++ W) c' := by
      intro a A' hAA hr hlt
      subst hAA
      obtain ⟨g', r, j1, j2⟩ := hr.step
      simp only [List.length_cons] at hf
      obtain ⟨v, hv⟩ := hD.left a (by simp)
      have hD' : Defd o s G1 G2 A' B := ⟨fun x hx => hD.left x (by simp [hx]), hD.right, fun x hx => hD.both x (by simp [hx]), fun x hx => hD.flds x (by simp [hx])⟩
      cases v with
      | true =>
        rw [showInsert_ignored (by rw [ignored_eyes e1 e2]; exact hv)]
        simp only [Res.bind_ok, next1_eq j1]
        obtain ⟨c', W, q1, q2, q3, q4, q5⟩ := cmpLoop_events hz hU hs (n := n) (c := c.withG g' c.o.g2) j2 h2 hA.tail hB (fun x hx => kA x (by simp [hx])) kB
          (fun x hx => fA x (by simp [hx])) fB hD' (hP.withG _ _) (by omega)
        exact ⟨c', W, q1, q2, q3, (q4.left hA.head hlt).1 hv, q5⟩
      | false =>
        obtain ⟨c1, i1, i2, i3, i4⟩ := insStep hz hU hs hP (first := true) (r := a) (fA a (by simp)) e1 e2 hv
        rw [i1]
        simp only [Res.bind_ok]
        rw [next1_eq (by rw [i3]; exact j1)]
        simp only [Res.bind_ok]
        obtain ⟨c', W, q1, q2, q3, q4, q5⟩ := cmpLoop_events hz hU hs (n := n) (c := c1.withG g' c1.o.g2) j2 (by show Rem o G2 c1.o.g2 _ _ _; rw [i4]; exact h2) hA.tail hB
          (fun x hx => kA x (by simp [hx])) kB (fun x hx => fA x (by simp [hx])) fB hD' (i2.withG _ _) (by omega)
        rw [List.append_assoc] at q5
        exact ⟨c', _, q1, q2, q3, (q4.left hA.head hlt).2 hv, q5⟩
    -- a record of file 2 that is alone
    have right : ∀ {a : RecOut Int} {B' : List (RecOut Int)}, B = a :: B' → Recs o G2 c.o.g2 a.key B' gE2 → (∀ x ∈ A, a.key < x.key) →
        ∃ c' W, (do
          let c ← showInsert o s c false a.key a.vals
          let (c, r) ← next2 o c a.key
          cmpLoop o s n c r1 r) = .ok c' ∧ c'.o.g1 = gE1 ∧ c'.o.g2 = gE2 ∧ Entries o s G1 G2 A B W ∧ Prog o e z U N L0 T0 s G1 G2 b (W0 ++ W) c' := by
      intro a B' hBB hr hlt
      subst hBB
      obtain ⟨g', r, j1, j2⟩ := hr.step
      simp only [List.length_cons] at hf
      obtain ⟨v, hv⟩ := hD.right a (by simp)
      have hD' : Defd o s G1 G2 A B' := ⟨hD.left, fun x hx => hD.right x (by simp [hx]), fun x hx y hy => hD.both x hx y (by simp [hy]), fun x hx y hy => hD.flds x hx y (by simp [hy])⟩
      cases v with
      | true =>
        rw [showInsert_ignored (by rw [ignored_eyes e1 e2]; exact hv)]
        simp only [Res.bind_ok, next2_eq j1]
        obtain ⟨c', W, q1, q2, q3, q4, q5⟩ := cmpLoop_events hz hU hs (n := n) (c := c.withG c.o.g1 g') h1 j2 hA hB.tail kA (fun x hx => kB x (by simp [hx]))
          fA (fun x hx => fB x (by simp [hx])) hD' (hP.withG _ _) (by omega)
        exact ⟨c', W, q1, q2, q3, (q4.right hlt hB.head).1 hv, q5⟩
      | false =>
        obtain ⟨c1, i1, i2, i3, i4⟩ := insStep hz hU hs hP (first := false) (r := a) (fB a (by simp)) e1 e2 hv
        rw [i1]
        simp only [Res.bind_ok]
        rw [next2_eq (by rw [i4]; exact j1)]
        simp only [Res.bind_ok]
        obtain ⟨c', W, q1, q2, q3, q4, q5⟩ := cmpLoop_events hz hU hs (n := n) (c := c1.withG c1.o.g1 g') (by show Rem o G1 c1.o.g1 _ _ _; rw [i3]; exact h1) j2 hA hB.tail
          kA (fun x hx => kB x (by simp [hx])) fA (fun x hx => fB x (by simp [hx])) hD' (i2.withG _ _) (by omega)
        rw [List.append_assoc] at q5
        exact ⟨c', _, q1, q2, q3, (q4.right hlt hB.head).2 hv, q5⟩
    cases h1 with
    | done _ =>
      cases h2 with
      | done _ => exact ⟨c, [], rfl, rfl, rfl, entries_nil, by simpa using hP⟩
      | next _ hr =>
        unfold cmpLoop
        exact right rfl hr (by simp)
    | next he1 hr1 =>
      rename_i a A
      cases h2 with
      | done _ =>
        unfold cmpLoop
        exact left rfl hr1 (by simp)
      | next he2 hr2 =>
        rename_i q B
        obtain ⟨d, hd⟩ := keyDiff_ok (kA a (by simp)) (kB q (by simp))
        obtain ⟨d1, d2, d3⟩ := keyDiff_spec ((hA.len a (by simp)).trans (hB.len q (by simp)).symm) hd
        unfold cmpLoop
        rw [hd]
        simp only [Res.bind_ok]
        by_cases hd0 : d = 0
        · have hab := d1 hd0
          rw [if_pos hd0]
          simp only [List.length_cons] at hf
          obtain ⟨g', r, j1, j2⟩ := hr1.step
          obtain ⟨g'', r', j3, j4⟩ := hr2.step
          obtain ⟨v, hv⟩ := hD.both a (by simp) q (by simp) hab
          have hD' : Defd o s G1 G2 A B := ⟨fun x hx => hD.left x (by simp [hx]), fun x hx => hD.right x (by simp [hx]), fun x hx y hy => hD.both x (by simp [hx]) y (by simp [hy]),
            fun x hx y hy => hD.flds x (by simp [hx]) y (by simp [hy])⟩
          cases v with
          | true =>
            rw [bothRecs_same (by rw [sameRec_eyes e1 e2]; exact hv)]
            simp only [Res.bind_ok, next1_eq j1, next2_eq (c := c.withG g' c.o.g2) j3]
            obtain ⟨c', W, q1, q2, q3, q4, q5⟩ := cmpLoop_events hz hU hs (n := n) (c := c.withG g' g'') j2 j4 hA.tail hB.tail (fun x hx => kA x (by simp [hx])) (fun x hx => kB x (by simp [hx]))
              (fun x hx => fA x (by simp [hx])) (fun x hx => fB x (by simp [hx])) hD' (hP.withG _ _) (by omega)
            exact ⟨c', W, q1, q2, q3, (q4.both hab hA.head (by rw [hab]; exact hB.head)).1 hv, q5⟩
          | false =>
            obtain ⟨c1, i1, i2, i3, i4⟩ := bothStep hz hU hs hP hab (fA a (by simp)) (fB q (by simp)) e1 e2 hv (hD.flds a (by simp) q (by simp) hab)
            rw [i1]
            simp only [Res.bind_ok]
            rw [next1_eq (by rw [i3]; exact j1)]
            simp only [Res.bind_ok]
            rw [next2_eq (by show readRec o c1.o.g2 _ = _; rw [i4]; exact j3)]
            simp only [Res.bind_ok]
            obtain ⟨c', W, q1, q2, q3, q4, q5⟩ := cmpLoop_events hz hU hs (n := n) (c := c1.withG g' g'') j2 j4 hA.tail hB.tail (fun x hx => kA x (by simp [hx])) (fun x hx => kB x (by simp [hx]))
              (fun x hx => fA x (by simp [hx])) (fun x hx => fB x (by simp [hx])) hD' (i2.withG _ _) (by omega)
            rw [List.append_assoc] at q5
            exact ⟨c', _, q1, q2, q3, (q4.both hab hA.head (by rw [hab]; exact hB.head)).2 hv, q5⟩
        · rw [if_neg hd0]
          by_cases hd1 : d < 0
          · rw [if_pos hd1]
            refine left rfl hr1 fun x hx => ?_
            rcases List.mem_cons.mp hx with rfl | hx
            · exact d2 hd1
            · exact lt_trans (d2 hd1) (hB.head x hx)
          · rw [if_neg hd1]
            refine right rfl hr2 fun x hx => ?_
            have := d3 (by omega)
            rcases List.mem_cons.mp hx with rfl | hx
            · exact this
            · exact lt_trans this (hA.head x hx)

end Gdx.Diff
