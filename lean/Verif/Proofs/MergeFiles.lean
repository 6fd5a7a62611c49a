import Verif.Proofs.MergeColl

/-! gdxmerge: all input files are read. -/

namespace Gdx.Merge
open Gdx Gdx.Spec

theorem addSyms_ok (o : Opt) (e : Env) (z : Cz) {A X : List Str} {b : Gx} (hm : b.mode = .strElem) (hA : A.length < 2147483647) (hX : X.length < 2147483648)
    {a : Gx} {id : Str} {ns : List Int} {srs : List Src} (h : List.Forall₂ (fun nr sr => SymAt z a nr sr ∧ sr.id = id ∧ SrcOk A X sr) ns srs) :
    ∀ {u : Uel} {st : MState} {pre : List Src} {g : Gx} {w : Bufs}, Labels A u → st.out = { b with uel := some u } → Coll o X u pre st →
      Between a g → (w.idx.length = 20 ∧ w.vals.length = 5) → recsOf (pre ++ srs) ≤ 2147483647 →
      ∃ st' u' g' w', addSyms o z .doAll id st g w ns = .ok (st', g', w') ∧ st'.out = { b with uel := some u' } ∧ Labels A u' ∧ Coll o X u' (pre ++ srs) st' ∧
        Between a g' ∧ Props.StaysIn e z { b with uel := some u } { b with uel := some u' } := by
  induction h with
  | nil =>
    intro u st pre g w hu ho hc hg hw _
    refine ⟨st, u, g, w, rfl, ho, hu, ?_, hg, .refl _⟩
    rw [List.append_nil]
    exact hc
  | cons h _ ih =>
    intro u st pre g w hu ho hc hg hw hb
    rename_i nr sr ns srs _
    obtain ⟨h1, rfl, h3⟩ := h
    have hsum : recsOf (pre ++ sr :: srs) = recsOf (pre ++ [sr]) + recsOf srs := by simp [recsOf]; omega
    obtain ⟨st1, u1, g1, w1, a1, a2, a3, a4, a5, a6, a7⟩ := addSym_ok o e z hm hA hX hu ho hc h3 h1 hg hw (by omega)
    obtain ⟨st2, u2, g2, w2, b1, b2, b3, b4, b5, b6⟩ := ih a3 a2 a4 a6 a5 (by rw [List.append_assoc]; exact hb)
    refine ⟨st2, u2, g2, w2, ?_, b2, b3, by rw [List.append_assoc] at b4; exact b4, b5, a7.trans b6⟩
    unfold addSyms
    simp only [a1, Res.bind_ok]
    exact b1

/-- The input file `f`: opening it gives `a`, and its symbols are `srs`. -/
structure Input (z : Cz) (f : InFile) (srs : List Src) : Prop where
  file : ∃ a b, openReadXX z Gx.new f.disk 0 = .ok (a, (b, 0)) ∧ a.mode = .rInit ∧ a.nrMapped = 0 ∧ acronymCount a = 0 ∧ (systemInfo a).1 = srs.length ∧
    (∀ s ∈ srs, s.id = f.id ∧ s.a = a) ∧ ∀ (n : Nat) s, srs[n]? = some s → SymAt z { a with nextAuto := 0 } ((n : Int) + 1) s

theorem upTo_rel {R : Int → Src → Prop} {srs : List Src} (h : ∀ (n : Nat) s, srs[n]? = some s → R ((n : Int) + 1) s) :
    List.Forall₂ R (upTo srs.length) srs := by
  have : upTo (srs.length : Int) = (List.range srs.length).map fun k : Nat => (k : Int) + 1 := by
    unfold upTo
    rw [Int.toNat_natCast]
  rw [this, List.forall₂_iff_get]
  refine ⟨by simp, fun i h1 h2 => ?_⟩
  simp only [List.get_eq_getElem, List.getElem_map, List.getElem_range]
  exact h i _ (List.getElem?_eq_getElem h2)

theorem addFile_ok (o : Opt) (e : Env) (z : Cz) {A X : List Str} {m : Gx} (hm : m.mode = .wInit) (hA : A.length < 2147483647) (hX : X.length < 2147483648)
    {f : InFile} {srs : List Src} (hf : Input z f srs) (hs : ∀ s ∈ srs, SrcOk A X s) {u : Uel} {st : MState} {pre : List Src} {q : Mode} (hu : Labels A u)
    (ho : st.out = { m with uel := some u, modeAft := q }) (hc : Coll o X u pre st) (hb : recsOf (pre ++ srs) ≤ 2147483647) :
    ∃ st' u' q', addFile o z .doAll st f = .ok st' ∧ st'.out = { m with uel := some u', modeAft := q' } ∧ Labels A u' ∧ Coll o X u' (pre ++ srs) st' ∧
      Props.StaysIn e z st.out st'.out := by
  obtain ⟨a, bb, f1, f2, f3, f4, f5, f6, f7⟩ := hf.file
  have hstart : uelRegisterStrStart { m with uel := some u, modeAft := q } = ({ m with uel := some u, modeAft := .wInit, mode := .strElem }, true) := by
    unfold uelRegisterStrStart uelRegisterStart
    rcases chk_cases ({ m with uel := some u, modeAft := q } : Gx) [.rInit, .wInit] with ⟨_, hc⟩ | ⟨hc, _⟩
    · simp only [hc, if_true]
      rw [if_pos hm]
    · exact absurd (by simp [hm]) hc
  have hdone : ∀ v, uelRegisterDone { m with uel := some v, modeAft := .wInit, mode := .strElem } = ({ m with uel := some v, modeAft := .wInit }, true) := by
    intro v
    unfold uelRegisterDone
    rcases chk_cases ({ m with uel := some v, modeAft := .wInit, mode := .strElem } : Gx) [.rawElem, .mapElem, .strElem] with ⟨_, hc⟩ | ⟨hc, _⟩
    · simp only [hc, if_true]
      have hm' := hm.symm
      cases m
      dsimp only at hm' ⊢
      subst hm'
      rfl
    · exact absurd (by simp) hc
  have hbt : Between { a with nextAuto := 0 } { a with nextAuto := 0 } :=
    ⟨⟨rfl, rfl, rfl, rfl, rfl, rfl, rfl, rfl, rfl, rfl, rfl, rfl, rfl, rfl, rfl, rfl, rfl, rfl, rfl⟩, f2, f3⟩
  obtain ⟨st1, u1, g1, w1, a1, a2, a3, a4, a5, a6⟩ := addSyms_ok o e z (b := { m with modeAft := .wInit, mode := .strElem }) rfl hA hX
    (upTo_rel (R := fun nr sr => SymAt z { a with nextAuto := 0 } nr sr ∧ sr.id = f.id ∧ SrcOk A X sr) fun n s h => ⟨f7 n s h,
      (f6 s (List.mem_of_getElem? h)).1, hs s (List.mem_of_getElem? h)⟩) (u := u)
    (st := { st with read := st.read + 1, out := { m with uel := some u, modeAft := .wInit, mode := .strElem } }) (pre := pre) (w := {}) hu rfl
    ⟨hc.rows, hc.pool, hc.acro, hc.errs⟩ hbt ⟨rfl, rfl⟩ hb
  refine ⟨{ st1 with out := { m with uel := some u1, modeAft := .wInit } }, u1, .wInit, ?_, rfl, a3, ⟨a4.rows, a4.pool, a4.acro, a4.errs⟩, ?_⟩
  · unfold addFile shareAcronyms acronymNextNr
    simp only [f1, Res.bind_ok, f4, if_true, ge_iff_le, le_refl, ho, hstart]
    rw [if_neg (by simp)]
    have hsi : (systemInfo { a with nextAuto := 0 }).1 = srs.length := f5
    simp only [hsi, a1, Res.bind_ok]
    have hk : keepAcronyms st1 g1 = .ok st1 := by
      unfold keepAcronyms acronymNextNr
      simp only [if_false]
      rw [if_pos]
      rw [a4.acro, a5.same.auto]
    have hcl : gdxClose z g1 = .ok (g1.freeAll, if g1.opened then 0 else 1) := by
      unfold gdxClose finishWrite saveIf
      rw [if_neg (by simp [a5.mode])]
      simp only [Res.bind_ok]
      rw [if_neg (by simp [a5.mode])]
      rfl
    simp only [hk, hcl, Res.bind_ok, a2, hdone]
    rfl
  · rw [ho]
    have s1 : Props.StaysIn e z { m with uel := some u, modeAft := q } { m with uel := some u, modeAft := .wInit, mode := .strElem } :=
      .one (c := .uelStrStart) trivial rfl (by show Res.ok (uelRegisterStrStart _).1 = _; rw [hstart])
    have s2 : Props.StaysIn e z { m with uel := some u1, modeAft := .wInit, mode := .strElem } { m with uel := some u1, modeAft := .wInit } :=
      .one (c := .uelDone) trivial rfl (by show Res.ok (uelRegisterDone _).1 = _; rw [hdone])
    exact s1.trans (a6.trans s2)

theorem addFiles_ok (o : Opt) (e : Env) (z : Cz) {A X : List Str} {m : Gx} (hm : m.mode = .wInit) (hA : A.length < 2147483647) (hX : X.length < 2147483648)
    {fs : List InFile} {srss : List (List Src)} (h : List.Forall₂ (fun f srs => Input z f srs ∧ ∀ s ∈ srs, SrcOk A X s) fs srss) :
    ∀ {u : Uel} {st : MState} {pre : List Src} {q : Mode}, Labels A u → st.out = { m with uel := some u, modeAft := q } → Coll o X u pre st →
      recsOf (pre ++ srss.flatten) ≤ 2147483647 →
      ∃ st' u' q', addFiles o z .doAll st fs = .ok st' ∧ st'.out = { m with uel := some u', modeAft := q' } ∧ Labels A u' ∧ Coll o X u' (pre ++ srss.flatten) st' ∧
        Props.StaysIn e z st.out st'.out := by
  induction h with
  | nil =>
    intro u st pre q hu ho hc _
    refine ⟨st, u, q, rfl, ho, hu, ?_, .refl _⟩
    rw [List.flatten_nil, List.append_nil]
    exact hc
  | cons h _ ih =>
    intro u st pre q hu ho hc hb
    rename_i f srs fs srss _
    have hsum : recsOf (pre ++ (srs :: srss).flatten) = recsOf (pre ++ srs) + recsOf srss.flatten := by simp [recsOf]; omega
    obtain ⟨st1, u1, q1, a1, a2, a3, a4, a5⟩ := addFile_ok o e z hm hA hX h.1 h.2 hu ho hc (by omega)
    obtain ⟨st2, u2, q2, b1, b2, b3, b4, b5⟩ := ih a3 a2 a4 (by rw [List.append_assoc]; exact hb)
    refine ⟨st2, u2, q2, ?_, b2, b3, by rw [List.append_assoc] at b4; exact b4, a5.trans b5⟩
    unfold addFiles
    simp only [a1, Res.bind_ok]
    exact b1

end Gdx.Merge
