import Verif.Proofs.MergeRun
import Verif.Proofs.DiffOpen

/-! gdxmerge with the option for big symbols: the two passes through the files. -/

namespace Gdx.Merge
open Gdx Gdx.Spec Gdx.Props

/-! ### a pass, for any invariant -/

/-- An invariant of a pass with the symbols `l`: `I pre u st` after the symbols `pre` -/
structure PassInv (o : Opt) (e : Env) (z : Cz) (p : Pass) (A X : List Str) (l : List Src) (I : List Src → Uel → MState → Prop) : Prop where
  out : ∀ pre u st g n, I pre u st → I pre u { st with out := g, read := n }
  acro : ∀ pre u st, I pre u st → st.nextAcro = 0
  step : ∀ {b : Gx} {u : Uel} {st : MState} {pre : List Src} {sr : Src} {a : Gx} {nr : Int} {g : Gx} {w : Bufs}, b.mode = .strElem → Labels A u →
    st.out = { b with uel := some u } → I pre u st → SrcOk A X sr → SymAt z a nr sr → Between a g → (w.idx.length = 20 ∧ w.vals.length = 5) → pre ++ [sr] <+: l →
    ∃ st' u' g' w', addSym o z p sr.id st g w nr = .ok (st', g', w') ∧ st'.out = { b with uel := some u' } ∧ Labels A u' ∧ I (pre ++ [sr]) u' st' ∧
      (w'.idx.length = 20 ∧ w'.vals.length = 5) ∧ Between a g' ∧ StaysIn e z { b with uel := some u } { b with uel := some u' }

theorem PassInv.syms {o : Opt} {e : Env} {z : Cz} {p : Pass} {A X : List Str} {l : List Src} {I : List Src → Uel → MState → Prop} (hI : PassInv o e z p A X l I)
    {b : Gx} (hm : b.mode = .strElem) {a : Gx} {id : Str} {ns : List Int} {srs : List Src}
    (h : List.Forall₂ (fun nr sr => SymAt z a nr sr ∧ sr.id = id ∧ SrcOk A X sr) ns srs) :
    ∀ {u : Uel} {st : MState} {pre : List Src} {g : Gx} {w : Bufs}, Labels A u → st.out = { b with uel := some u } → I pre u st →
      Between a g → (w.idx.length = 20 ∧ w.vals.length = 5) → pre ++ srs <+: l →
      ∃ st' u' g' w', addSyms o z p id st g w ns = .ok (st', g', w') ∧ st'.out = { b with uel := some u' } ∧ Labels A u' ∧ I (pre ++ srs) u' st' ∧
        Between a g' ∧ StaysIn e z { b with uel := some u } { b with uel := some u' } := by
  induction h with
  | nil =>
    intro u st pre g w hu ho hc hg hw _
    refine ⟨st, u, g, w, rfl, ho, hu, ?_, hg, .refl _⟩
    rw [List.append_nil]
    exact hc
  | cons h _ ih =>
    intro u st pre g w hu ho hc hg hw hb
    rename_i nr sr ns srs _
    obtain ⟨h1, rfl, h3⟩ := h
    obtain ⟨st1, u1, g1, w1, a1, a2, a3, a4, a5, a6, a7⟩ := hI.step hm hu ho hc h3 h1 hg hw
      (List.IsPrefix.trans ⟨srs, by rw [List.append_assoc]; rfl⟩ hb)
    obtain ⟨st2, u2, g2, w2, b1, b2, b3, b4, b5, b6⟩ := ih a3 a2 a4 a6 a5 (by rw [List.append_assoc]; exact hb)
    refine ⟨st2, u2, g2, w2, ?_, b2, b3, by rw [List.append_assoc] at b4; exact b4, b5, a7.trans b6⟩
    unfold addSyms
    simp only [a1, Res.bind_ok]
    exact b1

theorem regStart_eq {m : Gx} (hm : m.mode = .wInit) : uelRegisterStrStart m = ({ m with modeAft := .wInit, mode := .strElem }, true) := by
  unfold uelRegisterStrStart uelRegisterStart
  rcases chk_cases m [.rInit, .wInit] with ⟨_, hc⟩ | ⟨hc, _⟩
  · simp only [hc, if_true]
    rw [if_pos hm]
  · exact absurd (by simp [hm]) hc

theorem regDone_eq {m : Gx} (hm : m.mode = .wInit) (v : Uel) :
    uelRegisterDone { m with uel := some v, modeAft := .wInit, mode := .strElem } = ({ m with uel := some v, modeAft := .wInit }, true) := by
  unfold uelRegisterDone
  rcases chk_cases ({ m with uel := some v, modeAft := .wInit, mode := .strElem } : Gx) [.rawElem, .mapElem, .strElem] with ⟨_, hc⟩ | ⟨hc, _⟩
  · simp only [hc, if_true]
    have hm' := hm.symm
    cases m
    dsimp only at hm' ⊢
    subst hm'
    rfl
  · exact absurd (by simp) hc

theorem close_read (z : Cz) {g : Gx} (h : g.mode = .rInit) : gdxClose z g = .ok (g.freeAll, if g.opened then 0 else 1) := by
  unfold gdxClose finishWrite saveIf
  rw [if_neg (by simp [h])]
  simp only [Res.bind_ok]
  rw [if_neg (by simp [h])]
  rfl

theorem PassInv.file {o : Opt} {e : Env} {z : Cz} {p : Pass} {A X : List Str} {l : List Src} {I : List Src → Uel → MState → Prop} (hI : PassInv o e z p A X l I)
    {m : Gx} (hm : m.mode = .wInit)
    {f : InFile} {srs : List Src} (hf : Input z f srs) (hs : ∀ s ∈ srs, SrcOk A X s) {u : Uel} {st : MState} {pre : List Src} {q : Mode} (hu : Labels A u)
    (ho : st.out = { m with uel := some u, modeAft := q }) (hc : I pre u st) (hb : pre ++ srs <+: l) :
    ∃ st' u' q', addFile o z p st f = .ok st' ∧ st'.out = { m with uel := some u', modeAft := q' } ∧ Labels A u' ∧ I (pre ++ srs) u' st' ∧
      StaysIn e z st.out st'.out := by
  obtain ⟨a, bb, f1, f2, f3, f4, f5, f6, f7⟩ := hf.file
  have hstart : uelRegisterStrStart { m with uel := some u, modeAft := q } = ({ m with uel := some u, modeAft := .wInit, mode := .strElem }, true) := regStart_eq hm
  have hdone := regDone_eq hm
  have hbt : Between { a with nextAuto := 0 } { a with nextAuto := 0 } :=
    ⟨⟨rfl, rfl, rfl, rfl, rfl, rfl, rfl, rfl, rfl, rfl, rfl, rfl, rfl, rfl, rfl, rfl, rfl, rfl, rfl⟩, f2, f3⟩
  obtain ⟨st1, u1, g1, w1, a1, a2, a3, a4, a5, a6⟩ := hI.syms (b := { m with modeAft := .wInit, mode := .strElem }) rfl
    (upTo_rel (R := fun nr sr => SymAt z { a with nextAuto := 0 } nr sr ∧ sr.id = f.id ∧ SrcOk A X sr) fun n s h => ⟨f7 n s h,
      (f6 s (List.mem_of_getElem? h)).1, hs s (List.mem_of_getElem? h)⟩) (u := u)
    (st := { st with read := st.read + 1, out := { m with uel := some u, modeAft := .wInit, mode := .strElem } }) (pre := pre) (w := {}) hu rfl
    (hI.out _ _ _ _ _ hc) hbt ⟨rfl, rfl⟩ hb
  refine ⟨{ st1 with out := { m with uel := some u1, modeAft := .wInit } }, u1, .wInit, ?_, rfl, a3, hI.out _ _ _ _ st1.read a4, ?_⟩
  · unfold addFile shareAcronyms acronymNextNr
    simp only [f1, Res.bind_ok, f4, if_true, ge_iff_le, le_refl, ho, hstart]
    rw [if_neg (by simp)]
    have hsi : (systemInfo { a with nextAuto := 0 }).1 = srs.length := f5
    simp only [hsi, a1, Res.bind_ok]
    have hk : keepAcronyms st1 g1 = .ok st1 := by
      unfold keepAcronyms acronymNextNr
      simp only [if_false]
      rw [if_pos]
      rw [hI.acro _ _ _ a4, a5.same.auto]
    simp only [hk, close_read z a5.mode, Res.bind_ok, a2, hdone]
    rfl
  · rw [ho]
    have s1 : StaysIn e z { m with uel := some u, modeAft := q } { m with uel := some u, modeAft := .wInit, mode := .strElem } :=
      .one (c := .uelStrStart) trivial rfl (by show Res.ok (uelRegisterStrStart _).1 = _; rw [hstart])
    have s2 : StaysIn e z { m with uel := some u1, modeAft := .wInit, mode := .strElem } { m with uel := some u1, modeAft := .wInit } :=
      .one (c := .uelDone) trivial rfl (by show Res.ok (uelRegisterDone _).1 = _; rw [hdone])
    exact s1.trans (a6.trans s2)

theorem PassInv.files {o : Opt} {e : Env} {z : Cz} {p : Pass} {A X : List Str} {l : List Src} {I : List Src → Uel → MState → Prop} (hI : PassInv o e z p A X l I)
    {m : Gx} (hm : m.mode = .wInit)
    {fs : List InFile} {srss : List (List Src)} (h : List.Forall₂ (fun f srs => Input z f srs ∧ ∀ s ∈ srs, SrcOk A X s) fs srss) :
    ∀ {u : Uel} {st : MState} {pre : List Src} {q : Mode}, Labels A u → st.out = { m with uel := some u, modeAft := q } → I pre u st →
      pre ++ srss.flatten <+: l →
      ∃ st' u' q', addFiles o z p st fs = .ok st' ∧ st'.out = { m with uel := some u', modeAft := q' } ∧ Labels A u' ∧ I (pre ++ srss.flatten) u' st' ∧
        StaysIn e z st.out st'.out := by
  induction h with
  | nil =>
    intro u st pre q hu ho hc _
    refine ⟨st, u, q, rfl, ho, hu, ?_, .refl _⟩
    rw [List.flatten_nil, List.append_nil]
    exact hc
  | cons h _ ih =>
    intro u st pre q hu ho hc hb
    rename_i f srs fs srss _
    obtain ⟨st1, u1, q1, a1, a2, a3, a4, a5⟩ := hI.file hm h.1 h.2 hu ho hc
      (List.IsPrefix.trans ⟨srss.flatten, by rw [List.append_assoc]; rfl⟩ hb)
    obtain ⟨st2, u2, q2, b1, b2, b3, b4, b5⟩ := ih a3 a2 a4 (by rw [List.append_assoc]; exact hb)
    refine ⟨st2, u2, q2, ?_, b2, b3, by rw [List.append_assoc] at b4; exact b4, a5.trans b5⟩
    unfold addFiles
    simp only [a1, Res.bind_ok]
    exact b1

/-! ### symbols that agree -/

/-- Symbols with the same name agree in dimension, type, subtype (of variables and equations), and all or none of them may be
    merged; all dimensions are below 20. -/
structure Agree (o : Opt) (l : List Src) : Prop where
  dim : ∀ s ∈ l, s.dim < 20
  same : ∀ s ∈ l, ∀ t ∈ l, SameNoCase s.name t.name →
    t.dim = s.dim ∧ t.typ = s.typ ∧ ((t.typ = dtVar ∨ t.typ = dtEqu) → t.sub = s.sub) ∧ o.takes t.name = o.takes s.name

theorem Agree.joins {o : Opt} {l : List Src} (h : Agree o l) {s t : Src} (hs : s ∈ l) (ht : t ∈ l) (hn : SameNoCase s.name t.name) : Joins s t := by
  obtain ⟨a, b, c, _⟩ := h.same s hs t ht hn
  exact ⟨h.dim t ht, hn, a, b, c⟩

/-- the row of the table with this number -/
theorem row_of {o : Opt} {l : List Src} {n : Nat} {r : Row} (h : (table o l)[n]? = some r) : ∃ i, RowOf o l i r := by
  obtain ⟨is, _, _, t3⟩ := table_rows o l
  obtain ⟨hi, rfl⟩ := List.getElem?_eq_some_iff.mp h
  have hT := List.forall₂_iff_get.mp t3
  exact ⟨_, hT.2 n (by rw [hT.1]; exact hi) hi⟩

theorem Agree.fits {o : Opt} {l pre : List Src} (h : Agree o l) (hp : pre <+: l) {n : Nat} {r : Row} (hr : (table o pre)[n]? = some r) {t : Src} (ht : t ∈ l)
    (hn : SameNoCase r.name t.name) : r.fits t = true := by
  obtain ⟨i, hi⟩ := row_of hr
  obtain ⟨s, a1, a2, a3, a4, a5, _⟩ := hi.lead
  rw [a2] at hn
  exact (fits_iff a2 a3 a4 a5 (h.dim t ht) hn).mpr (h.joins (hp.subset (List.mem_of_getElem? a1.get)) ht hn)

/-- the symbols with this name -/
def named (s : Str) (l : List Src) : List Src := l.filter fun t => sameText false s t.name

/-- a row is made of all symbols with its name -/
theorem Agree.srcs {o : Opt} {l : List Src} (h : Agree o l) {n : Nat} {r : Row} (hr : (table o l)[n]? = some r) : r.srcs = named r.name l := by
  obtain ⟨i, hi⟩ := row_of hr
  obtain ⟨s, a1, a2, _, _, _, a6⟩ := hi.lead
  obtain ⟨hil, hget⟩ := List.getElem?_eq_some_iff.mp a1.get
  have hsm : s ∈ l := List.mem_of_getElem? a1.get
  have hl : l = l.take i ++ s :: l.drop (i + 1) := by
    rw [← hget, ← List.drop_eq_getElem_cons hil, List.take_append_drop]
  unfold named
  rw [a6, a2]
  conv_rhs => rw [hl]
  rw [List.filter_append, List.filter_cons, if_pos (by exact (sameText_iff false _ _).mpr rfl)]
  have hnil : (l.take i).filter (fun t => sameText false s.name t.name) = [] := by
    rw [List.filter_eq_nil_iff]
    intro t ht hn
    have hn : SameNoCase s.name t.name := (sameText_iff false _ _).mp hn
    obtain ⟨j, hj, he⟩ := List.mem_iff_getElem.mp ht
    rw [List.length_take] at hj
    rw [List.getElem_take] at he
    have htm : t ∈ l := List.mem_of_mem_take ht
    refine a1.first j t (by omega) (by rw [← he]; exact List.getElem?_eq_getElem _) ⟨h.dim t htm, ?_⟩ hn.symm
    rw [(h.same s hsm t htm hn).2.2.2]
    exact a1.may.2
  rw [hnil, List.nil_append]
  · congr 1
    refine List.filter_congr fun t ht => ?_
    have htm : t ∈ l := List.mem_of_mem_drop ht
    rw [Bool.eq_iff_iff, decide_eq_true_iff]
    constructor
    · exact fun hj => (sameText_iff false _ _).mpr hj.2.1
    · exact fun hn => h.joins hsm htm ((sameText_iff false _ _).mp hn)

/-- a symbol has a row exactly if it may be merged -/
theorem Agree.found {o : Opt} {l : List Src} (h : Agree o l) {t : Src} (ht : t ∈ l) :
    (((table o l).findIdx? fun r => sameText false r.name t.name) = none) ↔ o.takes t.name = false := by
  obtain ⟨is, t1, t2, t3⟩ := table_rows o l
  rw [List.findIdx?_eq_none_iff]
  constructor
  · intro hn
    by_contra hc
    obtain ⟨i, hi, he⟩ := List.mem_iff_getElem.mp ht
    obtain ⟨j, s, j1, j2⟩ := leads_exists o l i (t := t) (by rw [← he]; exact List.getElem?_eq_getElem hi) ⟨h.dim t ht, by simpa using hc⟩
    obtain ⟨k, hk, he⟩ := List.mem_iff_getElem.mp ((t2 j).mpr ⟨s, j1⟩)
    have hk' : k < (table o l).length := by rw [← t3.length_eq]; exact hk
    have hrow := (List.forall₂_iff_get.mp t3).2 k hk hk'
    simp only [List.get_eq_getElem, he] at hrow
    obtain ⟨s0, a1, a2, _⟩ := hrow.lead
    have hss := a1.get
    rw [j1.get] at hss
    cases hss
    have := hn _ (List.getElem_mem hk')
    rw [a2, (sameText_iff false _ _).mpr j2] at this
    cases this
  · intro hf r hr
    obtain ⟨n, hn, he⟩ := List.mem_iff_getElem.mp hr
    obtain ⟨i, hi⟩ := row_of (o := o) (l := l) (n := n) (r := r) (by rw [← he]; exact List.getElem?_eq_getElem hn)
    obtain ⟨s, a1, a2, _⟩ := hi.lead
    by_contra hc
    have hn : SameNoCase s.name t.name := by
      rw [← a2]
      exact (sameText_iff false _ _).mp (by simpa using hc)
    have := (h.same s (List.mem_of_getElem? a1.get) t ht hn).2.2.2
    rw [hf, a1.may.2] at this
    cases this

/-! ### the pass that counts -/

/-- the size that the program computes is at most this -/
def weight (l : List Src) : Nat := (l.map fun s => s.recs.length * (s.dim + 1) * (if isVarEqu s.typ then 4 else 1)).sum

theorem weight_snoc (l : List Src) (s : Src) : weight (l ++ [s]) = weight l + s.recs.length * (s.dim + 1) * (if isVarEqu s.typ then 4 else 1) := by
  simp [weight]

/-- the symbol `y` of the program after the pass that counts -/
structure Scanned (r : Row) (y : MSym) : Prop where
  name : y.name = r.name
  dim : y.dim = r.dim + 1
  typ : y.typ = r.typ
  sub : y.sub = r.sub
  skip : y.skip = false
  expl : y.expl = []
  data : y.data = some []
  size : y.size ≤ weight r.srcs

structure ScanI (o : Opt) (X : List Str) (pre : List Src) (st : MState) : Prop where
  rows : List.Forall₂ Scanned (table o pre) st.syms
  pool : st.pool = [[]]
  acro : st.nextAcro = 0
  errs : st.errs = 0

theorem symIdx_scan {t : List Row} {l : List MSym} (h : List.Forall₂ Scanned t l) (s : Str) :
    symIdx l s = t.findIdx? fun r => sameText false r.name s := by
  unfold symIdx
  induction h with
  | nil => rfl
  | cons h _ ih =>
    simp only [List.findIdx?_cons, ih, h.name]

theorem scan_found {o : Opt} {z : Cz} {t : List Row} {st : MState} (hr : List.Forall₂ Scanned t st.syms) {sr : Src} {g : Gx} {w : Bufs} {n : Nat} {r : Row}
    (hn : t[n]? = some r) {nr : Int} {i : SymInfo} {x : SymInfoX} (i2 : i.typ = sr.typ) (x3 : x.recs ≤ (sr.recs.length : Int)) (hb : sr.recs.length ≤ 2147483647)
    (hf : r.fits sr = true) :
    ∃ y, addFound o z .scan sr.id st g w nr n i x = .ok ({ st with syms := st.syms.set n y }, g, w) ∧
      List.Forall₂ Scanned (t.modify n fun r => if r.fits sr then { r with srcs := r.srcs ++ [sr] } else r) (st.syms.set n y) := by
  obtain ⟨y, hy, hrow⟩ := forall₂_get hr hn
  obtain ⟨s1, s2, s3, s4, s5, s6, s7, s8⟩ := hrow
  have hdim : sr.dim = r.dim := by
    unfold Row.fits at hf
    simp only [Bool.and_eq_true, decide_eq_true_eq] at hf
    exact hf.1.1
  have hcs : countSym .scan y i.typ x.recs = { y with size := y.size + symSize y i.typ x.recs } := by
    unfold countSym
    rw [if_pos (by simp)]
    dsimp only
    rw [if_neg]
    rw [s7]
    simp only [Option.getD_some, List.length_nil]
    omega
  refine ⟨{ y with size := y.size + symSize y i.typ x.recs }, ?_, ?_⟩
  · unfold addFound
    rw [hy]
    simp only [need, Res.bind_ok]
    rw [if_neg (by rw [s7, s5]; simp), hcs]
    rw [if_neg (by simp [s7]), if_pos (Or.inl trivial)]
    rfl
  · refine forall₂_set hr ?_
    intro r' hr'
    rw [hn] at hr'
    cases hr'
    rw [if_pos hf]
    refine ⟨s1, s2, s3, s4, s5, s6, s7, ?_⟩
    show y.size + symSize y i.typ x.recs ≤ _
    rw [weight_snoc]
    unfold symSize
    rw [s2, i2, hdim]
    push_cast
    refine Int.add_le_add s8 ?_
    refine Int.mul_le_mul_of_nonneg_right (Int.mul_le_mul_of_nonneg_right x3 (by omega)) (by split <;> omega)

theorem scan_inv {o : Opt} {e : Env} {z : Cz} {A X : List Str} {l : List Src} (hl : Agree o l) (hrec : recsOf l ≤ 2147483647) :
    PassInv o e z .scan A X l (fun pre _ st => ScanI o X pre st) := by
  refine ⟨fun pre u st g n h => ⟨h.rows, h.pool, h.acro, h.errs⟩, fun pre u st h => h.acro, ?_⟩
  intro b u st pre sr a nr g w hm hu ho hc hs hat hg hw hpre
  have hsm : sr ∈ l := hpre.subset (by simp)
  have hd := hl.dim sr hsm
  have hp : pre <+: l := List.IsPrefix.trans ⟨[sr], rfl⟩ hpre
  have hbr : sr.recs.length ≤ 2147483647 := by
    have : recsOf [sr] ≤ recsOf l := by
      unfold recsOf
      refine List.Sublist.sum_le_sum ?_ fun _ _ => Nat.zero_le _
      exact (List.singleton_sublist.mpr hsm).map _
    simp [recsOf] at this
    unfold recsOf at hrec
    omega
  rw [addSym_eq]
  obtain ⟨k, hk⟩ := hs.typ
  obtain ⟨i, x, i1, i2, i3, x1, x2, x3, hls⟩ := listSym_eq (o := o) (st := st) hat hg hd hk
  rw [hls, symIdx_scan hc.rows]
  have hpl : table o (pre ++ [sr]) = place o (table o pre) sr := table_snoc o pre sr
  unfold place at hpl
  rw [if_pos hd] at hpl
  cases hfi : (table o pre).findIdx? fun r => sameText false r.name sr.name with
  | some n =>
    rw [hfi] at hpl
    dsimp only at hpl
    obtain ⟨hlt, hsame, _⟩ := List.findIdx?_eq_some_iff_getElem.mp hfi
    have hn := List.getElem?_eq_getElem hlt
    have hfit := hl.fits hp hn hsm ((sameText_iff false _ _).mp hsame)
    obtain ⟨y, c1, c2⟩ := scan_found (o := o) (z := z) (g := g) (w := w) (nr := nr) hc.rows hn i2 x3 hbr hfit
    exact ⟨_, u, g, w, c1, ho, hu, ⟨by rw [hpl]; exact c2, hc.pool, hc.acro, hc.errs⟩, hw, hg, .refl _⟩
  | none =>
    rw [hfi] at hpl
    dsimp only at hpl
    by_cases hta : o.takes sr.name = true
    · rw [if_pos hta] at hpl
      dsimp only
      rw [if_neg (by simp [hta])]
      have hrows : List.Forall₂ Scanned (table o pre ++ [⟨sr.name, sr.dim, sr.typ, sr.sub, []⟩])
          (st.syms ++ [{ name := sr.name, dim := sr.dim + 1, typ := sr.typ, sub := sr.sub }]) :=
        List.rel_append hc.rows (.cons ⟨rfl, rfl, rfl, rfl, rfl, rfl, rfl, by simp [weight]⟩ .nil)
      have hfit : (⟨sr.name, sr.dim, sr.typ, sr.sub, []⟩ : Row).fits sr = true := by
        unfold Row.fits
        simp
      obtain ⟨y, c1, c2⟩ := scan_found (o := o) (z := z) (g := g) (w := w) (nr := nr)
        (st := { st with syms := st.syms ++ [{ name := sr.name, dim := sr.dim + 1, typ := sr.typ, sub := sr.sub }] }) hrows
        (n := st.syms.length) (r := ⟨sr.name, sr.dim, sr.typ, sr.sub, []⟩) (by rw [← hc.rows.length_eq]; simp) i2 x3 hbr hfit
      refine ⟨_, u, g, w, c1, ho, hu, ⟨?_, hc.pool, hc.acro, hc.errs⟩, hw, hg, .refl _⟩
      rw [hpl]
      rw [← hc.rows.length_eq, modify_last, hfit] at c2
      rw [← hc.rows.length_eq]
      exact c2
    · rw [if_neg hta] at hpl
      dsimp only
      rw [if_pos (by simpa using hta)]
      exact ⟨st, u, g, w, rfl, ho, hu, ⟨by rw [hpl]; exact hc.rows, hc.pool, hc.acro, hc.errs⟩, hw, hg, .refl _⟩

/-! ### the pass that collects the small symbols -/

/-- the size from which on a symbol is big -/
def Opt.cut (o : Opt) : Int := o.big.getD 10000000

/-- the symbol `y` of the program after the symbols `pre`: `y0` was counted -/
structure SmallOk (o : Opt) (L P : List Str) (pre : List Src) (r : Row) (y0 y : MSym) : Prop where
  size : y.size = y0.size
  big : o.cut ≤ y0.size → y = y0
  small : y0.size < o.cut → RowOk L P { r with srcs := named r.name pre } y

theorem SmallOk.mono {o : Opt} {L L' P P' : List Str} {pre : List Src} {r : Row} {y0 y : MSym} (h : SmallOk o L P pre r y0 y) (hl : L <+: L') (hp : P <+: P') :
    SmallOk o L' P' pre r y0 y := ⟨h.size, h.big, fun hs => (h.small hs).mono hl hp⟩

/-- the state of the program after the symbols `pre`: `S` are the symbols after counting -/
structure SmallI (o : Opt) (X : List Str) (l : List Src) (S : List MSym) (pre : List Src) (u : Uel) (st : MState) : Prop where
  rows : ∀ (n : Nat) r, (table o l)[n]? = some r → ∃ y0 y, S[n]? = some y0 ∧ st.syms[n]? = some y ∧ SmallOk o u.strs st.pool pre r y0 y
  len : st.syms.length = (table o l).length
  pool : Texts X st.pool
  acro : st.nextAcro = 0
  errs : st.errs ≤ errsOf o pre

theorem named_snoc (s : Str) (pre : List Src) (t : Src) : named s (pre ++ [t]) = if sameText false s t.name then named s pre ++ [t] else named s pre := by
  unfold named
  rw [List.filter_append, List.filter_singleton]
  cases sameText false s t.name <;> simp

theorem symIdx_small {o : Opt} {X : List Str} {l : List Src} {S : List MSym} {pre : List Src} {u : Uel} {st : MState} (hS : List.Forall₂ Scanned (table o l) S)
    (h : SmallI o X l S pre u st) (s : Str) : symIdx st.syms s = (table o l).findIdx? fun r => sameText false r.name s := by
  have hnm : st.syms.map MSym.name = (table o l).map Row.name := by
    apply List.ext_getElem?
    intro n
    rw [List.getElem?_map, List.getElem?_map]
    cases hr : (table o l)[n]? with
    | none =>
      rw [List.getElem?_eq_none_iff, ← h.len, ← List.getElem?_eq_none_iff] at hr
      rw [hr]
      rfl
    | some r =>
      obtain ⟨y0, y, h1, h2, h3⟩ := h.rows n r hr
      rw [h2]
      obtain ⟨y', h4, h5⟩ := forall₂_get hS hr
      rw [h1] at h4
      cases h4
      simp only [Option.map_some]
      congr 1
      by_cases hc : o.cut ≤ y0.size
      · rw [h3.big hc, h5.name]
      · rw [(h3.small (by omega)).name]
  unfold symIdx
  have : ∀ (a : List MSym) (b : List Row), a.map MSym.name = b.map Row.name → a.findIdx? (fun y => sameText false y.name s) = b.findIdx? fun r => sameText false r.name s := by
    intro a
    induction a with
    | nil =>
      intro b hb
      cases b with
      | nil => rfl
      | cons _ _ => cases hb
    | cons y a ih =>
      intro b hb
      cases b with
      | nil => cases hb
      | cons r b =>
        simp only [List.map_cons, List.cons.injEq] at hb
        simp only [List.findIdx?_cons, hb.1, ih b hb.2]
  exact this _ _ hnm

theorem same_name_nat {o : Opt} {l : List Src} {i j : Nat} {r s : Row} (hi : (table o l)[i]? = some r) (hj : (table o l)[j]? = some s) (hn : SameNoCase r.name s.name) :
    i = j := by
  obtain ⟨h1, rfl⟩ := List.getElem?_eq_some_iff.mp hi
  obtain ⟨h2, rfl⟩ := List.getElem?_eq_some_iff.mp hj
  have hp := List.pairwise_iff_getElem.mp (table_names o l)
  rcases lt_trichotomy i j with h | h | h
  · exact absurd hn (hp i j h1 h2 h)
  · exact h
  · exact absurd hn.symm (hp j i h2 h1 h)

theorem small_inv {o : Opt} {e : Env} {z : Cz} {A X : List Str} (hA : A.length < 2147483647) (hX : X.length < 2147483648) {l : List Src} (hl : Agree o l)
    {S : List MSym} (hS : List.Forall₂ Scanned (table o l) S) : PassInv o e z .small A X l (SmallI o X l S) := by
  refine ⟨fun pre u st g n h => ⟨h.rows, h.len, h.pool, h.acro, h.errs⟩, fun pre u st h => h.acro, ?_⟩
  intro b u st pre sr a nr g w hm hu ho hc hs hat hg hw hpre
  have hsm : sr ∈ l := hpre.subset (by simp)
  have hd := hl.dim sr hsm
  have hp : pre <+: l := List.IsPrefix.trans ⟨[sr], rfl⟩ hpre
  have her := errsOf_snoc o pre sr
  rw [addSym_eq]
  obtain ⟨k, hk⟩ := hs.typ
  obtain ⟨i, x, i1, i2, i3, x1, x2, x3, hls⟩ := listSym_eq (o := o) (st := st) hat hg hd hk
  rw [hls, symIdx_small hS hc]
  cases hfi : (table o l).findIdx? fun r => sameText false r.name sr.name with
  | none =>
    have ht := (hl.found hsm).mp hfi
    dsimp only
    rw [if_pos ht]
    rw [List.findIdx?_eq_none_iff] at hfi
    refine ⟨st, u, g, w, rfl, ho, hu, ⟨?_, hc.len, hc.pool, hc.acro, by have := hc.errs; omega⟩, hw, hg, .refl _⟩
    intro n r hr
    obtain ⟨y0, y, h1, h2, h3⟩ := hc.rows n r hr
    refine ⟨y0, y, h1, h2, h3.size, h3.big, fun hsz => ?_⟩
    rw [named_snoc, if_neg (by rw [hfi r (List.mem_of_getElem? hr)]; simp)]
    exact h3.small hsz
  | some n =>
    obtain ⟨hlt, hsame, _⟩ := List.findIdx?_eq_some_iff_getElem.mp hfi
    have hn := List.getElem?_eq_getElem hlt
    generalize (table o l)[n] = r at hsame hn
    have hnm : SameNoCase r.name sr.name := (sameText_iff false _ _).mp hsame
    have hfit := hl.fits (List.prefix_refl _) hn hsm hnm
    obtain ⟨y0, y, h1, h2, h3⟩ := hc.rows n r hn
    obtain ⟨y', h4, h5⟩ := forall₂_get hS hn
    rw [h1] at h4
    cases h4
    have others : ∀ (m : Nat) (r' : Row), (table o l)[m]? = some r' → m ≠ n → named r'.name (pre ++ [sr]) = named r'.name pre := by
      intro m r' hr' hmn
      rw [named_snoc, if_neg]
      intro hc
      exact hmn (same_name_nat hr' hn ((show SameNoCase r'.name sr.name from (sameText_iff false _ _).mp hc).trans hnm.symm))
    dsimp only
    by_cases hbig : o.cut ≤ y0.size
    · have hyy := h3.big hbig
      subst hyy
      refine ⟨{ st with syms := st.syms.set n y }, u, g, w, ?_, ho, hu, ⟨?_, by simp [hc.len], hc.pool, hc.acro, by have := hc.errs; show st.errs ≤ _; omega⟩, hw, hg, .refl _⟩
      · show addFound o z .small sr.id st g w nr n i x = _
        unfold addFound
        rw [h2]
        simp only [need, Res.bind_ok]
        rw [if_neg (by rw [h5.data, h5.skip]; simp)]
        have hcs : countSym .small y i.typ x.recs = y := by
          unfold countSym
          rw [if_neg (by simp)]
        rw [hcs, if_neg (by simp [h5.data]), if_pos (Or.inr (Or.inl ⟨trivial, hbig⟩))]
        rfl
      · intro m r' hr'
        obtain ⟨z0, z1, k1, k2, k3⟩ := hc.rows m r' hr'
        refine ⟨z0, z1, k1, ?_, k3.size, k3.big, fun hsz => ?_⟩
        · show (st.syms.set n y)[m]? = _
          rw [List.getElem?_set]
          split
          · rename_i he
            subst he
            rw [h2] at k2
            cases k2
            rw [if_pos (List.getElem?_eq_some_iff.mp h2).1]
          · exact k2
        · by_cases hmn : m = n
          · subst hmn
            rw [h1] at k1
            cases k1
            omega
          · rw [others m r' hr' hmn]
            exact k3.small hsz
    · have hsz : y0.size < o.cut := by omega
      have hrow := h3.small hsz
      have hft : sr.dim = r.dim ∧ sr.typ = r.typ := by
        unfold Row.fits at hfit
        simp only [Bool.and_eq_true, decide_eq_true_eq] at hfit
        exact hfit.1
      have hag : agrees y i.dim i.typ x.userInfo = true := by
        rw [i1, i2, x1]
        exact (fits_agrees hrow sr).trans hfit
      have hlast : (if i.dim > 0 then some i.dim.toNat else none) = lastPos sr.dim := by
        unfold lastPos
        rw [i1]
        by_cases h0 : 0 < sr.dim
        · rw [if_pos h0, if_pos (by omega)]
          rfl
        · rw [if_neg h0, if_neg (by omega)]
      obtain ⟨xss, hd1, hd2⟩ := hrow.data
      obtain ⟨q, hex, hq⟩ : ∃ q, explText y x.expl = ({ y with expl := firstText (named r.name pre ++ [sr]) }, q) ∧ q ≤ faults (table o pre) sr := by
        unfold explText
        have hex := hrow.expl
        dsimp only at hex
        rw [firstText_snoc, ← hex, x2]
        by_cases h0 : y.expl = []
        · rw [if_pos h0, if_pos h0]
          exact ⟨_, rfl, Nat.zero_le _⟩
        · rw [if_neg h0, if_neg h0]
          refine ⟨_, rfl, ?_⟩
          split
          · rename_i hne
            rw [hex] at h0 hne
            unfold faults
            rw [if_pos hd]
            have hap : Agree o pre := ⟨fun s h => hl.dim s (hp.subset h), fun s hs t ht => hl.same s (hp.subset hs) t (hp.subset ht)⟩
            obtain ⟨t, ht⟩ := List.exists_mem_of_ne_nil (named r.name pre) (by intro hc; rw [hc] at h0; exact h0 rfl)
            have ht2 := List.mem_filter.mp ht
            have ht3 : SameNoCase r.name t.name := (sameText_iff false _ _).mp ht2.2
            have htk : o.takes t.name = true := by
              rw [(hl.same sr hsm t (hp.subset ht2.1) (hnm.symm.trans ht3)).2.2.2]
              cases htk : o.takes sr.name with
              | true => rfl
              | false =>
                rw [← hl.found hsm, hfi] at htk
                cases htk
            have hcong : (fun r : Row => sameText false r.name sr.name) = fun r => sameText false r.name t.name := by
              funext r'
              rw [Bool.eq_iff_iff]
              constructor
              · exact fun hx => (sameText_iff false _ _).mpr (((sameText_iff false _ _).mp hx : SameNoCase _ _).trans (hnm.symm.trans ht3))
              · exact fun hx => (sameText_iff false _ _).mpr (((sameText_iff false _ _).mp hx : SameNoCase _ _).trans (ht3.symm.trans hnm))
            cases hfp : (table o pre).findIdx? fun r => sameText false r.name sr.name with
            | none =>
              rw [hcong, hap.found ht2.1, htk] at hfp
              cases hfp
            | some j =>
              obtain ⟨hj, hsj, _⟩ := List.findIdx?_eq_some_iff_getElem.mp hfp
              have hjg := List.getElem?_eq_getElem hj
              dsimp only
              rw [hjg]
              have hsrc := hap.srcs hjg
              have hnn : ∀ s, named (table o pre)[j].name s = named r.name s := by
                intro s
                unfold named
                refine List.filter_congr fun q _ => ?_
                have : SameNoCase (table o pre)[j].name r.name := (((sameText_iff false _ _).mp hsj) : SameNoCase _ _).trans hnm.symm
                rw [Bool.eq_iff_iff]
                constructor
                · exact fun hx => (sameText_iff false _ _).mpr (this.symm.trans ((sameText_iff false _ _).mp hx : SameNoCase _ _))
                · exact fun hx => (sameText_iff false _ _).mpr (this.trans ((sameText_iff false _ _).mp hx : SameNoCase _ _))
              simp only [Option.map_some, Option.getD_some]
              unfold Row.faults
              rw [hsrc, hnn]
              split
              · rw [if_pos ⟨h0, hne.1, hne.2⟩]
              · exact Nat.le_refl _
          · exact Nat.zero_le _
      obtain ⟨u', P', g', w', xs, c1, c2, c3, c4, c5, c6, c7, c8, c9⟩ := collect_ok e z hm hA hX hu
        (st := { st with syms := st.syms.set n y, errs := st.errs + q }) ho hc.pool (y := { y with expl := firstText (named r.name pre ++ [sr]) }) hs hd
        (by show y.dim = _; rw [hrow.dim, hft.1]) (by show y.typ = _; rw [hrow.typ, hft.2]) hat hg hw n
      refine ⟨{ st with errs := st.errs + q, out := { b with uel := some u' }, pool := P', syms := (st.syms.set n y).set n { y with expl := firstText (named r.name pre ++ [sr]), data := y.data.map (· ++ xs) } }, u', g', w', ?_, rfl, c2, ⟨?_, by simp [hc.len], c4, hc.acro, ?_⟩, c6, c7, c9⟩
      · show addFound o z .small sr.id st g w nr n i x = _
        unfold addFound
        rw [h2]
        simp only [need, Res.bind_ok]
        rw [if_neg (by rw [hd1, hrow.skip]; simp)]
        have hcs : countSym .small y i.typ x.recs = y := by
          unfold countSym
          rw [if_neg (by simp)]
        rw [hcs, if_neg (by simp [hd1]), if_neg, hag]
        · simp only [Bool.true_eq_false, if_false, hex, hlast]
          rw [i2, c1]
        · have := h3.size
          unfold Opt.cut at hsz
          simp
          omega
      · intro m r' hr'
        obtain ⟨z0, z1, k1, k2, k3⟩ := hc.rows m r' hr'
        by_cases hmn : m = n
        · subst hmn
          rw [hn] at hr'
          cases hr'
          refine ⟨y0, { y with expl := firstText (named r.name pre ++ [sr]), data := y.data.map (· ++ xs) }, h1, ?_, ?_, fun h => by omega, fun _ => ?_⟩
          · show ((st.syms.set m y).set m _)[m]? = _
            rw [List.getElem?_set_self (by rw [List.length_set]; exact (List.getElem?_eq_some_iff.mp h2).1)]
          · exact h3.size
          · rw [named_snoc, if_pos hsame]
            refine ⟨hrow.name, hrow.dim, hrow.typ, hrow.sub, hrow.skip, rfl, xss ++ [xs], ?_, ?_⟩
            · show y.data.map (· ++ xs) = _
              rw [hd1]
              simp
            · refine List.rel_append (forall₂_map (fun _ _ h => h.mono c3 c5 rfl) hd2) (.cons ?_ .nil)
              show AllTaken _ _ _ r.typ _ _ _
              rw [← hft.2]
              exact c8
        · refine ⟨z0, z1, k1, ?_, ?_⟩
          · show ((st.syms.set n y).set n _)[m]? = _
            rw [List.getElem?_set_ne (Ne.symm hmn), List.getElem?_set_ne (Ne.symm hmn)]
            exact k2
          · have := k3.mono c3 c5
            refine ⟨this.size, this.big, fun hsz => ?_⟩
            rw [others m r' hr' hmn]
            exact this.small hsz
      · show st.errs + q ≤ _
        have := hc.errs
        omega

end Gdx.Merge
