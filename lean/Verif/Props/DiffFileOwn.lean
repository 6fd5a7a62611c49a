import Verif.Props.DiffFile

/-!
C72: gdxdiff and files of the library.
-/

namespace Gdx.Props
open Gdx Gdx.Diff Gdx.Spec
open Gdx.Merge (HasText GoodLabel Out namesOf textsOf target_typ symTypOf digits_of intToStr_nat)

/-- Nothing in the symbol `n` with the records `P` stops the program: the subtype of a variable or equation is one that it knows (C59), the
    value of a record of a set is a number. -/
structure Regular (a : Gx) (n : Int) (P : List Record) : Prop where
  sub : (symTyp (symbolInfo a n).typ = dtVar → 0 ≤ (symbolInfoX a n).userInfo ∧ (symbolInfoX a n).userInfo < 10) ∧
    (symTyp (symbolInfo a n).typ = dtEqu → 0 ≤ (symbolInfoX a n).userInfo ∧ (symbolInfoX a n).userInfo < 7)
  vals : symTyp (symbolInfo a n).typ = dtSet → ∀ r ∈ P, ∃ k : Nat, k < 2147483648 ∧ r.2 = [intDbl k]

/-- the number of an acronym whose value is a double has a value that is a double -/
theorem acrDiv_le {d : Dbl} {n : Int} (hg : geAcr d = true) (h : acrDiv d = .ok n) : n ≤ 17976931 := by
  unfold acrDiv at h
  split at h
  · cases h
  rename_i hi
  cases h
  rw [geAcr_iff] at hg
  have hlt : d.toNat < 9218868437227405312 := by
    rcases Nat.lt_or_eq_of_le hg.2 with h | h
    · exact h
    · exact absurd (UInt64.toNat_inj.mp (show d.toNat = Dbl.posInf.toNat by rw [h]; decide)) hi
  generalize hN : d.toNat = N at *
  have he1 : 2022 ≤ N / 4503599627370496 := by omega
  have he2 : N / 4503599627370496 ≤ 2046 := by omega
  have hq : d.toRat = ((4503599627370496 + N % 4503599627370496 : Nat) : ℚ) *
      (2 : ℚ) ^ (((N / 4503599627370496 : Nat) : Int) - 1075) := by
    unfold Dbl.toRat
    rw [hN, Nat.mod_eq_of_lt (show N / 4503599627370496 < 2048 by omega)]
  obtain ⟨e, he⟩ : ∃ e : Nat, N / 4503599627370496 = 2022 + e := ⟨N / 4503599627370496 - 2022, by omega⟩
  have hpow : (2 : ℚ) ^ (((N / 4503599627370496 : Nat) : Int) - 1075) = (2 : ℚ) ^ (947 : Int) * 2 ^ e := by
    rw [he, ← zpow_natCast, ← zpow_add₀ (by norm_num)]
    congr 1
    push_cast
    ring
  have hp : (0 : ℚ) < (2 : ℚ) ^ (947 : Int) := by positivity
  have hdiv : d.toRat / Dbl.acr.toRat =
      ((4503599627370496 + N % 4503599627370496 : Nat) : ℚ) * 2 ^ e / 8406091369059075 := by
    rw [hq, hpow, acr_toRat]
    rw [mul_comm (8406091369059075 : ℚ), ← mul_assoc, mul_comm (_ : ℚ) ((2 : ℚ) ^ (947 : Int)), mul_assoc,
      mul_div_mul_left _ _ hp.ne']
  have hm : N % 4503599627370496 < 4503599627370496 := Nat.mod_lt _ (by norm_num)
  have h1 : (1 : ℚ) ≤ d.toRat / Dbl.acr.toRat := by
    rw [hdiv, le_div_iff₀ (by norm_num), one_mul]
    have : 8406091369059075 ≤ (4503599627370496 + N % 4503599627370496) * 2 ^ e := by
      rcases Nat.eq_zero_or_pos e with rfl | hpos
      · have := Nat.div_add_mod N 4503599627370496
        simp
        omega
      · have : 2 ≤ 2 ^ e := by
          calc 2 = 2 ^ 1 := rfl
            _ ≤ 2 ^ e := Nat.pow_le_pow_right (by norm_num) hpos
        calc 8406091369059075 ≤ 4503599627370496 * 2 := by norm_num
          _ ≤ _ := Nat.mul_le_mul (Nat.le_add_right _ _) this
    exact_mod_cast this
  have h2 : d.toRat / Dbl.acr.toRat ≤ 1797693135 / 100 := by
    rw [hdiv, div_le_iff₀ (by norm_num)]
    have h2e : 2 ^ e ≤ 16777216 := by
      calc 2 ^ e ≤ 2 ^ 24 := Nat.pow_le_pow_right (by norm_num) (by omega)
        _ = 16777216 := by norm_num
    have : (4503599627370496 + N % 4503599627370496) * 2 ^ e ≤ 9007199254740992 * 16777216 :=
      Nat.mul_le_mul (by omega) h2e
    have h3 : (((4503599627370496 + N % 4503599627370496) * 2 ^ e : Nat) : ℚ) ≤ ((9007199254740992 * 16777216 : Nat) : ℚ) := by
      exact_mod_cast this
    push_cast at h3 ⊢
    linarith
  generalize d.toRat / Dbl.acr.toRat = q at h1 h2
  have e1 := rne_err q h1
  rw [abs_le] at e1
  have f1 : (1 : ℚ) / 2 ≤ rne q := by
    have : q / 9007199254740992 ≤ 1 / 2 := by rw [div_le_iff₀ (by norm_num)]; linarith
    linarith [e1.1]
  have f2 : rne q ≤ 1797693145 / 100 := by
    have : q / 9007199254740992 ≤ 1 / 100 := by rw [div_le_iff₀ (by norm_num)]; linarith
    linarith [e1.2]
  have e2 := rne_err (rne q + 1 / 2) (by linarith)
  rw [abs_le] at e2
  have hr2 : rne (rne q + 1 / 2) < 17976932 := by
    have : (rne q + 1 / 2) / 9007199254740992 < 1 / 100 := by rw [div_lt_iff₀ (by norm_num)]; linarith
    linarith [e2.2]
  unfold roundPos
  have : ⌊rne (rne q + 1 / 2)⌋ < 17976932 := Int.floor_lt.mpr (by exact_mod_cast hr2)
  omega

theorem finite_of {x : Dbl} (h : IsFinite x) : Finite x := by
  refine finite_of_expo ?_
  unfold IsFinite mag infMag at h
  unfold Dbl.expo
  omega

theorem acr_finite {na : Bool} {x : Dbl} (h : IsFinite x) (hb : ¬ BelowAcr x) : Finite (plainAcr na x) := by
  have hg : geAcr x = true := by
    rw [geAcr_iff]
    unfold BelowAcr isNeg mag at hb
    unfold IsFinite mag infMag at h
    omega
  unfold plainAcr
  split
  · exact finite_of (by decide)
  split
  · exact finite_of (by decide)
  cases hd : acrDiv x with
  | ub => exact finite_of h
  | ok n =>
    dsimp only
    have b1 := (acrDiv_bound hg hd).1
    have := (C31_inverse_partial n b1 (acrDiv_le hg hd)).2.2
    refine finite_of_expo ?_
    unfold dblInfo at this
    unfold Dbl.expo
    split at this
    · split at this
      · cases this
      · split at this <;> cases this
    · assumption

/-- a reader with the standard special values gets finite values -/
theorem readsAs_finite {w : SVTab} {na : Bool} {x y : Dbl} (h : ReadsAs w SVTab.default (plainAcr na) x y) : Finite y := by
  cases h with
  | special k => cases k <;> exact finite_of (by decide)
  | nan _ _ => exact finite_of (by decide)
  | pinf _ => exact finite_of (by decide)
  | minf _ => exact finite_of (by decide)
  | negZero _ => exact finite_of (by decide)
  | same _ hf _ _ => exact finite_of hf
  | acronym _ hf hb => exact acr_finite hf hb

/-- names of acronyms that do not fit are not written -/
theorem close_acros {z : Cz} {g g' : Gx} {r : Int} (hm : g.mode = .wInit) (hc : gdxClose z g = .ok (g', r)) :
    ∀ l, g.acros = some l → ∀ x ∈ l, x.saveName.length ≤ 255 := by
  intro l hl x hx
  unfold gdxClose at hc
  have e1 : finishWrite z g = .ok g := by unfold finishWrite; rw [hm, if_neg (by decide)]
  rw [e1] at hc
  simp only [Res.bind_ok] at hc
  have e2 : saveIf z g = saveFile z g := by unfold saveIf; rw [if_pos hm]
  rw [e2] at hc
  obtain ⟨g1, hg1, _⟩ := Res.bind_eq_ok.mp hc
  unfold saveFile at hg1
  split at hg1
  · cases hg1
  obtain ⟨t, ht', _⟩ := Res.bind_eq_ok.mp hg1
  unfold wrTables at ht'
  obtain ⟨syms, q0, ht'⟩ := Res.bind_eq_ok.mp ht'
  obtain ⟨ba, q1, ht'⟩ := Res.bind_eq_ok.mp ht'
  obtain ⟨bb, q2, ht'⟩ := Res.bind_eq_ok.mp ht'
  obtain ⟨u, q3, ht'⟩ := Res.bind_eq_ok.mp ht'
  obtain ⟨bc, q4, ht'⟩ := Res.bind_eq_ok.mp ht'
  obtain ⟨ac, q5, ht'⟩ := Res.bind_eq_ok.mp ht'
  obtain ⟨bd, q6, ht'⟩ := Res.bind_eq_ok.mp ht'
  replace q5 := need_ok q5
  rw [hl] at q5
  cases q5
  unfold wrAcros at q6
  obtain ⟨bs, q6, _⟩ := Res.bind_eq_ok.mp q6
  unfold acrSave at q6
  obtain ⟨b, q6, _⟩ := Res.bind_eq_ok.mp q6
  obtain ⟨b', h'⟩ := saveAll_each q6 x hx
  unfold Acr.save at h'
  obtain ⟨n, hn, _⟩ := Res.bind_eq_ok.mp h'
  exact (wrString_ok hn).2

theorem zfree_nr (k : Nat) : ZFree (badStrPrefix ++ intToStr k) := by
  intro c hc
  rcases List.mem_append.mp hc with hc | hc
  · exact (by decide : ∀ c ∈ badStrPrefix, c ≠ 0) c hc
  · rw [intToStr_nat] at hc
    have := digits_of 20 k c hc
    rintro rfl
    exact absurd this.1 (by decide)

/-- With DiffOnly a variable or equation has not 19 dimensions: its symbol in the difference file would have 21 (C59). -/
def RoomFor (o : Opt) (a : Gx) : Prop := ∀ n, (a.symAt n).isSome = true → ByField o (symTyp (symbolInfo a n).typ) → (symbolInfo a n).dim ≠ 19

theorem own_tidy {o : Opt} {e : Env} {z : Cz} (hz : z.Good) {g : Gx} {syms : List Sym} {R : Nat → List RawEntry} {f : List UInt8} (h : OwnFile e z g syms R f) {a : Gx}
    {P : Int → List Record} (ho : openRead z Gx.new (.content f) = .ok (a, (true, 0))) (hc : Content z a (contentOf syms R) P)
    (hr : ∀ n, (a.symAt n).isSome = true → Regular a n (P n)) (h19 : RoomFor o a) :
    ∀ n, (a.symAt n).isSome = true → Tidy o a n (P n) := by
  obtain ⟨g', k, hcl, rfl⟩ := h.close
  have fi := h.hist.fine hz
  obtain ⟨a', h1, h2, h3⟩ := close_open hz fi.inv h.mode (fi.stat h.mode) hcl h.fits h.len Gx.new rfl 0
  rw [show openReadXX z Gx.new (.content g'.file) 0 = openRead z Gx.new (.content g'.file) from rfl, ho] at h1
  cases h1
  have hok := fi.inv.tab.syms syms h.full.names
  obtain ⟨l, l1, l2⟩ := h2.names
  rw [h.full.names] at l1
  cases l1
  obtain ⟨tl, t1, t2⟩ := h2.texts rfl
  obtain ⟨dl, d1, d2⟩ := h2.doms
  intro n hn
  obtain ⟨y, hy⟩ := Option.isSome_iff_exists.mp hn
  obtain ⟨i, hi, rfl⟩ := nameOf_iff.mp ⟨y, hy, rfl⟩
  rw [l2, Option.getD_some, List.getElem?_map, List.getElem?_map] at hi
  cases hs : syms[i]? with
  | none => rw [hs] at hi; cases hi
  | some s =>
    have hat := Merge.symAt_reopened l2 hs
    have so := hok.each i s hs
    have hlt := (List.getElem?_eq_some_iff.mp hs).1
    have hinfo : symbolInfo a ((i : Int) + 1) = ⟨true, s.name, s.dim, s.typ⟩ := by
      unfold symbolInfo
      rw [if_neg (by omega), hat]
      rfl
    have hinfoX : (symbolInfoX a ((i : Int) + 1)).userInfo = s.userInfo := by
      unfold symbolInfoX
      rw [if_neg (by omega), hat]
      rfl
    have rg := hr _ hn
    have htyp : symTyp s.typ ≤ 3 := by
      have := so.typ
      unfold symTyp
      split
      · decide
      · rename_i hne
        unfold dtAlias at hne
        omega
    refine ⟨?_, ?_, ?_, ?_, ?_, ?_, h19 _ hn⟩
    · rw [hinfo]
      exact (C14_ident _).mp so.good
    · rw [hinfo]
      exact htyp
    · rw [hinfoX]
      by_cases ha : s.typ = dtAlias
      · have hlen := (h.fits.syms syms h.full.names).1
        rcases so.ali ha with ⟨h0, _⟩ | ⟨m, t, hm, h0, _⟩
        · rw [h0]; unfold I32; omega
        · rw [h0]; unfold I32; omega
      · exact so.ui ha
    · obtain ⟨r1, r2⟩ := rg.sub
      unfold defRecord
      split
      · rename_i ht
        rw [if_pos (r1 ht)]
        exact ⟨_, rfl⟩
      · split
        · rename_i ht
          rw [if_pos (r2 ht)]
          exact ⟨_, rfl⟩
        · exact ⟨_, rfl⟩
    · intro _
      unfold symbolGetDomainX
      rw [l2, hat]
      simp only [need, Res.bind_ok]
      have so' := hok.reopened.each i s.reopened (by rw [List.getElem?_map, hs]; rfl)
      cases hds : s.reopened.domStrs with
      | some ds =>
        rw [d2]
        simp only [Res.bind_ok]
        have hdom := fi.inv.dom dl d1
        obtain ⟨r, hr', _⟩ := namesAt_ok (l := dl) (fun x hx => isGoodIdent_len (hdom x hx)) ds (by
          intro d hd
          have := (so'.dst ds hds).2 d hd
          unfold Gx.nDom at this
          rw [d1] at this
          exact this)
        rw [hr']
        exact ⟨2, r, rfl⟩
      | none =>
        cases hdy : s.reopened.domSyms with
        | none => exact ⟨_, _, rfl⟩
        | some ds =>
          obtain ⟨r, hr', _⟩ := namesAt_ok (l := (syms.map Sym.reopened).map Sym.name) (by
            intro x hx
            obtain ⟨w, hw, rfl⟩ := List.mem_map.mp hx
            obtain ⟨j, hj⟩ := List.getElem?_of_mem hw
            exact isGoodIdent_len (hok.reopened.each j w hj).good) ds (by
              intro d hd
              have := (so'.dsy ds hdy).2 d hd
              rw [List.length_map]
              exact this)
          dsimp only
          rw [hr']
          exact ⟨3, r, rfl⟩
    · have hlen : ∀ r ∈ P ((i : Int) + 1), r.2.length = dataTypSize (symTyp s.typ) ∧ ∀ v ∈ r.2, Finite v := by
        obtain ⟨outs, o1, o2⟩ := hc.recs _ hn
        have hh := hc.holds _ hn
        obtain ⟨m, t, m1, m2, m3, m4⟩ := target_typ hok h.full.univ hs
        have hcont : contentOf syms R ((i : Int) + 1) = (⟨t.name, t.dim, t.typ, t.userInfo⟩, R m) := by
          unfold contentOf targetOf
          rw [m1]
          simp only [Nat.add_sub_cancel, m2, Option.map_some]
        rw [hcont] at o1 hh
        dsimp only at o1 hh
        unfold Delivered at o1
        rw [if_neg (by
          rintro ⟨q1, q2⟩
          have := hh.one q1
          rw [q2] at this
          cases this)] at o1
        have htt : t.typ = symTyp s.typ := by
          unfold symTyp
          split at m4
          · rename_i ha
            rw [if_pos ha, m4]
          · rename_i ha
            rw [if_neg ha, m4.2]
        intro r hr'
        rw [o2] at hr'
        unfold recPairs at hr'
        obtain ⟨w, hw, rfl⟩ := List.mem_map.mp hr'
        obtain ⟨x, hx, hxo⟩ := forall₂_mem o1.recs w hw
        obtain ⟨m', ld, _⟩ := hh.sym
        obtain ⟨sy, e1, _, e3⟩ := ld.data
        obtain ⟨lo, hi', hst⟩ := e3.data
        obtain ⟨bytes, tl', _, _, nr, bs, out, _, _, _, _, he⟩ := hst.data
        have := (he.fits (stored x.sv x.key x.vals) (List.mem_map_of_mem hx)).2.2.1
        rw [e1.typ] at this
        refine ⟨?_, ?_⟩
        · show w.vals.length = _
          rw [← hxo.vals.length_eq, ← htt]
          simpa [stored] using this
        · intro v hv
          obtain ⟨y, _, hy⟩ := forall₂_mem hxo.vals v hv
          rw [h2.sv.2, acrOf_reopened h2] at hy
          exact readsAs_finite hy
      intro r hr'
      have hv := rg.vals
      rw [hinfo] at hv ⊢
      refine ⟨(hlen r hr').1, ?_⟩
      split
      · rename_i hset
        obtain ⟨j, j1, j2⟩ := hv hset r hr'
        refine ⟨intDbl j, if (j : Int) = 0 then [] else (getElemText a j).2.1, j2, ⟨j, by omega, by omega, rfl, rfl⟩, ?_⟩
        split
        · intro c hc; cases hc
        · unfold getElemText
          rw [t2]
          simp only
          rw [if_pos (by omega), Int.toNat_natCast, List.getElem?_map]
          cases hx : tl[j]? with
          | none => exact zfree_nr j
          | some p => exact ((fi.inv.txt tl t1).zfree p (List.mem_of_getElem? hx)).1
      · exact (hlen r hr').2

theorem own_acros {e : Env} {z : Cz} (hz : z.Good) {g : Gx} {syms : List Sym} {R : Nat → List RawEntry} {f : List UInt8} (h : OwnFile e z g syms R f) {a : Gx}
    (ho : openRead z Gx.new (.content f) = .ok (a, (true, 0))) : AcrosOk a := by
  obtain ⟨g', k, hcl, rfl⟩ := h.close
  have fi := h.hist.fine hz
  obtain ⟨a', h1, h2, h3⟩ := close_open hz fi.inv h.mode (fi.stat h.mode) hcl h.fits h.len Gx.new rfl 0
  rw [show openReadXX z Gx.new (.content g'.file) 0 = openRead z Gx.new (.content g'.file) from rfl, ho] at h1
  cases h1
  obtain ⟨l, l1, l2⟩ := h2.acros
  refine ⟨_, l2, fun x hx => ?_⟩
  obtain ⟨y, hy, rfl⟩ := List.mem_map.mp hx
  exact close_acros h.mode hcl l l1 y hy

/-- C72 for files of the library: whatever two files it wrote (by any calls) that are complete, with subtypes that gdxdiff knows and numbers as
    values of the sets: the table of the results and the difference file are as they should be. DiffOnly together with FldOnly is rejected by
    the program. What is missing: the option MatrixFile, and the names of acronyms. -/
theorem C72_own_partial {o : Opt} {e1 e2 e : Env} {z : Cz} (hz : z.Good) (hm : o.matrix = false) (hdo : o.diffOnly = true → o.fldOnly = none) (hfo : ∀ f, o.fldOnly = some f → f < 5) {g1 g2 : Gx}
    {syms1 syms2 : List Sym} {R1 R2 : Nat → List RawEntry} {f1 f2 : List UInt8} (h1 : OwnFile e1 z g1 syms1 R1 f1) (h2 : OwnFile e2 z g2 syms2 R2 f2)
    (hw : ∃ gd b3, openWriteEx e Gx.new false 0 producer 0 = .ok (gd, (b3, 0))) (hsz : (systemInfo g1).2 + (systemInfo g2).2 ≤ 999999991) {in1 in2 : Str} (hin1 : ZFree in1) (hin2 : ZFree in2) :
    ∃ a b P Q, openRead z Gx.new (.content f1) = .ok (a, (true, 0)) ∧ openRead z Gx.new (.content f2) = .ok (b, (true, 0)) ∧
      Content z a (contentOf syms1 R1) P ∧ Content z b (contentOf syms2 R2) Q ∧
      ((∀ n, (a.symAt n).isSome = true → Regular a n (P n)) → (∀ n, (b.symAt n).isSome = true → Regular b n (Q n)) → RoomFor o a → RoomFor o b →
        ∀ fuel, totalRecs a (contentOf syms1 R1) + totalRecs b (contentOf syms2 R2) < fuel →
        ((room o (totalRecs a (contentOf syms1 R1) + totalRecs b (contentOf syms2 R2)) : Nat) : Int) ≤ intMax → ∀ fuel', syms1.length < fuel' →
        ∃ x t, statusTable o e z fuel f1 f2 = .ok (some (x, t)) ∧ TableIs o a b P Q t ∧ ∃ G file, finishTo z fuel' x.gd in1 in2 = .ok G ∧
          finishDiff z fuel' x.gd in1 in2 = .ok file ∧ (FileFits G → (file.length : Int) ≤ 9223372036854775807 → ∀ g0, Reader g0 →
            ∃ g, openRead z g0 (.content file) = .ok (g, (true, 0)) ∧ DiffFile o z a b P Q in1 in2 g)) := by
  obtain ⟨a, P, a1, a2, a3, a4⟩ := h1.content hz
  obtain ⟨b, Q, b1, b2, b3, b4⟩ := h2.content hz
  obtain ⟨gd, b0, hw⟩ := hw
  have hs : (systemInfo a).2 + (systemInfo b).2 ≤ 999999991 := by
    rw [size_strs, size_strs, a4, b4, ← size_strs, ← size_strs]
    exact hsz
  have hn : (systemInfo a).1 = syms1.length := by
    unfold systemInfo
    rw [a3]
    simp
  refine ⟨a, b, P, Q, a1, b1, a2, b2, ?_⟩
  intro r1 r2 s1 s2 fuel hf hmax fuel' hf'
  exact C72_diff_partial hz hm hdo hfo hw a1 b1 a2 b2 hs (by rw [hn]; exact (h1.fits.syms syms1 h1.full.names).1) (own_tidy hz h1 a1 a2 r1 s1) (own_tidy hz h2 b1 b2 r2 s2) (own_acros hz h1 a1) (own_acros hz h2 b1) hf hmax
    (by omega) hin1 hin2

theorem Tidy.plain {o : Opt} {a : Gx} {n : Int} {P : List Record} (h : Tidy o a n P) (ha : AcrosOk a) (hf : ∀ f, o.fldOnly = some f → f < 5) : Plain o a n P := by
  refine ⟨h.defs, h.doms, fun r hr => ?_⟩
  obtain ⟨v1, v2⟩ := h.vals r hr
  split
  · rename_i ht
    rw [if_pos ht] at v2
    obtain ⟨d, t, e1, e2, _⟩ := v2
    exact ⟨d, t, by rw [e1]; rfl, setText_defined e2⟩
  · rename_i ht
    rw [if_neg ht] at v2
    intro t htm
    have hlt : t < r.2.length := by
      rw [v1]
      have h3 := h.typ
      unfold compared at htm
      split at htm
      · rename_i hp
        rw [hp]
        rw [List.mem_singleton.mp htm]
        decide
      · rename_i hp
        have h5 : t < 5 := by
          split at htm
          · rename_i f hf'
            rw [List.mem_singleton.mp htm]
            exact hf f hf'
          · unfold activeFields at htm
            have := (List.mem_filter.mp htm).1
            simp at this
            omega
        have : dataTypSize (symTyp (symbolInfo a n).typ) = 5 := by
          revert ht hp h3
          generalize symTyp (symbolInfo a n).typ = k
          intro h1 h2 h3
          interval_cases k
          · exact absurd rfl h1
          · exact absurd rfl h3
          · rfl
          · rfl
        omega
    have hm := List.getElem_mem hlt
    obtain ⟨w, hw⟩ := acr_defined ha (v2 _ hm)
    exact ⟨r.2[t], w, List.getElem?_eq_getElem hlt, v2 _ hm, hw⟩

/-- C58 for files of the library: comparing a complete file with itself comes to an end, without undefined behaviour, and finds no difference, if the
    subtypes are those that gdxdiff knows (C59) and the values of the sets are numbers. -/
theorem C58_own_partial {o : Opt} {e1 e : Env} {z : Cz} (hz : z.Good) {g1 : Gx} {syms1 : List Sym} {R1 : Nat → List RawEntry} {f : List UInt8} {q : ℚ}
    (h1 : OwnFile e1 z g1 syms1 R1 f) (hsz : 2 * (systemInfo g1).2 ≤ 999999991) (he : o.eps.fv = .fin q) (h0 : 0 ≤ q) (hfo : ∀ f, o.fldOnly = some f → f < 5)
    (hw : ∃ gd b3, openWriteEx e Gx.new false 0 producer 0 = .ok (gd, (b3, 0))) :
    ∃ a P, openRead z Gx.new (.content f) = .ok (a, (true, 0)) ∧ Content z a (contentOf syms1 R1) P ∧
      ((∀ n, (a.symAt n).isSome = true → Regular a n (P n)) →
        ∀ fuel, 2 * totalRecs a (contentOf syms1 R1) < fuel → ∃ x, statusTable o e z fuel f f = .ok (some (x, []))) := by
  obtain ⟨a, P, a1, a2, a3⟩ := C58_ends_partial hz h1 hsz he h0 hw
  exact ⟨a, P, a1, a2, fun hr => a3 fun n hn => by
    obtain ⟨p1, p2, p3⟩ := (own_tidy (o := { o with diffOnly := false }) hz h1 a1 a2 hr (fun _ _ h => absurd h.1 Bool.false_ne_true) n hn).plain (own_acros hz h1 a1) hfo
    exact ⟨p1, p2, p3⟩⟩

/-! ### examples -/

theorem write_opens : ∃ gd b3, openWriteEx ⟨[]⟩ Gx.new false 0 producer 0 = .ok (gd, (b3, 0)) := by
  have h : (do
      let (_, (_, n)) ← openWriteEx ⟨[]⟩ Gx.new false 0 producer 0
      pure n) = Res.ok (0 : Int) := by decide +kernel
  obtain ⟨⟨gd, b, n⟩, h1, h2⟩ := Res.bind_eq_ok.mp h
  cases h2
  exact ⟨gd, b, h1⟩

theorem regular_par {a : Gx} {s : Sym} (hn : a.names = some [s]) (ht : s.typ = 1) (n : Int) (h : (a.symAt n).isSome = true) (P : List Record) : Regular a n P := by
  obtain ⟨y, hy⟩ := Option.isSome_iff_exists.mp h
  obtain ⟨i, hi, rfl⟩ := nameOf_iff.mp ⟨y, hy, rfl⟩
  have hy' : y.typ = 1 := by
    unfold Gx.symAt at hy
    rw [hn] at hy
    simp only at hy
    split at hy
    · have := List.mem_of_getElem? hy
      rw [List.mem_singleton.mp this, ht]
    · cases hy
  have : (symbolInfo a ((i : Int) + 1)).typ = 1 := by
    unfold symbolInfo
    rw [if_neg (by omega), hy]
    exact hy'
  refine ⟨?_, ?_⟩
  · rw [this]
    exact ⟨fun h => absurd h (by decide), fun h => absurd h (by decide)⟩
  · rw [this]
    exact fun h => absurd h (by decide)

/-- the conditions of `C72_own_partial` can be met: two files that differ in one value -/
example : ∃ (g1 g2 : Gx) (syms1 syms2 : List Sym) (R1 R2 : Nat → List RawEntry) (f1 f2 : List UInt8), OwnFile ⟨[]⟩ Cz.id g1 syms1 R1 f1 ∧ OwnFile ⟨[]⟩ Cz.id g2 syms2 R2 f2 ∧
    (R1 0).map RawEntry.vals ≠ (R2 0).map RawEntry.vals ∧
    ∃ a b P Q, Content Cz.id a (contentOf syms1 R1) P ∧ Content Cz.id b (contentOf syms2 R2) Q ∧ ∀ fuel, totalRecs a (contentOf syms1 R1) + totalRecs b (contentOf syms2 R2) < fuel →
      ((totalRecs a (contentOf syms1 R1) + totalRecs b (contentOf syms2 R2) : Nat) : Int) ≤ intMax → ∃ x t, statusTable {} ⟨[]⟩ Cz.id fuel f1 f2 = .ok (some (x, t)) ∧ TableIs {} a b P Q t := by
  have hz : Cz.id.Good := fun x t => ⟨t, rfl⟩
  obtain ⟨g1, syms1, R1, f1, a1, ⟨a2, a3, a4⟩, _, _, _, s1, rfl, a5, _⟩ := own_exists true
  obtain ⟨g2, syms2, R2, f2, b1, ⟨b2, b3, b4⟩, _, _, _, s2, rfl, b5, _⟩ := own_exists false
  refine ⟨g1, g2, [s1], [s2], R1, R2, f1, f2, a1, b1, ?_, ?_⟩
  · have e1 := congrArg (List.map Prod.snd) a4
    have e2 := congrArg (List.map Prod.snd) b4
    rw [List.map_map] at e1 e2
    rw [show RawEntry.vals = Prod.snd ∘ fun x : RawEntry => (x.key, x.vals) from rfl, e1, e2]
    decide
  · obtain ⟨a, b, P, Q, o1, o2, o3, o4, o5⟩ := C72_own_partial (o := {}) hz rfl (fun _ => rfl) (by intro f hf; cases hf) a1 b1 write_opens (by omega) (in1 := []) (in2 := []) (by intro c hc; cases hc) (by intro c hc; cases hc)
    refine ⟨a, b, P, Q, o3, o4, fun fuel h1 h2 => ?_⟩
    obtain ⟨a', P', p1, _, p2, _⟩ := a1.content hz
    obtain ⟨b', Q', q1, _, q2, _⟩ := b1.content hz
    rw [o1] at p1
    rw [o2] at q1
    cases p1
    cases q1
    obtain ⟨x, t, t1, t2, _⟩ := o5 (fun n hn => regular_par p2 a5 n hn _) (fun n hn => regular_par q2 b5 n hn _) (fun _ _ h => absurd h.1 Bool.false_ne_true) (fun _ _ h => absurd h.1 Bool.false_ne_true) fuel h1 h2 2 (by simp)
    exact ⟨x, t, t1, t2⟩

/-- the difference file for two files -/
def diffOf (o : Opt) (a b : List Call) : Res (List UInt8) := do
  let f ← fileOf a
  let f' ← fileOf b
  match ← statusTable o ⟨[]⟩ Cz.id 100 f f' with
  | none => .ub
  | some (x, _) => finishDiff Cz.id 100 x.gd [102] [103]

/-- `p` has another value for `b`: a parameter `P` with the records (b,dif1) and (b,dif2) -/
example : (do let f ← diffOf {} (exOrder true dbl03) (exOrder false dblSum); readNames f) = .ok [([80], 2, 1), (filesCompared, 1, 0)] := by decide +kernel
example : (do let f ← diffOf {} (exOrder true dbl03) (exOrder false dblSum); readSym f 1) =
    .ok [([[98], dif1], [dbl03]), ([[98], dif2], [dblSum])] := by decide +kernel
example : (do let f ← diffOf {} (exOrder true dbl03) (exOrder false dblSum); readSym f 2) = .ok [([file1], [intDbl 1]), ([file2], [intDbl 2])] := by decide +kernel

/-- a set `i` with the elements `a` (with text `t`) and `b`, or with `a` without text -/
def exSetDiff (t : Bool) : List Call :=
  [.openWrite false 0 [65] 0, .uelRawStart, .uelRaw [97], .uelRaw [98], .uelDone] ++ (if t then [.addSetText [116]] else []) ++
   [.rawStart [105] [] 1 0 0, .writeRaw [1] [if t then intDbl 1 else 0]] ++ (if t then [.writeRaw [2] [0]] else []) ++ [.writeDone]

/-- another text of `a`, and `b` is in file 1 only -/
example : (do let f ← diffOf {} (exSetDiff true) (exSetDiff false); readSym f 1) =
    .ok [([[97], dif1], [intDbl 1]), ([[97], dif2], [0]), ([[98], ins1], [0])] := by decide +kernel

/-- a variable `p` with the level `v` and the marginal `w` -/
def exVarDiff (v w : Dbl) : List Call :=
  [.openWrite false 0 [65] 0, .uelRawStart, .uelRaw [97], .uelRaw [98], .uelDone, .rawStart [112] [] 1 2 3, .writeRaw [1] [v, w, 0, 0, 0], .writeRaw [2] [v, v, 0, 0, 0], .writeDone]

/-- the option FldOnly for the marginal: a parameter, with the one record whose marginal is different -/
example : (do let f ← diffOf { fldOnly := some 1, active := [1] } (exVarDiff dbl03 dbl03) (exVarDiff dbl03 dblSum); readNames f) =
    .ok [([112], 2, 1), (filesCompared, 1, 0)] := by decide +kernel
example : (do let f ← diffOf { fldOnly := some 1, active := [1] } (exVarDiff dbl03 dbl03) (exVarDiff dbl03 dblSum); readSym f 1) =
    .ok [([[97], dif1], [dbl03]), ([[97], dif2], [dblSum])] := by decide +kernel
example : (do
      let f ← diffOf { fldOnly := some 1, active := [1] } (exVarDiff dbl03 dbl03) (exVarDiff dbl03 dblSum)
      let (g, _) ← openReadXX Cz.id Gx.new (.content f) 0
      pure ((symbolInfoX g 1).expl, (symbolInfoX g 1).userInfo, (symbolInfoX g 2).expl)) = .ok (ascii "Differences Field = Marginal", 0, []) := by decide +kernel
example : (do
      let f ← diffOf {} (exVarDiff dbl03 dbl03) (exVarDiff dbl03 dblSum)
      let (g, _) ← openReadXX Cz.id Gx.new (.content f) 0
      pure ((symbolInfoX g 1).expl, (symbolInfoX g 1).userInfo)) = .ok (ascii "Differences", 3) := by decide +kernel

/-- the option DiffOnly: a parameter with a dimension for the field, and only the marginal that is different -/
example : (do let f ← diffOf { diffOnly := true } (exVarDiff dbl03 dbl03) (exVarDiff dbl03 dblSum); readNames f) =
    .ok [([112], 3, 1), (filesCompared, 1, 0)] := by decide +kernel
example : (do let f ← diffOf { diffOnly := true } (exVarDiff dbl03 dbl03) (exVarDiff dbl03 dblSum); readSym f 1) =
    .ok [([[97], ascii "Marginal", dif1], [dbl03]), ([[97], ascii "Marginal", dif2], [dblSum])] := by decide +kernel
example : (do
      let f ← diffOf { diffOnly := true } (exVarDiff dbl03 dbl03) (exVarDiff dbl03 dblSum)
      let (g, _) ← openReadXX Cz.id Gx.new (.content f) 0
      pure ((symbolInfoX g 1).expl, (symbolInfoX g 1).userInfo)) = .ok (ascii "Differences Only", 0) := by decide +kernel

/-- a record that is in file 1 only: all the active fields, also those with their default values -/
example : (do let f ← diffOf { diffOnly := true, active := [0, 1] } (exVarDiff dbl03 dbl03) ((exVarDiff dbl03 dbl03).eraseIdx 7); readSym f 1) =
    .ok [([[98], ascii "Level", ins1], [dbl03]), ([[98], ascii "Marginal", ins1], [dbl03])] := by decide +kernel

/-- The name of the symbol with the file names, if it is in use: `to_string('_')` gives the number 95, so `FilesCompared951`. -/
theorem C72_name : (do
      let p : Dbl → List Call := fun v => [.openWrite false 0 [65] 0, .uelRawStart, .uelRaw [97], .uelDone, .rawStart filesCompared [] 1 1 0, .writeRaw [1] [v], .writeDone]
      let f ← diffOf {} (p dbl03) (p dblSum)
      readNames f) = .ok [(filesCompared, 2, 1), (filesCompared ++ [57, 53, 49], 1, 0)] := by decide +kernel

/-- C72 is violated with the option MatrixFile: the elements are read with their numbers in the file, which count from 1, and these are looked up in
    the table of labels of the program, which counts from 0 and begins with the labels ins1, ins2, dif1, dif2. Here `p` has another value for
    `b`, and the difference file tells of `dif1`. -/
theorem C72_matrix : (do let f ← diffOf { matrix := true } (exDiff dbl03) (exDiff dblSum); readSym f 1) =
    .ok [([dif1, dif1], [dbl03]), ([dif1, dif2], [dblSum])] := by decide +kernel

/-- a parameter `p` with the acronym `x` (number 1, value 1e301) or with the value 0.3 -/
def exAcrDiff (v : Bool) : List Call :=
  [.openWrite false 0 [65] 0, .uelRawStart, .uelRaw [97], .uelDone, .acronymAdd [120] [] 1, .rawStart [112] [] 1 1 0,
   .writeRaw [1] [if v then 9110180938284831491 else dbl03], .writeDone]

/-- the value of the first record of symbol `nr`, and the name of the acronym with this value -/
def readAcr (f : List UInt8) (nr : Int) : Res (Option (Dbl × Bool × Str)) := do
  let (g, _) ← openReadXX Cz.id Gx.new (.content f) 0
  let (g, _) ← dataReadStrStart Cz.id g nr
  let (g, o) ← dataReadStr g
  match o with
  | none => pure none
  | some r => do
    let v ← need r.vals[0]?
    let n ← acronymName g v
    pure (some (v, n))

/-- C72 is violated for acronyms: the difference file has the value of file 1, but not the name `x` of the acronym (CopyAcronyms is commented out); a
    reader gets the name `UnknownACRO1`. -/
theorem C72_acronym : (do let f ← fileOf (exAcrDiff true); readAcr f 1) = .ok (some (9110180938284831491, true, [120])) ∧
    (do let f ← diffOf {} (exAcrDiff true) (exAcrDiff false); readAcr f 1) = .ok (some (9110180938284831491, true, unknownACRO ++ [49])) := by
  constructor <;> decide +kernel

/-- An alias that differs is a set in the difference file, and its subtype is the number that its set has in file 1. -/
theorem C72_alias : (do
      let f ← diffOf {} (exSetDiff true ++ [Call.addAlias [105] [106]]) (exSetDiff false ++ [Call.addAlias [105] [106]])
      let (g, _) ← openReadXX Cz.id Gx.new (.content f) 0
      pure [((symbolInfo g 1).name, (symbolInfo g 1).typ, (symbolInfoX g 1).userInfo), ((symbolInfo g 2).name, (symbolInfo g 2).typ, (symbolInfoX g 2).userInfo)]) =
    .ok [([105], 0, 0), ([106], 0, 1)] := by decide +kernel

#print axioms C58_own_partial
#print axioms C72_diff_partial
#print axioms C72_own_partial
#print axioms C72_matrix
#print axioms C72_acronym
#print axioms C72_name
#print axioms C72_alias

end Gdx.Props
