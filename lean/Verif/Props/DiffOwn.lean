import Verif.Props.DiffFiles
import Verif.Props.Append

/-!
C57: gdxdiff with files written by the library.
-/

namespace Gdx.Props
open Gdx Gdx.Diff Gdx.Spec

/-- the symbol that is read for number `n`, and its number from 0 -/
def targetOf (syms : List Sym) (n : Int) : Option (Nat × Sym) :=
  match readTarget syms n with
  | .ok (some m) => (syms[m - 1]?).map (m - 1, ·)
  | _ => none

/-- the description of the symbol and the records of the symbol that is read for number `n` -/
def contentOf (syms : List Sym) (R : Nat → List RawEntry) (n : Int) : SymDesc × List RawEntry :=
  match targetOf syms n with
  | some (m, s) => (⟨s.name, s.dim, s.typ, s.userInfo⟩, R m)
  | none => (⟨[], 0, 0, 0⟩, [])

/-- The file that `g` is writing is complete: `R m` are the records of symbol number `m + 1`, their keys are elements of the file,
    a scalar has one record; no alias stands for the universe. -/
structure Complete (z : Cz) (g : Gx) (syms : List Sym) (R : Nat → List RawEntry) : Prop where
  names : g.names = some syms
  holds : ∀ m s, syms[m]? = some s → s.typ ≠ dtAlias → Holds z ⟨s.name, s.dim, s.typ, s.userInfo⟩ m (R m) g
  els : ∀ m s, syms[m]? = some s → s.typ ≠ dtAlias → ∀ x ∈ R m, ∀ e ∈ x.key, 1 ≤ e ∧ e ≤ (systemInfo g).2
  one : ∀ m s, syms[m]? = some s → s.typ ≠ dtAlias → s.dim = 0 → (R m).length = 1
  univ : ∀ (m : Nat) (s : Sym), syms[m]? = some s → s.typ = dtAlias → ¬ StandsFor syms ((m : Int) + 1) none

theorem standsFor_dim {syms : List Sym} {nd : Nat} (hok : SymsOk syms nd) {n : Int} {r : Option Nat} (h : StandsFor syms n r) :
    ∀ (i k : Nat) (s t : Sym), n = i + 1 → r = some (k + 1) → syms[i]? = some s → syms[k]? = some t → t.dim = s.dim := by
  induction h with
  | set n s h ht =>
    intro i k s' t hi hk hs hkt
    obtain rfl : n = i := by omega
    cases hk
    rw [hs] at hkt
    cases hkt
    rfl
  | univ n s h ht hu =>
    intro i k s' t hi hk
    cases hk
  | ali n s r h ht hu hr ih =>
    intro i k s' t hi hk hs hkt
    obtain rfl : n = i := by omega
    rw [h] at hs
    cases hs
    rcases (hok.each n s h).ali ht with ⟨h1, _⟩ | ⟨m, w, h1, h2, h3, h4, h5⟩
    · exact absurd h1 hu
    · rw [ih m k w t h2 hk h3 hkt, h5]

theorem target_sym {syms : List Sym} {nd : Nat} (hok : SymsOk syms nd) (hu : ∀ (m : Nat) (s : Sym), syms[m]? = some s → s.typ = dtAlias → ¬ StandsFor syms ((m : Int) + 1) none)
    {i : Nat} {s : Sym} (hs : syms[i]? = some s) :
    ∃ m t, readTarget syms ((i : Int) + 1) = .ok (some (m + 1)) ∧ syms[m]? = some t ∧ t.typ ≠ dtAlias ∧ t.dim = s.dim := by
  by_cases ha : s.typ = dtAlias
  · have hlt := (List.getElem?_eq_some_iff.mp hs).1
    obtain ⟨r, h1, h2⟩ := aliasTarget_ok syms nd hok (syms.length + 1) i s (by omega) hs (Or.inr ha)
    cases r with
    | none => exact absurd h2 (hu i s hs ha)
    | some m =>
      obtain ⟨k, t, rfl, k1, k2⟩ := h2.target
      refine ⟨k, t, ?_, k1, by rw [k2]; decide, standsFor_dim hok h2 i k s t rfl rfl hs k1⟩
      unfold readTarget
      rw [if_neg (by omega), at1_nat hs, Res.bind_ok, if_pos ha]
      exact h1
  · refine ⟨i, s, ?_, hs, ha, rfl⟩
    unfold readTarget
    rw [if_neg (by omega), at1_nat hs, Res.bind_ok, if_neg ha]
    rfl

theorem reopened_target {syms : List Sym} (n : Int) : readTarget (syms.map Sym.reopened) n = readTarget syms n := by
  have hat : ∀ n, at1 (syms.map Sym.reopened) n = (at1 syms n).bind fun s => .ok s.reopened := by
    intro n
    unfold at1
    split
    · rw [List.getElem?_map]
      cases syms[(n - 1).toNat]? <;> rfl
    · rfl
  have hal : ∀ (fuel : Nat) (n : Int), aliasTarget (syms.map Sym.reopened) fuel n = aliasTarget syms fuel n := by
    intro fuel
    induction fuel with
    | zero => intro n; rfl
    | succ k ih =>
      intro n
      unfold aliasTarget
      rw [hat]
      cases at1 syms n with
      | ub => rfl
      | ok s =>
        show (if s.typ = dtAlias then if s.userInfo = 0 then pure none else aliasTarget (syms.map Sym.reopened) k s.userInfo
          else if s.typ = dtSet then pure (some n.toNat) else Res.ub) = _
        rw [ih]
        rfl
  unfold readTarget
  rw [hat, List.length_map, hal]
  split
  · rfl
  · cases at1 syms n with
    | ub => rfl
    | ok s => rfl

/-- what an object that opens a file of the library knows -/
theorem own_content {e : Env} {z : Cz} (hz : z.Good) {g g' a : Gx} {k : Int} {syms : List Sym} {R : Nat → List RawEntry} (ha : After e z g)
    (hm : g.mode = .wInit) (hc : gdxClose z g = .ok (g', k)) (hf : FileFits g) (hl : (g'.file.length : Int) ≤ 9223372036854775807)
    (hr : Complete z g syms R) (ho : openRead z Gx.new (.content g'.file) = .ok (a, (true, 0))) :
    ∃ P, Content z a (contentOf syms R) P ∧ a.names = some (syms.map Sym.reopened) ∧ a.uel.map Uel.strs = g.uel.map Uel.strs := by
  have f := ha.fine hz
  have hre : Reopens z g a := ⟨Gx.new, g', k, hm, hc, hf, hl, ⟨rfl, rfl, by decide⟩, ho⟩
  obtain ⟨a', h1, h2, h3⟩ := close_open hz f.inv hm (f.stat hm) hc hf hl Gx.new rfl 0
  rw [show openReadXX z Gx.new (.content g'.file) 0 = openRead z Gx.new (.content g'.file) from rfl, ho] at h1
  cases h1
  obtain ⟨u, u1, u2, u3⟩ := h2.uel
  have hok := (f.inv.tab.syms syms hr.names)
  obtain ⟨l, l1, l2⟩ := h2.names
  rw [hr.names] at l1
  cases l1
  have hstr : a.uel.map Uel.strs = g.uel.map Uel.strs := by
    rw [u1, u2]
    simp [Uel.strs, Function.comp_def]
  have hsize : (systemInfo a).2 = (systemInfo g).2 := by rw [size_strs, size_strs, hstr]
  have hfresh : Fresh a := by
    refine ⟨h2.mode, h2.opn, ⟨u.strs, u2⟩, ?_, h2.filt, by rw [h3.nextAuto]; decide, ?_⟩
    · intro v hv
      rw [u2] at hv
      cases hv
      have hg := f.inv.els u u1
      have hss : Uel.strs { Uel.empty with ents := u.strs.map (·, -1) } = u.strs := by simp [Uel.strs, Function.comp_def]
      exact ⟨by rw [hss]; exact hg.distinct, by rw [hss]; exact hg.good⟩
    · have := openReadXX_still (z := z) (g := Gx.new) (f := g'.file) (m := 0)
      unfold openRead at ho
      rw [ho] at this
      exact congrArg Prod.snd this
  have hnames : NamesOk a := by
    constructor
    · intro l hl'
      rw [l2] at hl'
      cases hl'
      exact hok.reopened.distinct
    · intro l hl' hst
      rw [l2] at hl'
      cases hl'
      obtain ⟨s, hs, hs'⟩ := List.mem_map.mp hst
      obtain ⟨i, hi⟩ := List.getElem?_of_mem hs
      have := (hok.reopened.each i s hi).good
      rw [hs'] at this
      exact absurd this (by decide)
  have hsym : ∀ n, (a.symAt n).isSome = true → HoldsSym z a n (contentOf syms R n).1 (contentOf syms R n).2 := by
    intro n hn
    obtain ⟨y, hy⟩ := Option.isSome_iff_exists.mp hn
    obtain ⟨i, hi, rfl⟩ := nameOf_iff.mp ⟨y, hy, rfl⟩
    rw [l2, Option.getD_some, List.getElem?_map, List.getElem?_map] at hi
    cases hs : syms[i]? with
    | none => rw [hs] at hi; cases hi
    | some s =>
      obtain ⟨m, t, t1, t2, t3, t4⟩ := target_sym hok hr.univ hs
      have hlt := (List.getElem?_eq_some_iff.mp hs).1
      have hcont : contentOf syms R ((i : Int) + 1) = (⟨t.name, t.dim, t.typ, t.userInfo⟩, R m) := by
        unfold contentOf targetOf
        rw [t1]
        simp only [Nat.add_sub_cancel, t2, Option.map_some]
      rw [hcont]
      obtain ⟨ld, _, _⟩ := holds_loaded hz ha (hr.holds m t t2 t3) hre
      refine ⟨⟨m, ld, syms.map Sym.reopened, l2, by omega, by simp; omega, by rw [reopened_target]; exact t1⟩, (hok.each m t t2).dim, ?_, hr.one m t t2 t3, ?_⟩
      · intro x hx e he
        rw [hsize]
        exact hr.els m t t2 t3 x hx e he
      · show (symbolInfo a ((i : Int) + 1)).dim = t.dim
        rw [t4]
        unfold symbolInfo
        rw [if_neg (by omega)]
        unfold Gx.symAt
        rw [l2]
        simp only [List.length_map]
        rw [if_pos (by omega), show ((i : Int) + 1 - 1).toNat = i by omega, List.getElem?_map, hs]
        rfl
  have hdel : ∀ n, ∃ p, (a.symAt n).isSome = true → ∃ outs, Delivered a.rsv (acrOf a) (contentOf syms R n).1 (contentOf syms R n).2 outs ∧ p = recPairs outs := by
    intro n
    by_cases hn : (a.symAt n).isSome = true
    · obtain ⟨m, ld, ht⟩ := (hsym n hn).sym
      obtain ⟨outs, b1, _⟩ := ld.reads hz ht
      exact ⟨recPairs outs, fun _ => ⟨outs, b1, rfl⟩⟩
    · exact ⟨[], fun h => absurd h hn⟩
  choose P hP using hdel
  exact ⟨P, ⟨hfresh, hnames, hsym, hP⟩, l2, hstr⟩

/-- `f` is a file of the library: `g` wrote it and closed it; `R` are the records of its symbols `syms`. -/
structure OwnFile (e : Env) (z : Cz) (g : Gx) (syms : List Sym) (R : Nat → List RawEntry) (f : List UInt8) : Prop where
  hist : After e z g
  mode : g.mode = .wInit
  close : ∃ g' k, gdxClose z g = .ok (g', k) ∧ g'.file = f
  fits : FileFits g
  len : (f.length : Int) ≤ 9223372036854775807
  full : Complete z g syms R

theorem OwnFile.content {e : Env} {z : Cz} (hz : z.Good) {g : Gx} {syms : List Sym} {R : Nat → List RawEntry} {f : List UInt8} (h : OwnFile e z g syms R f) :
    ∃ a P, openRead z Gx.new (.content f) = .ok (a, (true, 0)) ∧ Content z a (contentOf syms R) P ∧ a.names = some (syms.map Sym.reopened) ∧
      a.uel.map Uel.strs = g.uel.map Uel.strs := by
  obtain ⟨g', k, hc, rfl⟩ := h.close
  have f := h.hist.fine hz
  obtain ⟨a, h1, _, _⟩ := close_open hz f.inv h.mode (f.stat h.mode) hc h.fits h.len Gx.new rfl 0
  have ho : openRead z Gx.new (.content g'.file) = .ok (a, (true, 0)) := h1
  obtain ⟨P, c1, c2, c3⟩ := own_content hz h.hist h.mode hc h.fits h.len h.full ho
  exact ⟨a, P, ho, c1, c2, c3⟩

/-- C57: gdxdiff and two files written by the library, in whatever histories (raw, mapped or string mode, with gdxOpenAppend, compressed or
    not): if it comes to an end, the table of differences is empty if and only if the files have the same content; if they have the same content, it
    comes to an end. What is missing: files in which an alias stands for the universe or a scalar has no record (the reader may then use
    a deleted list, C59), records whose keys are no elements of the file (raw mode does not check this). -/
theorem C57_own_partial {o : Opt} {e1 e2 e : Env} {z : Cz} (hz : z.Good) {g1 g2 : Gx} {syms1 syms2 : List Sym} {R1 R2 : Nat → List RawEntry}
    {f1 f2 : List UInt8} (h1 : OwnFile e1 z g1 syms1 R1 f1) (h2 : OwnFile e2 z g2 syms2 R2 f2)
    (hsz : (systemInfo g1).2 + (systemInfo g2).2 ≤ 999999991) :
    ∃ a b P Q, openRead z Gx.new (.content f1) = .ok (a, (true, 0)) ∧ openRead z Gx.new (.content f2) = .ok (b, (true, 0)) ∧
      Content z a (contentOf syms1 R1) P ∧ Content z b (contentOf syms2 R2) Q ∧
      (∀ fuel x t, statusTable o e z fuel f1 f2 = .ok (some (x, t)) → (t = [] ↔ SameFiles o a b P Q)) ∧
      (SameFiles o a b P Q → (∃ gd b3, openWriteEx e Gx.new false 0 producer 0 = .ok (gd, (b3, 0))) →
        ∀ fuel, totalRecs a (contentOf syms1 R1) + totalRecs b (contentOf syms2 R2) < fuel → ∃ x, statusTable o e z fuel f1 f2 = .ok (some (x, []))) := by
  obtain ⟨a, P, a1, a2, a3, a4⟩ := h1.content hz
  obtain ⟨b, Q, b1, b2, b3, b4⟩ := h2.content hz
  have hs : (systemInfo a).2 + (systemInfo b).2 ≤ 999999991 := by
    rw [size_strs, size_strs, a4, b4, ← size_strs, ← size_strs]
    exact hsz
  exact ⟨a, b, P, Q, a1, b1, a2, b2, fun fuel x t h => C57_files hz a1 b1 a2 b2 hs h,
    fun hsame ⟨gd, b3, hw⟩ fuel hf => C57_same hz hw a1 b1 a2 b2 hs hsame hf⟩

/-! ### a file and itself -/

/-- nothing in the symbol stops the program: there is a default record (C59), the domains can be asked for, the values are finite -/
structure Plain (o : Opt) (a : Gx) (n : Int) (P : List Record) : Prop where
  defs : ∃ defs, defRecord (symTyp (symbolInfo a n).typ) (symbolInfoX a n).userInfo = .ok defs
  doms : o.compDom = true → ∃ c ds, symbolGetDomainX a n = .ok (a, (c, ds))
  vals : ∀ r ∈ P, if symTyp (symbolInfo a n).typ = dtSet then ∃ x t, r.2.head? = some x ∧ setText a x = .ok t
    else ∀ t ∈ compared o (symTyp (symbolInfo a n).typ), ∃ x w, r.2[t]? = some x ∧ Finite x ∧ acronymName a x = .ok w

theorem sameKey_self {o : Opt} {a : Gx} (hg : GoodElems a) {k k' : List Int} (h : SameKey o a a k k') : k = k' := by
  unfold SameKey at h
  split at h
  · exact h
  · induction h with
    | nil => rfl
    | cons h _ ih =>
      obtain ⟨s, s', h1, h2, h3⟩ := h
      rw [label_iff hg] at h1 h2
      rw [ih]
      congr 1
      cases hu : a.uel with
      | none => rw [hu] at h1; exact absurd h1.2 (by simp)
      | some u =>
        rw [hu] at h1 h2
        simp only [Option.map_some, Option.getD_some] at h1 h2
        have := (hg u hu).distinct.eq h1.2 h2.2 h3
        omega

theorem delivered_keys {z : Cz} {g : Gx} {nr : Int} {d : SymDesc} {xs : List RawEntry} {r : SVTab} {acr : Dbl → Dbl} {outs : List (RecOut Int)}
    (h : HoldsSym z g nr d xs) (hd : Delivered r acr d xs outs) : ∀ x ∈ recPairs outs, ∀ y ∈ recPairs outs, x.1 = y.1 → x = y := by
  unfold Delivered at hd
  rw [if_neg (by
    rintro ⟨c1, c2⟩
    have := h.one c1
    rw [c2] at this
    cases this)] at hd
  by_cases h0 : d.dim = 0
  · have hl : (recPairs outs).length = 1 := by
      unfold recPairs
      rw [List.length_map, ← hd.recs.length_eq]
      exact h.one h0
    intro x hx y hy _
    obtain ⟨w, hw⟩ := List.length_eq_one_iff.mp hl
    rw [hw] at hx hy
    rw [List.mem_singleton.mp hx, List.mem_singleton.mp hy]
  · have hp := hd.sorted h0
    intro x hx y hy hxy
    obtain ⟨p, hp1, rfl⟩ := List.mem_map.mp hx
    obtain ⟨q, hq1, rfl⟩ := List.mem_map.mp hy
    obtain ⟨i, hi⟩ := List.getElem?_of_mem hp1
    obtain ⟨j, hj⟩ := List.getElem?_of_mem hq1
    have hk : ∀ {i : Nat} {p : RecOut Int}, outs[i]? = some p → (outs.map RecOut.key)[i]? = some p.key := by
      intro i p hi
      rw [List.getElem?_map, hi]
      rfl
    have key : ∀ {i j : Nat} {p q : RecOut Int}, outs[i]? = some p → outs[j]? = some q → p.key = q.key → ¬ i < j := by
      intro i j p q hi hj he hij
      have := List.pairwise_iff_getElem.mp hp i j (by rw [List.length_map]; exact (List.getElem?_eq_some_iff.mp hi).1)
        (by rw [List.length_map]; exact (List.getElem?_eq_some_iff.mp hj).1) hij
      rw [List.getElem_map, List.getElem_map, (List.getElem?_eq_some_iff.mp hi).2, (List.getElem?_eq_some_iff.mp hj).2, he] at this
      exact lt_irrefl _ this
    have hij : i = j := by
      have k1 := key hi hj hxy
      have k2 := key hj hi hxy.symm
      omega
    subst hij
    rw [hi] at hj
    cases hj
    rfl

theorem same_self {o : Opt} {z : Cz} {a : Gx} {D : Int → SymDesc × List RawEntry} {P : Int → List Record} {q : ℚ} (hc : Content z a D P)
    (he : o.eps.fv = .fin q) (h0 : 0 ≤ q) (hp : ∀ n, (a.symAt n).isSome = true → Plain o a n (P n)) : SameFiles o a a P P := by
  refine ⟨fun n s hn hs => ⟨n, s, hn, rfl, ?_⟩, fun n s hn _ => ⟨n, s, hn, rfl⟩⟩
  have hn' : (a.symAt n).isSome = true := by
    obtain ⟨y, hy, _⟩ := hn
    rw [hy]
    rfl
  have pl := hp n hn'
  obtain ⟨defs, hdef⟩ := pl.defs
  obtain ⟨outs, o1, o2⟩ := hc.recs n hn'
  refine ⟨rfl, rfl, ?_, defs, hdef, ?_, ?_, ?_⟩
  · intro hcd _
    obtain ⟨c, ds, hx⟩ := pl.doms hcd
    exact ⟨c, ds, c, ds, hx, hx, fun i _ => rfl⟩
  · intro r hr q' hq hk
    have hk := sameKey_self hc.fresh.good hk
    have hrq : r = q' := by
      rw [o2] at hr hq
      exact delivered_keys (hc.holds n hn') o1 r hr q' hq hk
    subst hrq
    have hv := pl.vals r hr
    unfold ValsAgree
    split
    · rename_i ht
      rw [if_pos ht] at hv
      obtain ⟨x, t, v1, v2⟩ := hv
      exact fun _ => ⟨x, x, t, v1, v1, v2, v2⟩
    · rename_i ht
      rw [if_neg ht] at hv
      intro t htm
      obtain ⟨x, w, v1, ⟨v, v2⟩, v3⟩ := hv t htm
      exact ⟨x, x, v1, v1, C56_refl o a x v q v2 he h0 ⟨w, v3⟩⟩
  · intro r hr hno
    refine absurd ?_ (hno r hr)
    unfold SameKey
    split
    · rfl
    · refine List.forall₂_same.mpr fun e he => ?_
      obtain ⟨j1, _⟩ := holds_keys (hc.holds n hn') o1
      rw [o2] at hr
      obtain ⟨i1, i2⟩ := j1 r hr e he
      rw [size_strs] at i2
      obtain ⟨s, hs⟩ : ∃ s, ((a.uel.map Uel.strs).getD [])[(e - 1).toNat]? = some s := ⟨_, List.getElem?_eq_getElem (by omega)⟩
      exact ⟨s, s, (label_iff hc.fresh.good).mpr ⟨i1, hs⟩, (label_iff hc.fresh.good).mpr ⟨i1, hs⟩, rfl⟩
  · intro r hr hno
    refine absurd ?_ (hno r hr)
    unfold SameKey
    split
    · rfl
    · refine List.forall₂_same.mpr fun e he => ?_
      obtain ⟨j1, _⟩ := holds_keys (hc.holds n hn') o1
      rw [o2] at hr
      obtain ⟨i1, i2⟩ := j1 r hr e he
      rw [size_strs] at i2
      obtain ⟨s, hs⟩ : ∃ s, ((a.uel.map Uel.strs).getD [])[(e - 1).toNat]? = some s := ⟨_, List.getElem?_eq_getElem (by omega)⟩
      exact ⟨s, s, (label_iff hc.fresh.good).mpr ⟨i1, hs⟩, (label_iff hc.fresh.good).mpr ⟨i1, hs⟩, rfl⟩

/-- C58: Comparing a file of the library with itself comes to an end, without undefined behaviour, and finds no difference, if the values are
    finite and no symbol is one of those for which the program leaves its arrays (C59). -/
theorem C58_ends_partial {o : Opt} {e1 e : Env} {z : Cz} (hz : z.Good) {g1 : Gx} {syms1 : List Sym} {R1 : Nat → List RawEntry} {f : List UInt8} {q : ℚ}
    (h1 : OwnFile e1 z g1 syms1 R1 f) (hsz : 2 * (systemInfo g1).2 ≤ 999999991) (he : o.eps.fv = .fin q) (h0 : 0 ≤ q)
    (hw : ∃ gd b3, openWriteEx e Gx.new false 0 producer 0 = .ok (gd, (b3, 0))) :
    ∃ a P, openRead z Gx.new (.content f) = .ok (a, (true, 0)) ∧ Content z a (contentOf syms1 R1) P ∧
      ((∀ n, (a.symAt n).isSome = true → Plain o a n (P n)) →
        ∀ fuel, 2 * totalRecs a (contentOf syms1 R1) < fuel → ∃ x, statusTable o e z fuel f f = .ok (some (x, []))) := by
  obtain ⟨a, P, a1, a2, a3, a4⟩ := h1.content hz
  obtain ⟨gd, b3, hw⟩ := hw
  have hs : (systemInfo a).2 + (systemInfo a).2 ≤ 999999991 := by
    rw [size_strs, a4, ← size_strs]
    omega
  exact ⟨a, P, a1, a2, fun hp fuel hf => C57_same hz hw a1 a1 a2 a2 hs (same_self a2 he h0 hp) (by omega)⟩

/-! ### examples -/

/-- the elements `a`, `b` or `b`, `a`; the parameter `p` with the record `b` or `a`, `b` -/
def exOrder (swap : Bool) (v : Dbl) : List Call :=
  if swap then [.openWrite false 0 [65] 0, .uelRawStart, .uelRaw [98], .uelRaw [97], .uelDone,
    .rawStart [112] [] 1 1 0, .writeRaw [1] [v], .writeRaw [2] [Dbl.one], .writeDone]
  else [.openWrite false 0 [65] 0, .uelRawStart, .uelRaw [97], .uelRaw [98], .uelDone,
    .rawStart [80] [] 1 1 0, .writeRaw [1] [Dbl.one], .writeRaw [2] [v], .writeDone]

/-- the order of the elements and records and the case of the names do not matter -/
example : tableOf {} (exOrder true dbl03) (exOrder false dbl03) = .ok (some []) := by decide +kernel
/-- a value does -/
example : tableOf {} (exOrder true dbl03) (exOrder false dblSum) = .ok (some [([80], .data)]) := by decide +kernel

/-- such files are `OwnFile`s, so that the conditions of `C57_own_partial` can be met -/
theorem own_exists (v : Bool) : ∃ g syms R f, OwnFile ⟨[]⟩ Cz.id g syms R f ∧ ((systemInfo g).2 = 1 ∧ syms.length = 1 ∧
    (R 0).map (fun x => (x.key, x.vals)) = [([1], [if v then dbl03 else dblSum])]) ∧ g.acros = some [] ∧ g.texts.map List.length = some 1 ∧
    g.uel.map (fun u => u.ents.length) = some 1 ∧ ∃ s, syms = [s] ∧ s.typ = 1 ∧ s.dim = 1 := by
  have hz : Cz.id.Good := fun x t => ⟨t, rfl⟩
  have key : after [.openWrite false 0 [65] 0, .uelRawStart, .uelRaw [97], .uelDone] (fun g0 => do
      let (g1, b1) ← dataWriteRawStart g0 [112] [] 1 1 0
      let (g2, b2) ← dataWriteRaw g1 [1] [if v then dbl03 else dblSum]
      let (g3, b3) ← dataWriteDone Cz.id g2
      let (g4, _) ← gdxClose Cz.id g3
      pure (decide (b1 = true ∧ b2 = true ∧ g0.names.map List.length = some 0 ∧ g2.mode = .wRaw ∧ g3.mode = .wInit ∧ g4.file.length ≤ 1000 ∧ (systemInfo g3).2 = 1) &&
        decide ((g3.names.map fun l => l.map fun s => (s.name, s.dim, s.typ)) = some [([112], 1, 1)] ∧
        (g3.names.map fun l => l.map fun s => (s.userInfo, s.errors, s.comments.length)) = some [(0, 0, 0)] ∧
        g3.texts.map List.length = some 1 ∧ g3.uel.map (fun u => u.ents.length) = some 1 ∧ g3.acros.map List.length = some 0 ∧
        g3.domStrs.map List.length = some 0))) = .ok true := by
    cases v <;> decide +kernel
  obtain ⟨g0, h0, key⟩ := Res.bind_eq_ok.mp key
  obtain ⟨⟨g1, b1⟩, h1, key⟩ := Res.bind_eq_ok.mp key
  obtain ⟨⟨g2, b2⟩, h2, key⟩ := Res.bind_eq_ok.mp key
  obtain ⟨⟨g3, b3⟩, h3, key⟩ := Res.bind_eq_ok.mp key
  obtain ⟨⟨g4, k⟩, h4, key⟩ := Res.bind_eq_ok.mp key
  obtain ⟨ka, kb⟩ := (Bool.and_eq_true _ _).mp (Res.ok.inj key)
  obtain ⟨rfl, rfl, k1, k2, k3, k4, k5⟩ := of_decide_eq_true ka
  obtain ⟨k6, k6', k7, k8, k9, k10⟩ := of_decide_eq_true kb
  have k1' : g0.names = some [] := by
    obtain ⟨l, e1, e2⟩ := Option.map_eq_some_iff.mp k1
    rw [e1, List.length_eq_zero_iff.mp e2]
  have hcs : ∀ c ∈ [Call.openWrite false 0 [65] 0, .uelRawStart, .uelRaw [97], .uelDone], c.WF ∧ c.opensRead = false := by
    simp [Call.WF, Call.opensRead, ZFree, I32]
  have hw : Wrote ⟨[]⟩ Cz.id [112] 1 1 0 0 [⟨[1], [if v then dbl03 else dblSum], g1.sv, true⟩] g3 := by
    refine ⟨_, [], [], g0, g1, g2, g3, [], b3, fun c hc => (hcs c hc).1, ?_, h0, k1', rfl, ⟨by unfold ZFree; decide, by unfold ZFree; decide, by decide, by decide, by decide⟩,
      Or.inl h1, .write h2 (.nil g2), Or.inl k2, ?_, h3, (by intro c hc; cases hc), rfl⟩
    · intro c hc
      constructor <;> rintro d m rfl <;> exact absurd (hcs _ hc).2 (by simp [Call.opensRead])
    · intro x hx k hk
      rw [List.mem_singleton.mp hx] at hk
      rw [List.mem_singleton.mp hk]
      decide
  have hwr : Written ⟨[]⟩ Cz.id [112] 1 1 0 0 [⟨[1], [if v then dbl03 else dblSum], g1.sv, true⟩] g3 := .raw _ hw rfl
  obtain ⟨_, q1, q2⟩ := hwr.kept hz
  obtain ⟨syms, hs, k6⟩ := Option.map_eq_some_iff.mp k6
  obtain ⟨s, rfl⟩ : ∃ s, syms = [s] := List.length_eq_one_iff.mp (by simpa using congrArg List.length k6)
  rw [hs] at k6'
  simp only [Option.map_some, Option.some.injEq, List.map_cons, List.map_nil, List.cons.injEq, Prod.mk.injEq, and_true] at k6 k6'
  obtain ⟨s1, s2, s3⟩ := k6
  obtain ⟨s4, s5, s6⟩ := k6'
  have one : ∀ {m : Nat} {s' : Sym}, [s][m]? = some s' → m = 0 ∧ s' = s := by
    intro m s' h
    cases m with
    | zero => cases h; exact ⟨rfl, rfl⟩
    | succ m => cases h
  refine ⟨g3, [s], fun _ => [⟨[1], [if v then dbl03 else dblSum], g1.sv, true⟩], g4.file, ⟨hwr.after, k3, ⟨g4, k, h4, rfl⟩, ?_, by omega, hs, ?_, ?_, ?_, ?_⟩, ⟨k5, rfl, rfl⟩, ?_, k7, k8, s, rfl, s3, s2⟩
  · refine ⟨fun l hl => ?_, fun l hl => ?_, fun u hu => ?_, fun l hl => ?_, fun l hl => ?_⟩
    · rw [hs] at hl
      cases hl
      refine ⟨by simp, fun y hy => ?_⟩
      rw [List.mem_singleton.mp hy, s5, s6]
      exact ⟨by decide, by decide⟩
    · rw [hl] at k7; simp at k7; omega
    · rw [hu] at k8; simp at k8; omega
    · rw [hl] at k9; simp at k9; simp [k9]
    · rw [hl] at k10; simp at k10; simp [k10]
  · intro m s' hm _
    obtain ⟨rfl, rfl⟩ := one hm
    rw [s1, s2, s3, s4]
    exact ⟨q1, q2⟩
  · intro m s' hm _ x hx e he
    rw [List.mem_singleton.mp hx] at he
    rw [List.mem_singleton.mp he, k5]
    decide
  · intro m s' hm _ hd
    rfl
  · intro m s' hm ha
    obtain ⟨rfl, rfl⟩ := one hm
    rw [s3] at ha
    cases ha
  · obtain ⟨l, e1, e2⟩ := Option.map_eq_some_iff.mp k9
    rw [e1, List.length_eq_zero_iff.mp e2]

#print axioms C57_own_partial
#print axioms C58_ends_partial

end Gdx.Props
