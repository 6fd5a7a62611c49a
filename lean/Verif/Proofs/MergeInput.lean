import Verif.Proofs.MergeRun
import Verif.Props.DiffOwn

/-! gdxmerge: a file of the library as input file. -/

namespace Gdx.Merge
open Gdx Gdx.Spec Gdx.Props

/-! ### values of sets -/

theorem intDbl_bits {n : Int} (h0 : 0 ≤ n) (h2 : n < 2147483648) : (intDbl n).toNat < 4751297606875873280 := by
  unfold intDbl
  split
  · decide
  · have hq : (1 : ℚ) ≤ n := by exact_mod_cast (by omega : (1 : Int) ≤ n)
    obtain ⟨s1, s2⟩ := signif_bounds (n : ℚ) hq
    have hexp := whole_binExp (n := n) (by omega) h2
    unfold toDbl
    simp only
    rw [if_pos (by omega), UInt64.toNat_ofNat']
    omega

/-- a small whole number is delivered as it is -/
theorem readsAs_intDbl {r : SVTab} {acr : Dbl → Dbl} {n : Int} (h0 : 0 ≤ n) (h2 : n < 2147483648) {w : Dbl} (h : ReadsAs SVTab.default r acr (intDbl n) w) :
    w = intDbl n := by
  have hb := intDbl_bits h0 h2
  have hmag : mag (intDbl n) = (intDbl n).toNat := by
    unfold mag
    omega
  refine C04_unique SVTab.default r ?_ acr _ _ _ h (.same ?_ ?_ ?_ ?_)
  · intro a b h; cases a <;> cases b <;> first | rfl | (revert h; decide)
  · intro k hk
    rw [hk] at hb
    revert hb
    cases k <;> decide
  · unfold IsFinite infMag
    omega
  · right
    omega
  · intro he
    rw [he] at hb
    revert hb
    decide

/-! ### one file -/

/-- the symbol that is read for symbol `i + 1`: itself, or for an alias a set of the same dimension -/
theorem target_typ {syms : List Sym} {nd : Nat} (hok : SymsOk syms nd) (hu : ∀ (m : Nat) (s : Sym), syms[m]? = some s → s.typ = dtAlias → ¬ StandsFor syms ((m : Int) + 1) none)
    {i : Nat} {s : Sym} (hs : syms[i]? = some s) :
    ∃ m t, readTarget syms ((i : Int) + 1) = .ok (some (m + 1)) ∧ syms[m]? = some t ∧ t.dim = s.dim ∧ (if s.typ = dtAlias then t.typ = dtSet else m = i ∧ t = s) := by
  by_cases ha : s.typ = dtAlias
  · have hlt := (List.getElem?_eq_some_iff.mp hs).1
    obtain ⟨r, h1, h2⟩ := aliasTarget_ok syms nd hok (syms.length + 1) i s (by omega) hs (Or.inr ha)
    cases r with
    | none => exact absurd h2 (hu i s hs ha)
    | some m =>
      obtain ⟨k, t, rfl, k1, k2⟩ := h2.target
      refine ⟨k, t, ?_, k1, standsFor_dim hok h2 i k s t rfl rfl hs k1, by rw [if_pos ha]; exact k2⟩
      unfold readTarget
      rw [if_neg (by omega), at1_nat hs, Res.bind_ok, if_pos ha]
      exact h1
  · refine ⟨i, s, ?_, hs, rfl, by rw [if_neg ha]; exact ⟨rfl, rfl⟩⟩
    unfold readTarget
    rw [if_neg (by omega), at1_nat hs, Res.bind_ok, if_neg ha]
    rfl

/-- An input file: its name in the merged file, the information about it, and how it was written -/
structure OwnIn where
  id : Str
  info : Str
  e : Env
  g : Gx
  syms : List Sym
  R : Nat → List RawEntry
  file : List UInt8

/-- as gdxmerge sees it -/
def OwnIn.inFile (i : OwnIn) : InFile := ⟨i.id, i.info, .content i.file⟩

/-- its texts, labels and number of records -/
def OwnIn.texts (i : OwnIn) : List Str := (i.g.texts.getD []).map Prod.fst
def OwnIn.labels (i : OwnIn) : List Str := (i.g.uel.map Uel.strs).getD []
def OwnIn.nrecs (i : OwnIn) : Nat := ((List.range i.syms.length).map fun n : Nat => (contentOf i.syms i.R ((n : Int) + 1)).2.length).sum

/-- type and subtype of a symbol, an alias counts as a set -/
def symTypOf (s : Sym) : Nat := if s.typ = dtAlias then dtSet else s.typ
def symSubOf (s : Sym) : Int := if s.typ = dtAlias then 0 else s.userInfo

/-- The input file is a file of the library without acronyms, the values of its sets are numbers of texts. -/
structure OwnIn.Ok (z : Cz) (i : OwnIn) : Prop where
  own : OwnFile i.e z i.g i.syms i.R i.file
  acr : i.g.acros = some []
  cnt : ∀ s ∈ i.syms, s.typ = dtAlias → s.dataCount = 0
  sv : ∀ (n : Nat) s, i.syms[n]? = some s → s.typ = dtSet → ∀ x ∈ i.R n, x.sv = SVTab.default ∧ ∃ k : Nat, k < i.texts.length ∧ x.vals = [intDbl k]

/-- what symbol `n + 1` of the file is; `b` opened the file -/
structure IsSrc (i : OwnIn) (b : Gx) (u : Uel) (n : Nat) (s : Sym) (r : Src) : Prop where
  id : r.id = i.id
  a : r.a = b
  name : r.name = s.name
  dim : r.dim = s.dim.toNat
  typ : r.typ = symTypOf s
  sub : r.sub = symSubOf s
  expl : r.expl = s.expl
  recs : ∃ outs, Delivered SVTab.default (acrOf b) (contentOf i.syms i.R ((n : Int) + 1)).1 (contentOf i.syms i.R ((n : Int) + 1)).2 outs ∧ r.recs = outs.map (RecOut.toStr u)

theorem symAt_reopened {a : Gx} {syms : List Sym} (hn : a.names = some (syms.map Sym.reopened)) {n : Nat} {s : Sym} (hs : syms[n]? = some s) :
    a.symAt ((n : Int) + 1) = some s.reopened := by
  have hl := (List.getElem?_eq_some_iff.mp hs).1
  unfold Gx.symAt
  rw [hn]
  simp only [List.length_map]
  rw [if_pos (by omega), show ((n : Int) + 1 - 1).toNat = n by omega, List.getElem?_map, hs]
  rfl

/-- the library reads the file as it was written -/
theorem own_input {z : Cz} (hz : z.Good) {i : OwnIn} (h : i.Ok z) :
    ∃ a u srs, Diff.Fresh a ∧ a.uel = some u ∧ i.g.uel.map Uel.strs = some u.strs ∧ (∃ l, i.g.texts = some l ∧ a.texts = some (l.map fun p => (p.1, 0))) ∧
      Input z i.inFile srs ∧ srs.length = i.syms.length ∧ (∀ (n : Nat) s r, i.syms[n]? = some s → srs[n]? = some r → IsSrc i a u n s r) ∧
      ∀ (n : Nat), n < i.syms.length → HoldsSym z a ((n : Int) + 1) (contentOf i.syms i.R ((n : Int) + 1)).1 (contentOf i.syms i.R ((n : Int) + 1)).2 := by
  obtain ⟨g', k, hc, hfile⟩ := h.own.close
  have f := h.own.hist.fine hz
  have hlen := h.own.len
  rw [← hfile] at hlen
  obtain ⟨a, h1, h2, h3⟩ := close_open hz f.inv h.own.mode (f.stat h.own.mode) hc h.own.fits hlen Gx.new rfl 0
  have ho : openRead z Gx.new (.content g'.file) = .ok (a, (true, 0)) := h1
  obtain ⟨P, c1, c2, c3⟩ := own_content hz h.own.hist h.own.mode hc h.own.fits hlen h.own.full ho
  have hok := f.inv.tab.syms i.syms h.own.full.names
  obtain ⟨u0, u1, u2, _⟩ := h2.uel
  have hna : a.nextAuto = 0 := h3.nextAuto
  have hself : ({ a with nextAuto := 0 } : Gx) = a := by
    rw [← hna]
  have hsome : ∀ n, n < i.syms.length → (a.symAt ((n : Int) + 1)).isSome = true := by
    intro n hn
    rw [symAt_reopened c2 (List.getElem?_eq_getElem hn)]
    rfl
  have hholds := fun n hn => c1.holds _ (hsome n hn)
  have hrsv : a.rsv = SVTab.default := h2.sv.2
  have hex : ∀ n : Nat, ∃ r : Src, ∀ s, i.syms[n]? = some s → IsSrc i a { Uel.empty with ents := u0.strs.map (·, -1) } n s r ∧ SymAt z { a with nextAuto := 0 } ((n : Int) + 1) r := by
    intro n
    cases hs : i.syms[n]? with
    | none => exact ⟨⟨[], a, [], 0, 0, 0, [], []⟩, fun s h => (by cases h)⟩
    | some s =>
      have hn := (List.getElem?_eq_some_iff.mp hs).1
      obtain ⟨outs, o1, _⟩ := c1.recs _ (hsome n hn)
      rw [hrsv] at o1
      refine ⟨⟨i.id, a, s.name, s.dim.toNat, symTypOf s, symSubOf s, s.expl, outs.map (RecOut.toStr { Uel.empty with ents := u0.strs.map (·, -1) })⟩, fun s' hs' => ?_⟩
      cases hs'
      refine ⟨⟨rfl, rfl, rfl, rfl, rfl, rfl, rfl, outs, o1, rfl⟩, ?_⟩
      rw [hself]
      have hsym := symAt_reopened c2 hs
      have hinf : symbolInfo a ((n : Int) + 1) = ⟨true, s.name, s.dim, s.typ⟩ := by
        unfold symbolInfo
        rw [if_neg (by omega), hsym]
        rfl
      have hinx : symbolInfoX a ((n : Int) + 1) = ⟨true, if s.dim = 0 then 1 else s.dataCount, s.userInfo, s.expl⟩ := by
        unfold symbolInfoX
        rw [if_neg (by omega), hsym]
        rfl
      obtain ⟨m, t, t1, t2, t3, t4⟩ := target_typ hok h.own.full.univ hs
      have hcont : contentOf i.syms i.R ((n : Int) + 1) = (⟨t.name, t.dim, t.typ, t.userInfo⟩, i.R m) := by
        unfold contentOf targetOf
        rw [t1]
        simp only [Nat.add_sub_cancel, t2, Option.map_some]
      have hh := hholds n hn
      have hlen : outs.length = (contentOf i.syms i.R ((n : Int) + 1)).2.length := by
        unfold Delivered at o1
        rw [if_neg (by
          rintro ⟨q1, q2⟩
          have := hh.one q1
          rw [q2] at this
          cases this)] at o1
        exact o1.recs.length_eq.symm
      have hdim := (hok.each n s hs).dim
      refine ⟨by omega, ?_, by rw [hinf], by rw [hinf]; rfl, by rw [hinf, hinx]; rfl, by rw [hinx], ?_, rfl, by rw [hna], ?_⟩
      · rw [hinf]
        show s.dim = (s.dim.toNat : Int)
        omega
      · rw [hinx]
        simp only [List.length_map]
        by_cases h0 : s.dim = 0
        · rw [if_pos h0]
          have := hh.one (by rw [hcont]; show t.dim = 0; rw [t3, h0])
          omega
        · rw [if_neg h0]
          by_cases ha : s.typ = dtAlias
          · rw [h.cnt s (List.mem_of_getElem? hs) ha]
            omega
          · rw [if_neg ha] at t4
            obtain ⟨rfl, rfl⟩ := t4
            obtain ⟨m', ld, tg⟩ := hh.sym
            obtain ⟨sy, k1, k2, _, k3⟩ := tg
            rw [c2] at k1
            cases k1
            rw [reopened_target, t1] at k3
            have : m' = m := by
              have := Res.ok.inj k3
              have := Option.some.inj this
              omega
            subst this
            have := ld.count (Or.inl (by rw [hcont]; exact h0)) o1
            rw [hinx] at this
            simp only [if_neg h0] at this
            omega
      · intro g hg
        obtain ⟨m', ld, tg⟩ := hh.sym
        have ld' := ld.congr hg.same hg.mode
        have tg' : Targets g ((n : Int) + 1) m' := by
          obtain ⟨sy, k1, k2⟩ := tg
          exact ⟨sy, by rw [hg.same.names]; exact k1, k2⟩
        obtain ⟨outs', d1, _, v, g1, g2, d2, d3, d4, d5, d6⟩ := ld'.reads hz tg'
        have hac : acrOf g = acrOf a := by
          funext d
          show plainRemap g d = plainRemap a d
          unfold plainRemap
          rw [hg.same.acros, hg.same.nan, hg.same.sv]
        rw [hg.same.rsv, hrsv, hac] at d1
        have := d1.unique ld.sv o1
        subst this
        rw [hg.same.uel, u2] at d2
        cases d2
        exact ⟨g1, g2, _, d3, d4, d5, d6⟩
  choose F hF using hex
  refine ⟨a, _, (List.range i.syms.length).map F, c1.fresh, u2, ?_, ?_, ⟨a, true, ?_, h2.mode, c1.fresh.nrm, ?_, ?_, ?_, ?_⟩, by simp, ?_, hholds⟩
  · rw [← c3, u2]
    rfl
  · exact h2.texts rfl
  · show openReadXX z Gx.new (.content i.file) 0 = _
    rw [← hfile]
    exact h1
  · obtain ⟨l, l1, l2⟩ := h2.acros
    rw [h.acr] at l1
    cases l1
    unfold acronymCount
    rw [l2]
    rfl
  · unfold systemInfo
    rw [c2]
    simp
  · intro s hs
    obtain ⟨n, hn, rfl⟩ := List.mem_map.mp hs
    have hn := List.mem_range.mp hn
    have := (hF n _ (List.getElem?_eq_getElem hn)).1
    exact ⟨this.id, this.a⟩
  · intro n s hs
    rw [List.getElem?_map] at hs
    have hn : n < i.syms.length := by
      by_contra hc
      rw [List.getElem?_eq_none (by rw [List.length_range]; omega)] at hs
      cases hs
    rw [List.getElem?_range hn] at hs
    cases hs
    exact (hF n _ (List.getElem?_eq_getElem hn)).2
  · intro n s r hs hr
    have hn := (List.getElem?_eq_some_iff.mp hs).1
    rw [List.getElem?_map, List.getElem?_range hn] at hr
    cases hr
    exact (hF n s hs).1

/-! ### the symbols of the file -/

theorem firsts_tail {u : Uel} {dim : Nat} (hd : dim ≠ 0) : ∀ (outs : List (RecOut Int)) (p : List Int), p.length = dim → (∀ o ∈ outs, o.key.length = dim) →
    (∀ i k f, (keysOf outs)[i]? = some (k, f) → match i with
      | 0 => FirstDiff p k f
      | j + 1 => ∃ q, (keysOf outs)[j]? = some q ∧ FirstDiff q.1 k f) → Firsts dim (p.map (strOut u)) (outs.map (RecOut.toStr u))
  | [], _, _, _, _ => trivial
  | o :: outs, p, hp, hl, h => by
    have h0 : FirstDiff p o.key o.frst := h 0 o.key o.frst rfl
    obtain ⟨f1, ⟨x, y, f2, f3, f4⟩, f5⟩ := h0
    have hk := hl o (by simp)
    have hlt := (List.getElem?_eq_some_iff.mp f3).1
    refine ⟨?_, Or.inr ⟨f1, ?_, ?_, ?_⟩, ?_⟩
    · show (o.key.map _).length = dim
      rw [List.length_map, hk]
    · show o.frst ≤ dim
      omega
    · show o.frst ≤ (p.map _).length + 1
      rw [List.length_map]
      omega
    · show (p.map _).take (o.frst - 1) = (o.key.map _).take (o.frst - 1)
      rw [← List.map_take, ← List.map_take]
      congr 1
      apply List.ext_getElem?
      intro j
      by_cases hj : j < o.frst - 1
      · rw [List.getElem?_take_of_lt hj, List.getElem?_take_of_lt hj]
        have := f5 (j + 1) (by omega) (by omega)
        simpa using this
      · rw [List.getElem?_eq_none (by rw [List.length_take]; omega), List.getElem?_eq_none (by rw [List.length_take]; omega)]
    · refine firsts_tail hd outs o.key hk (fun o ho => hl o (by simp [ho])) ?_
      intro i k f hi
      have := h (i + 1) k f hi
      cases i with
      | zero =>
        obtain ⟨q, q1, q2⟩ := this
        cases q1
        exact q2
      | succ j => exact this

theorem firsts_of {u : Uel} {dim : Nat} {outs : List (RecOut Int)} (hl : ∀ o ∈ outs, o.key.length = dim) (h : FirstsOk dim (keysOf outs)) :
    Firsts dim [] (outs.map (RecOut.toStr u)) := by
  by_cases hd : dim = 0
  · have : ∀ (outs : List (RecOut Int)) k, (∀ o ∈ outs, o.key.length = dim) → Firsts dim k (outs.map (RecOut.toStr u)) := by
      intro outs
      induction outs with
      | nil => intro _ _; trivial
      | cons o outs ih =>
        intro k hl
        refine ⟨?_, Or.inl hd, ih _ fun o ho => hl o (by simp [ho])⟩
        show (o.key.map _).length = dim
        rw [List.length_map]
        exact hl o (by simp)
    exact this outs [] hl
  · cases outs with
    | nil => trivial
    | cons o outs =>
      have h0 := h 0 o.key o.frst rfl
      rw [if_neg hd] at h0
      have h0 : o.frst = 1 := h0
      have hk := hl o (by simp)
      refine ⟨?_, Or.inr ⟨?_, ?_, ?_, ?_⟩, ?_⟩
      · show (o.key.map _).length = dim
        rw [List.length_map, hk]
      · show 1 ≤ o.frst
        omega
      · show o.frst ≤ dim
        omega
      · show o.frst ≤ 0 + 1
        omega
      · show List.take (o.frst - 1) _ = List.take (o.frst - 1) _
        rw [h0]
        rfl
      · refine firsts_tail hd outs o.key hk (fun o ho => hl o (by simp [ho])) ?_
        intro i k f hi
        have := h (i + 1) k f hi
        rw [if_neg hd] at this
        cases i with
        | zero =>
          obtain ⟨q, q1, q2⟩ := this
          cases q1
          exact q2
        | succ j => exact this

theorem strOut_get {u : Uel} {e : Int} (h : 1 ≤ e ∧ e ≤ (u.strs.length : Int)) : u.strs[(e - 1).toNat]? = some (strOut u e) := by
  have hlt : (e - 1).toNat < u.strs.length := by omega
  unfold strOut
  rw [if_pos h.1]
  rw [show u.ents.map Prod.fst = u.strs from rfl, List.getElem?_eq_getElem hlt]
  rfl

theorem strOut_inj {u : Uel} (hd : Distinct false u.strs) : ∀ {k k' : List Int}, (∀ e ∈ k, 1 ≤ e ∧ e ≤ (u.strs.length : Int)) →
    (∀ e ∈ k', 1 ≤ e ∧ e ≤ (u.strs.length : Int)) → List.Forall₂ SameNoCase (k.map (strOut u)) (k'.map (strOut u)) → k = k'
  | [], [], _, _, _ => rfl
  | [], _ :: _, _, _, h => by cases h
  | _ :: _, [], _, _, h => by cases h
  | e :: k, e' :: k', h1, h2, h => by
    cases h with
    | cons ha hb =>
      have := hd.eq (strOut_get (h1 e (by simp))) (strOut_get (h2 e' (by simp))) ha
      have := h1 e (by simp)
      have := h2 e' (by simp)
      rw [strOut_inj hd (fun x hx => h1 x (by simp [hx])) (fun x hx => h2 x (by simp [hx])) hb, show e = e' by omega]

/-- The symbols of the file can be merged. -/
theorem own_src {z : Cz} {i : OwnIn} (h : i.Ok z) (hz : z.Good) (hid : GoodLabel i.id) {a : Gx} {u : Uel} (hfr : Diff.Fresh a) (hu : a.uel = some u)
    (hgu : i.g.uel.map Uel.strs = some u.strs) {l : List (Str × Int)} (hl1 : i.g.texts = some l) (hl2 : a.texts = some (l.map fun p => (p.1, 0))) {n : Nat} {s : Sym} {r : Src}
    (hs : i.syms[n]? = some s) (hr : IsSrc i a u n s r)
    (hh : HoldsSym z a ((n : Int) + 1) (contentOf i.syms i.R ((n : Int) + 1)).1 (contentOf i.syms i.R ((n : Int) + 1)).2)
    {A X : List Str} (hA1 : i.id ∈ A) (hA2 : ∀ t ∈ i.labels, t ∈ A) (hX1 : [] ∈ X) (hX2 : ∀ t ∈ i.texts, t ∈ X) :
    SrcOk A X r ∧ SrcFits r ∧ r.recs.length = (contentOf i.syms i.R ((n : Int) + 1)).2.length := by
  have f := h.own.hist.fine hz
  have hok := f.inv.tab.syms i.syms h.own.full.names
  have so := hok.each n s hs
  have hstrs : i.labels = u.strs := by unfold OwnIn.labels; rw [hgu]; rfl
  have htx : i.texts = l.map Prod.fst := by unfold OwnIn.texts; rw [hl1]; rfl
  have hlt31 : i.texts.length ≤ 2147483647 := by
    have := h.own.fits.texts l hl1
    rw [htx, List.length_map]
    omega
  obtain ⟨m, t, t1, t2, t3, t4⟩ := target_typ hok h.own.full.univ hs
  have hcont : contentOf i.syms i.R ((n : Int) + 1) = (⟨t.name, t.dim, t.typ, t.userInfo⟩, i.R m) := by
    unfold contentOf targetOf
    rw [t1]
    simp only [Nat.add_sub_cancel, t2, Option.map_some]
  obtain ⟨outs, o1, o2⟩ := hr.recs
  rw [hcont] at hh o1 ⊢
  dsimp only at hh o1 ⊢
  unfold Delivered at o1
  rw [if_neg (by
    rintro ⟨q1, q2⟩
    have := hh.one q1
    rw [q2] at this
    cases this)] at o1
  dsimp only at o1
  have hmem : ∀ o ∈ outs, ∃ x ∈ i.R m, SameRec SVTab.default (acrOf a) x o := forall₂_mem o1.recs
  have hsz : (systemInfo a).2 = (u.strs.length : Int) := by
    rw [Gdx.Props.size_strs, hu]
    rfl
  have hels : ∀ o ∈ outs, ∀ e ∈ o.key, 1 ≤ e ∧ e ≤ (u.strs.length : Int) := by
    intro o ho e he
    obtain ⟨x, hx, hxo⟩ := hmem o ho
    rw [hxo.key] at he
    rw [← hsz]
    exact hh.els x hx e he
  have hgood : ∀ o ∈ outs, ∀ y ∈ o.key.map (strOut u), GoodLabel y ∧ y ∈ i.labels := by
    intro o ho y hy
    obtain ⟨e, he, rfl⟩ := List.mem_map.mp hy
    have := List.mem_of_getElem? (strOut_get (hels o ho e he))
    rw [hstrs]
    exact ⟨(hfr.good u hu).good _ this, this⟩
  have htt : t.typ = symTypOf s := by
    unfold symTypOf
    split at t4
    · rename_i ha
      rw [if_pos ha, t4]
    · rename_i ha
      rw [if_neg ha, t4.2]
  have htyp3 : symTypOf s ≤ 3 := by
    unfold symTypOf
    split
    · decide
    · rename_i ha
      have := so.typ
      unfold dtAlias at ha
      omega
  have hvl : ∀ o ∈ outs, o.vals.length = dataTypSize (symTypOf s) := by
    intro o ho
    obtain ⟨x, hx, hxo⟩ := hmem o ho
    obtain ⟨m', ld, _⟩ := hh.sym
    obtain ⟨sy, d1, _, d3⟩ := ld.data
    obtain ⟨lo, hi, hst⟩ := d3.data
    obtain ⟨bytes, tl, _, _, nr, bs, out, _, _, _, _, he⟩ := hst.data
    have := (he.fits (stored x.sv x.key x.vals) (List.mem_map_of_mem hx)).2.2.1
    rw [d1.typ] at this
    rw [← hxo.vals.length_eq, ← htt]
    simpa [stored] using this
  have htsz : typSize (symTypOf s) = .ok (dataTypSize (symTypOf s)) := by
    generalize symTypOf s = q at htyp3
    interval_cases q <;> rfl
  refine ⟨⟨⟨_, by rw [hr.typ]; exact htsz⟩, by rw [hr.id]; exact ⟨hid, hA1⟩, ?_, ?_⟩, ⟨?_, ?_, ?_, ?_, ?_⟩, ?_⟩
  · intro _
    rw [o2, hr.dim, ← t3]
    exact firsts_of o1.len o1.frst
  · intro rc hrc
    rw [o2] at hrc
    obtain ⟨o, ho, rfl⟩ := List.mem_map.mp hrc
    refine ⟨⟨?_, ?_⟩, ?_⟩
    · rw [hr.typ, htsz]
      show _ = Res.ok o.vals.length
      rw [hvl o ho]
    · intro hset
      obtain ⟨x, hx, hxo⟩ := hmem o ho
      rw [hr.typ, ← htt] at hset
      obtain ⟨v1, k, v2, v3⟩ := h.sv m t t2 hset x hx
      have hv := hxo.vals
      rw [v1, v3] at hv
      cases hov : o.vals with
      | nil => rw [hov] at hv; cases hv
      | cons w ws =>
        rw [hov] at hv
        cases hv with
        | cons hv hn =>
          cases hn
          have := readsAs_intDbl (by omega) (by omega) hv
          subst this
          refine ⟨intDbl k, if (k : Int) = 0 then [] else (getElemText a k).2.1, hov, ⟨k, by omega, by omega, rfl, by rw [hr.a]⟩, ?_⟩
          split
          · exact hX1
          · apply hX2
            unfold getElemText
            rw [hl2]
            simp only
            rw [if_pos (by omega), Int.toNat_natCast, List.getElem?_map]
            rw [htx] at v2 ⊢
            rw [List.length_map] at v2
            rw [List.getElem?_eq_getElem v2]
            exact List.mem_map.mpr ⟨l[k], List.getElem_mem v2, rfl⟩
    · intro y hy
      obtain ⟨g1, g2⟩ := hgood o ho y hy
      exact ⟨g1, hA2 y g2⟩
  · rw [hr.name]
    exact (C14_ident _).mp so.good
  · rw [hr.typ]
    exact htyp3
  · rw [hr.sub]
    unfold symSubOf
    split
    · unfold I32; omega
    · rename_i ha
      exact so.ui ha
  · rw [hr.expl]
    exact ⟨so.expl.1, so.expl.2.1⟩
  · rw [o2, List.pairwise_map]
    by_cases h0 : t.dim = 0
    · have := hh.one h0
      have : outs.length = 1 := by rw [← o1.recs.length_eq]; exact this
      obtain ⟨w, rfl⟩ := List.length_eq_one_iff.mp this
      exact List.pairwise_singleton _ _
    · have := o1.sorted h0
      rw [List.pairwise_map] at this
      refine this.imp_of_mem ?_
      intro o o' ho ho' hlt hsame
      have := strOut_inj (hfr.good u hu).distinct (hels o ho) (hels o' ho') hsame
      rw [this] at hlt
      exact lt_irrefl _ hlt
  · rw [o2, List.length_map]
    exact o1.recs.length_eq.symm

/-- `srs` are the symbols of the file -/
def OwnIn.Symbols (i : OwnIn) (srs : List Src) : Prop :=
  srs.length = i.syms.length ∧ ∃ a u, u.strs = i.labels ∧ ∀ (n : Nat) s r, i.syms[n]? = some s → srs[n]? = some r → IsSrc i a u n s r

theorem sum_eq {α β : Type} {f : α → Nat} {g : β → Nat} {l : List α} {m : List β} (h : List.Forall₂ (fun a b => f a = g b) l m) :
    (l.map f).sum = (m.map g).sum := by
  induction h with
  | nil => rfl
  | cons h _ ih => simp [h, ih]

theorem own_all {z : Cz} (hz : z.Good) {i : OwnIn} (h : i.Ok z) (hid : GoodLabel i.id) {A X : List Str} (hA1 : i.id ∈ A) (hA2 : ∀ t ∈ i.labels, t ∈ A)
    (hX1 : [] ∈ X) (hX2 : ∀ t ∈ i.texts, t ∈ X) :
    ∃ srs, i.Symbols srs ∧ Input z i.inFile srs ∧ (∀ s ∈ srs, SrcOk A X s ∧ SrcFits s) ∧ (srs.Pairwise fun a b => ¬ SameNoCase a.name b.name) ∧
      recsOf srs = i.nrecs := by
  obtain ⟨a, u, srs, h1, h2, h3, ⟨l, h4, h4'⟩, h5, h6, h7, h8⟩ := own_input hz h
  have hstrs : u.strs = i.labels := by unfold OwnIn.labels; rw [h3]; rfl
  have hat : ∀ (n : Nat) r, srs[n]? = some r → ∃ s, i.syms[n]? = some s ∧ n < i.syms.length := by
    intro n r hr
    have := (List.getElem?_eq_some_iff.mp hr).1
    rw [h6] at this
    exact ⟨_, List.getElem?_eq_getElem this, this⟩
  have hsrc : ∀ (n : Nat) r, srs[n]? = some r → SrcOk A X r ∧ SrcFits r ∧ r.recs.length = (contentOf i.syms i.R ((n : Int) + 1)).2.length := by
    intro n r hr
    obtain ⟨s, hs, hn⟩ := hat n r hr
    exact own_src h hz hid h1 h2 h3 h4 h4' hs (h7 n s r hs hr) (h8 n hn) hA1 hA2 hX1 hX2
  refine ⟨srs, ⟨h6, a, u, hstrs, h7⟩, h5, ?_, ?_, ?_⟩
  · intro s hs
    obtain ⟨n, hn⟩ := List.mem_iff_getElem?.mp hs
    exact ⟨(hsrc n s hn).1, (hsrc n s hn).2.1⟩
  · have hok := (h.own.hist.fine hz).inv.tab.syms i.syms h.own.full.names
    have hnames : srs.map Src.name = i.syms.map Sym.name := by
      apply List.ext_getElem?
      intro n
      rw [List.getElem?_map, List.getElem?_map]
      cases hr : srs[n]? with
      | none =>
        have := List.getElem?_eq_none_iff.mp hr
        rw [h6] at this
        rw [List.getElem?_eq_none this]
        rfl
      | some r =>
        obtain ⟨s, hs, _⟩ := hat n r hr
        rw [hs, Option.map_some, Option.map_some, (h7 n s r hs hr).name]
    have := hok.distinct
    rw [← hnames] at this
    exact List.pairwise_map.mp this
  · unfold recsOf OwnIn.nrecs
    refine sum_eq (f := fun s : Src => s.recs.length) ?_
    rw [List.forall₂_iff_get]
    refine ⟨by rw [List.length_range, h6], fun n q1 q2 => ?_⟩
    simp only [List.get_eq_getElem, List.getElem_range]
    exact (hsrc n _ (List.getElem?_eq_getElem q1)).2.2

/-- Files of the library meet the conditions on the inputs. -/
theorem own_inputs {z : Cz} (hz : z.Good) {ins : List OwnIn} (h : ∀ i ∈ ins, i.Ok z ∧ GoodLabel i.id ∧ ZFree i.info)
    (hid : ins.Pairwise fun a b => ¬ SameNoCase a.id b.id) (hl : (ins.map fun i => i.labels.length + 2).sum ≤ 2147483391)
    (ht : (ins.map fun i => i.texts.length).sum < 2147483647) (hr : (ins.map OwnIn.nrecs).sum ≤ 2147483647)
    (hs : (ins.map fun i => i.syms.length).sum ≤ 2147483647) :
    ∃ A X srss, Inputs z A X (ins.map OwnIn.inFile) srss ∧ List.Forall₂ OwnIn.Symbols ins srss ∧ A.length + ins.length = (ins.map fun i => i.labels.length + 2).sum := by
  have hA : ∀ i ∈ ins, i.id ∈ ins.map OwnIn.id ++ ins.flatMap OwnIn.labels := fun i hi =>
    List.mem_append_left _ (List.mem_map_of_mem hi)
  have hA2 : ∀ i ∈ ins, ∀ t ∈ i.labels, t ∈ ins.map OwnIn.id ++ ins.flatMap OwnIn.labels := fun i hi t ht =>
    List.mem_append_right _ (List.mem_flatMap.mpr ⟨i, hi, ht⟩)
  have hX2 : ∀ i ∈ ins, ∀ t ∈ i.texts, t ∈ [] :: ins.flatMap OwnIn.texts := fun i hi t ht =>
    List.mem_cons_of_mem _ (List.mem_flatMap.mpr ⟨i, hi, ht⟩)
  refine ⟨ins.map OwnIn.id ++ ins.flatMap OwnIn.labels, [] :: ins.flatMap OwnIn.texts, ?_⟩
  generalize hAe : ins.map OwnIn.id ++ ins.flatMap OwnIn.labels = A at hA hA2
  generalize hXe : [] :: ins.flatMap OwnIn.texts = X at hX2
  have hX1 : [] ∈ X := by rw [← hXe]; simp
  have hsrss : ∀ {l : List OwnIn}, (∀ i ∈ l, i ∈ ins) → ∃ srss, List.Forall₂ (fun i srs => i.Symbols srs ∧ Input z i.inFile srs ∧ (∀ s ∈ srs, SrcOk A X s ∧ SrcFits s) ∧
      (srs.Pairwise fun a b => ¬ SameNoCase a.name b.name) ∧ recsOf srs = i.nrecs) l srss := by
    intro l hl
    induction l with
    | nil => exact ⟨[], .nil⟩
    | cons i l ih =>
      obtain ⟨srss, h1⟩ := ih fun i hi => hl i (by simp [hi])
      have hi := hl i (by simp)
      obtain ⟨srs, h2⟩ := own_all hz (h i hi).1 (h i hi).2.1 (hA i hi) (hA2 i hi) hX1 (hX2 i hi)
      exact ⟨srs :: srss, .cons h2 h1⟩
  obtain ⟨srss, hf⟩ := hsrss fun i hi => hi
  have hmem : ∀ srs ∈ srss, ∃ i ∈ ins, i.Symbols srs ∧ Input z i.inFile srs ∧ (∀ s ∈ srs, SrcOk A X s ∧ SrcFits s) ∧
      (srs.Pairwise fun a b => ¬ SameNoCase a.name b.name) ∧ recsOf srs = i.nrecs := forall₂_mem hf
  have hAn : A.length + ins.length = (ins.map fun i => i.labels.length + 2).sum := by
    rw [← hAe]
    clear * -
    induction ins with
    | nil => rfl
    | cons i ins ih => simp only [List.map_cons, List.flatMap_cons, List.length_append, List.length_map, List.length_cons, List.sum_cons] at ih ⊢; omega
  refine ⟨srss, ⟨?_, ?_, ?_, ?_, ?_, ?_, hX1, ?_, ?_, ?_, ?_⟩, hf.imp fun _ _ h => h.1, hAn⟩
  · rw [List.forall₂_map_left_iff]
    exact hf.imp fun _ _ h => h.2.1
  · intro s hs
    obtain ⟨srs, h1, h2⟩ := List.mem_flatten.mp hs
    obtain ⟨i, _, h3⟩ := hmem srs h1
    exact h3.2.2.1 s h2
  · intro srs h1
    obtain ⟨i, _, h3⟩ := hmem srs h1
    exact h3.2.2.2.1
  · rw [List.pairwise_map]
    exact hid
  · intro f hf
    obtain ⟨i, hi, rfl⟩ := List.mem_map.mp hf
    exact (h i hi).2
  · intro t ht
    rw [← hXe] at ht
    rcases List.mem_cons.mp ht with rfl | ht
    · intro b hb; cases hb
    · obtain ⟨i, hi, ht⟩ := List.mem_flatMap.mp ht
      unfold OwnIn.texts at ht
      obtain ⟨p, hp, rfl⟩ := List.mem_map.mp ht
      cases hx : i.g.texts with
      | none => rw [hx] at hp; cases hp
      | some l =>
        rw [hx] at hp
        exact ((((h i hi).1.own.hist.fine hz).inv.txt l hx).zfree p hp).1
  · rw [List.length_map]
    omega
  · have : X.length = (ins.map fun i => i.texts.length).sum + 1 := by
      rw [← hXe]
      clear * -
      induction ins with
      | nil => rfl
      | cons i ins ih => simp only [List.map_cons, List.flatMap_cons, List.length_append, List.length_cons, List.sum_cons] at ih ⊢; omega
    omega
  · have : recsOf srss.flatten = (ins.map OwnIn.nrecs).sum := by
      clear * - hf
      induction hf with
      | nil => rfl
      | cons h _ ih =>
        rw [List.map_cons, List.sum_cons, ← ih, ← h.2.2.2.2]
        simp [recsOf]
    omega
  · have : srss.flatten.length = (ins.map fun i => i.syms.length).sum := by
      clear * - hf
      induction hf with
      | nil => rfl
      | cons h _ ih => rw [List.map_cons, List.sum_cons, ← ih, ← h.1.1, List.flatten_cons, List.length_append]
    omega

end Gdx.Merge
