import Verif.Proofs.SortLog

/-!
gdxSymbolSetDomain: which domains are checked afterwards.
-/

namespace Gdx

open Spec

/-- The name stands for the domain: "*" for everything, a one-dimensional set of the table or an alias of it for the elements in its bit
    map. If bogus domains are allowed, the set must have a bit map. -/
inductive ElemDom (bo : Bool) (syms : List Sym) : Str → Dom → Prop
  | star : ElemDom bo syms Gdx.star none
  | set {id : Str} {n : Nat} {s : Sym} {f : Int → Bool} (hi : symIndex syms id = (n : Int) + 1) (hne : id ≠ Gdx.star) (hs : syms[n]? = some s)
      (ht : s.typ = dtSet) (hd : s.dim = 1) (hb : ∀ b, s.bitmap = some b → b.get = f) (hbo : bo = true → s.bitmap.isSome = true) :
      ElemDom bo syms id (some f)
  | alias {id : Str} {n k : Nat} {a s : Sym} {f : Int → Bool} (hi : symIndex syms id = (n : Int) + 1) (hne : id ≠ Gdx.star) (ha : syms[n]? = some a)
      (hta : a.typ = dtAlias) (hda : a.dim = 1) (hu : a.userInfo = (k : Int) + 1) (hs : syms[k]? = some s)
      (ht : s.typ = dtSet) (hd : s.dim = 1) (hb : ∀ b, s.bitmap = some b → b.get = f) (hbo : bo = true → s.bitmap.isSome = true) :
      ElemDom bo syms id (some f)

theorem domFollow_set {bo : Bool} {syms : List Sym} {n : Nat} {s : Sym} (hs : syms[n]? = some s) (ht : s.typ = dtSet) (hd : s.dim = 1)
    (hbo : bo = true → s.bitmap.isSome = true) (fuel : Nat) :
    domFollow syms bo (fuel + 1) ((n : Int) + 1) = .ok (if s.bitmap.isNone then .noData else .set ((n : Int) + 1)) := by
  rw [domFollow, at1_nat hs]
  simp only [Res.bind_ok]
  have h1 : (!bo && s.dim == 1 && (s.typ == dtSet || s.typ == dtAlias)) = !bo := by rw [hd, ht]; cases bo <;> rfl
  rw [h1]
  cases hq : bo with
  | true =>
    have := hbo hq
    rw [Option.isSome_iff_exists] at this
    obtain ⟨b, hb⟩ := this
    simp only [Bool.not_true, Bool.false_eq_true, if_false, Res.pure_eq, Res.bind_ok]
    rw [if_pos ht, hb]
    rfl
  | false =>
  simp only [Bool.not_false]
  simp only [if_true]
  rw [if_neg (by rw [ht]; decide)]
  simp only [Res.pure_eq, Res.bind_ok]
  rw [if_pos ht]
  cases s.bitmap.isNone <;> rfl

theorem domFollow_alias {bo : Bool} {syms : List Sym} {n k : Nat} {a s : Sym} (ha : syms[n]? = some a) (hta : a.typ = dtAlias) (hda : a.dim = 1)
    (hu : a.userInfo = (k : Int) + 1) (hs : syms[k]? = some s) (ht : s.typ = dtSet) (hd : s.dim = 1)
    (hbo : bo = true → s.bitmap.isSome = true) (fuel : Nat) :
    domFollow syms bo (fuel + 2) ((n : Int) + 1) = .ok (if s.bitmap.isNone then .noData else .set ((k : Int) + 1)) := by
  rw [domFollow, at1_nat ha]
  simp only [Res.bind_ok]
  have h1 : (!bo && a.dim == 1 && (a.typ == dtSet || a.typ == dtAlias)) = !bo := by rw [hda, hta]; cases bo <;> rfl
  rw [h1]
  cases hq : bo with
  | true =>
    simp only [Bool.not_true, Bool.false_eq_true, if_false, Res.pure_eq, Res.bind_ok]
    rw [if_neg (by rw [hta]; decide), if_pos hta, hu, if_pos (by omega)]
    rw [domFollow_set hs ht hd (fun _ => hbo hq) fuel]
  | false =>
  simp only [Bool.not_false]
  simp only [if_true]
  rw [if_pos hta, hu, at1_nat hs]
  simp only [Res.pure_eq, Res.bind_ok]
  cases hb : s.bitmap.isNone with
  | true => rfl
  | false =>
    simp only [Bool.false_eq_true, if_false]
    rw [if_neg (by rw [hta]; decide), if_pos hta, if_pos (by omega), domFollow_set hs ht hd (by intro h; cases h) fuel, hb]
    rfl

/-- what is remembered for a position -/
def BitsAt (syms : List Sym) (old : Option (Option Nat)) (w : Option (Option Nat)) : Dom → Prop
  | none => w = old
  | some f => ∃ t s b, w = some (some (t + 1)) ∧ syms[t]? = some s ∧ s.bitmap = some b ∧ b.get = f

theorem domLoop_exact (syms : List Sym) (cur : Nat) (dim : Int) : ∀ (ids : List Str) (doms : List Dom) (g : Gx) (d : Nat),
    List.Forall₂ (ElemDom g.allowBogus syms) ids doms → (∀ id ∈ ids, id ≠ star → symIndex syms id ≠ cur) →
    d + ids.length ≤ g.wrBits.length → ∀ g' l st, domLoop syms cur dim g d ids = .ok (g', l, true, st) →
    st = false ∧ ∃ w, g' = { g with wrBits := w } ∧ w.length = g.wrBits.length ∧ (∀ i, i < d → w[i]? = g.wrBits[i]?) ∧
      (∀ i, d + ids.length ≤ i → w[i]? = g.wrBits[i]?) ∧
      ∀ (i : Nat) dm, doms[i]? = some dm → BitsAt syms g.wrBits[d + i]? w[d + i]? dm := by
  intro ids
  induction ids with
  | nil =>
    intro doms g d hf hc hl g' l st h
    cases hf
    cases h
    exact ⟨rfl, g.wrBits, rfl, rfl, fun _ _ => rfl, fun _ _ => rfl, by intro i dm h; simp at h⟩
  | cons id ids ih =>
    intro doms g d hf hc hl g' l st h
    cases hf with
    | cons h1 h2 =>
    rename_i dm doms
    rw [domLoop] at h
    simp only at h
    -- a set
    have key : ∀ (n k : Nat) (s : Sym) (f : Int → Bool), symIndex syms id = (n : Int) + 1 → id ≠ star → syms[k]? = some s → dm = some f →
        (∀ b, s.bitmap = some b → b.get = f) →
        domFollow syms g.allowBogus (syms.length + 1) ((n : Int) + 1) = .ok (if s.bitmap.isNone then .noData else .set ((k : Int) + 1)) →
        st = false ∧ ∃ w, g' = { g with wrBits := w } ∧ w.length = g.wrBits.length ∧ (∀ i, i < d → w[i]? = g.wrBits[i]?) ∧
          (∀ i, d + (id :: ids).length ≤ i → w[i]? = g.wrBits[i]?) ∧
          ∀ (i : Nat) dm', (dm :: doms)[i]? = some dm' → BitsAt syms g.wrBits[d + i]? w[d + i]? dm' := by
      intro n k s f hi hne hs hdm hbf hfo
      rw [if_neg hne, hi] at h
      have hbad : (decide (id ≠ star) && decide ((n : Int) + 1 ≤ 0)) = false := by
        rw [Bool.and_eq_false_iff]
        right
        rw [decide_eq_false_iff_not]
        omega
      rw [hbad] at h
      simp only [Bool.false_eq_true, if_false] at h
      rw [if_neg (by intro hx; rcases hx with hx | hx; exact hx; omega), hfo] at h
      simp only [Res.bind_ok] at h
      cases hbm : s.bitmap with
      | none =>
        rw [hbm] at h
        cases h
      | some b =>
        rw [hbm] at h
        simp only [Option.isNone_some, Bool.false_eq_true, if_false] at h
        rw [at1_nat hs] at h
        simp only [Res.bind_ok] at h
        rw [if_pos (Or.inr (by rw [← hi]; exact hc id (by simp) hne)), hbm] at h
        simp only [Option.isSome_some, if_true] at h
        obtain ⟨⟨g2, l2, ok2, st2⟩, h3, h⟩ := Res.bind_eq_ok.mp h
        cases h
        simp only [List.length_cons] at hl
        obtain ⟨i1, w, i2, i3, i4, i5, i6⟩ := ih doms { g with wrBits := g.wrBits.set d (some ((k : Int) + 1).toNat) } (d + 1) h2 (fun x hx => hc x (by simp [hx]))
          (by simp only [List.length_set]; omega) _ _ _ h3
        simp only [List.length_set] at i3
        refine ⟨i1, w, i2, i3, ?_, ?_, ?_⟩
        · intro i hi'
          rw [i4 i (by omega), List.getElem?_set_ne (by omega)]
        · intro i hi'
          simp only [List.length_cons] at hi'
          rw [i5 i (by omega), List.getElem?_set_ne (by omega)]
        · intro i dm' hdm'
          cases i with
          | zero =>
            cases hdm'
            rw [hdm]
            refine ⟨k, s, b, ?_, hs, hbm, hbf b hbm⟩
            rw [Nat.add_zero, i4 d (by omega), List.getElem?_set_self (by omega)]
            rw [show ((k : Int) + 1).toNat = k + 1 by omega]
          | succ i =>
            have := i6 i dm' (by simpa using hdm')
            rw [show d + 1 + i = d + (i + 1) by omega, List.getElem?_set_ne (by omega)] at this
            exact this
    cases h1 with
    | star =>
      rw [if_pos rfl] at h
      have hbad : (decide (star ≠ star) && decide ((0 : Int) ≤ 0)) = false := by simp
      rw [hbad] at h
      simp only [Bool.false_eq_true, if_false] at h
      rw [if_pos (Or.inr trivial)] at h
      obtain ⟨⟨g2, l2, ok2, st2⟩, h3, h⟩ := Res.bind_eq_ok.mp h
      have hok : ok2 = true := by
        cases ok2 with
        | true => rfl
        | false => cases h
      subst hok
      cases h
      simp only [List.length_cons] at hl
      obtain ⟨i1, w, i2, i3, i4, i5, i6⟩ := ih doms g (d + 1) h2 (fun x hx => hc x (by simp [hx])) (by omega) _ _ _ h3
      refine ⟨i1, w, i2, i3, fun i hi' => i4 i (by omega), ?_, ?_⟩
      · intro i hi'
        simp only [List.length_cons] at hi'
        exact i5 i (by omega)
      · intro i dm' hdm'
        cases i with
        | zero =>
          cases hdm'
          exact i4 d (by omega)
        | succ i =>
          have := i6 i dm' (by simpa using hdm')
          rw [show d + 1 + i = d + (i + 1) by omega] at this
          exact this
    | set hi hne hs ht hd' hbf hbo =>
      exact key _ _ _ _ hi hne hs rfl hbf (domFollow_set hs ht hd' hbo _)
    | «alias» hi hne ha hta hda hu hs ht hd' hbf hbo =>
      refine key _ _ _ _ hi hne hs rfl hbf ?_
      obtain ⟨f, hf⟩ : ∃ f, syms.length + 1 = f + 2 := ⟨syms.length - 1, by
        have := (List.getElem?_eq_some_iff.mp ha).1
        omega⟩
      rw [hf]
      exact domFollow_alias ha hta hda hu hs ht hd' hbo f

/-- After gdxSymbolSetDomain with names of domains for a symbol for which nothing was written: these are checked, and nothing else was
    changed. -/
theorem setDomain_fix {g g' : Gx} {m : Nat} {syms : List Sym} {s : Sym} {ids : List Str} {doms : List Dom} (hc : g.cur = .sym (m + 1))
    (hn : g.names = some syms) (hs : syms[m]? = some s) (hf : List.Forall₂ (ElemDom g.allowBogus syms) ids doms)
    (hcur : ∀ id ∈ ids, id ≠ star → symIndex syms id ≠ (m : Int) + 1) (hw : g.wrBits = List.replicate g.nd none) (hd : s.dim = g.curDim)
    (hm0 : ∀ b, s.bitmap = some b → ∀ k, b.get k = false)
    (h : symbolSetDomain g ids = .ok (g', true)) :
    DomsFix g' m doms ∧ ∃ w l, g' = { g with wrBits := w, names := some (syms.set m { s with domSyms := some l }), mode := g.mode.dataOf } := by
  unfold symbolSetDomain at h
  rcases chk_cases g [.wDomRaw, .wDomMap, .wDomStr] with ⟨hm, hck⟩ | ⟨hm, hck⟩
  swap
  · rw [hck] at h
    cases h
  simp only [hck, Bool.true_eq_false, if_false] at h
  rw [hc, hn] at h
  simp only [need, Res.bind_ok] at h
  have hcs : g.curSym = .ok s := by
    unfold Gx.curSym
    rw [hc, hn]
    dsimp only
    rw [show ((m + 1 : Nat) : Int) = (m : Int) + 1 by push_cast; rfl]
    exact at1_nat hs
  rw [hcs] at h
  simp only [Res.bind_ok] at h
  split at h
  · cases h
  rename_i hl
  obtain ⟨⟨g1, l, ok, st⟩, h1, h'⟩ := Res.bind_eq_ok.mp h
  clear h
  simp only at h'
  obtain ⟨g2, h2, h3⟩ := Res.bind_eq_ok.mp h'
  clear h'
  have hok : st = false ∧ ok = true := by
    cases st with
    | true => cases h3
    | false =>
      simp only [Bool.false_eq_true, if_false] at h3
      cases h3
      exact ⟨rfl, rfl⟩
  obtain ⟨rfl, rfl⟩ := hok
  have hlen : ids.length = g.nd := by
    push Not at hl
    unfold Gx.nd
    rw [hl.2, hd]
  obtain ⟨_, w, e1, e2, e3, e4, e5⟩ := domLoop_exact syms (m + 1) s.dim ids doms g 0 hf (by
    intro id hid hne
    have := hcur id hid hne
    push_cast
    exact this) (by rw [hw, hlen]; simp) _ _ _ h1
  obtain ⟨m', syms', s', f1, f2, f3, f4⟩ := modCur_ok h2
  subst e1
  have f1 : g.cur = .sym (m' + 1) := f1
  have f2 : g.names = some syms' := f2
  rw [hc] at f1
  cases f1
  rw [hn] at f2
  cases f2
  rw [hs] at f3
  cases f3
  simp only [Bool.false_eq_true, if_false] at h3
  cases h3
  subst f4
  refine ⟨⟨?_, ?_⟩, w, _, rfl⟩
  · intro d hd'
    have hd' : w[d]?.join = none := hd'
    cases hx : doms[d]? with
    | none => rfl
    | some dm =>
      have := e5 d dm hx
      rw [Nat.zero_add] at this
      cases dm with
      | none => rfl
      | some f =>
        obtain ⟨t, s1, b, b1, _⟩ := this
        rw [b1] at hd'
        cases hd'
  · intro d t hlt hwt
    have hlt : d < g.nd := hlt
    have hwt : w[d]? = some (some t) := hwt
    have hdl : d < doms.length := by rw [← hf.length_eq, hlen]; exact hlt
    have := e5 d _ (List.getElem?_eq_getElem hdl)
    rw [Nat.zero_add] at this
    cases hx : doms[d] with
    | none =>
      rw [hx] at this
      have this : w[d]? = g.wrBits[d]? := this
      rw [hwt, hw, List.getElem?_replicate] at this
      split at this <;> cases this
    | some f =>
      rw [hx] at this
      obtain ⟨t', s1, b, b1, b2, b3, b4⟩ := this
      rw [hwt] at b1
      cases b1
      refine ⟨by omega, _, if m = t' then { s with domSyms := some (l ++ List.replicate (s.dim.toNat - l.length) 0) } else s1, b, rfl, ?_, ?_, ?_, ?_⟩
      · rw [Nat.add_sub_cancel, List.getElem?_set]
        split
        · rw [if_pos (List.getElem?_eq_some_iff.mp hs).1]
        · exact b2
      · split
        · rename_i e
          subst e
          rw [hs] at b2
          cases b2
          exact b3
        · exact b3
      · rw [List.getElem?_eq_getElem hdl, hx, b4]
      · intro e
        have e : t' = m := by omega
        subst e
        rw [hs] at b2
        cases b2
        exact hm0 b b3

/-! ### a new symbol -/

theorem symIndex_snoc {syms : List Sym} {sy : Sym} {id : Str} {n : Nat} (hd : Gdx.Distinct false ((syms ++ [sy]).map Sym.name))
    (h : symIndex syms id = (n : Int) + 1) : symIndex (syms ++ [sy]) id = (n : Int) + 1 := by
  unfold symIndex at *
  rcases indexOf1_cases false id (syms.map Sym.name) with ⟨_, h2⟩ | ⟨j, h1, h2⟩
  · omega
  · obtain ⟨x, hx, hs⟩ := lookup_some h1
    have := hd.lookup (n := j) (x := x) (s := id) (by
      rw [List.map_append, List.getElem?_append_left (List.getElem?_eq_some_iff.mp hx).1]
      exact hx) hs
    unfold indexOf1 at h ⊢
    rw [this]
    rw [h1] at h
    exact h

theorem ElemDom.snoc {syms : List Sym} {sy : Sym} {id : Str} {dm : Dom} {bo : Bool} (hdi : Gdx.Distinct false ((syms ++ [sy]).map Sym.name))
    (h : ElemDom bo syms id dm) : ElemDom bo (syms ++ [sy]) id dm := by
  have hl : ∀ {n : Nat} {s : Sym}, syms[n]? = some s → (syms ++ [sy])[n]? = some s := by
    intro n s h
    rw [List.getElem?_append_left (List.getElem?_eq_some_iff.mp h).1]
    exact h
  cases h with
  | star => exact .star
  | set hi hne hs ht hd hb hbo => exact .set (symIndex_snoc hdi hi) hne (hl hs) ht hd hb hbo
  | «alias» hi hne ha hta hda hu hs ht hd hb hbo => exact .alias (symIndex_snoc hdi hi) hne (hl ha) hta hda hu (hl hs) ht hd hb hbo

theorem ElemDom.before {syms : List Sym} {sy : Sym} {id : Str} {dm : Dom} {bo : Bool} (hdi : Gdx.Distinct false ((syms ++ [sy]).map Sym.name))
    (h : ElemDom bo syms id dm) (hne : id ≠ Gdx.star) :
    symIndex (syms ++ [sy]) id ≠ (syms.length : Int) + 1 := by
  cases h with
  | star => exact absurd rfl hne
  | set hi hne hs ht hd hb hbo =>
    rw [symIndex_snoc hdi hi]
    have := (List.getElem?_eq_some_iff.mp hs).1
    omega
  | «alias» hi hne ha hta hda hu hs ht hd hb hbo =>
    rw [symIndex_snoc hdi hi]
    have := (List.getElem?_eq_some_iff.mp ha).1
    omega

theorem FreshSym.setDomain {g0 g g' : Gx} {typ : Int} (h : FreshSym g0 g typ) (hdi : ∀ syms, g.names = some syms → Gdx.Distinct false (syms.map Sym.name)) {syms : List Sym} (hn : g0.names = some syms) {ids : List Str} {doms : List Dom}
    (hf : List.Forall₂ (ElemDom g0.allowBogus syms) ids doms) (hs : symbolSetDomain g ids = .ok (g', true)) :
    DomsFix g' syms.length doms ∧ ∃ w t, g' = { g with wrBits := w, names := t, mode := g.mode.dataOf } := by
  obtain ⟨syms', sy, h1, h2, h3, h4, h5, _⟩ := h.tab
  rw [hn] at h1
  cases h1
  obtain ⟨a, w, l, b⟩ := setDomain_fix h3 h2 (s := sy) (by simp) (by rw [h.bogus]; exact hf.imp fun _ _ hx => hx.snoc (hdi _ h2)) (by
    intro id hid hne
    obtain ⟨i, hi, rfl⟩ := List.mem_iff_getElem.mp hid
    have := (List.forall₂_iff_get.mp hf).2 i hi (by rw [← (List.forall₂_iff_get.mp hf).1]; exact hi)
    exact this.before (hdi _ h2) hne) h.bits h4 h5 hs
  exact ⟨a, w, _, b⟩

end Gdx
