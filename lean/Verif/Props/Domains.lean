import Verif.Props.Ranges
import Verif.Props.Reopen

/-! C26: the domain queries return what was given. -/

namespace Gdx.Props
open Gdx Gdx.Spec

/-! ### specification -/

/-- what is read for a name given to gdxSymbolSetDomainX -/
def RelaxedAs (s r : Str) : Prop := (Ident s → SameNoCase r s) ∧ (¬ Ident s → r = star)

/-- `d` is the number of the domain named `s`; the universe has number 0 -/
def DomNum (g : Gx) (s : Str) (d : Int) : Prop :=
  if s = star then d = 0 else 1 ≤ d ∧ (symbolInfo g d).ok = true ∧ SameNoCase (symbolInfo g d).name s

/-- the call changes the domain of symbol `nr` -/
def SetsDomain (nr : Int) (g : Gx) : Call → Prop
  | .setDomainX m _ => m = nr
  | .setDomain _ => ∃ n : Nat, g.cur = .sym n ∧ (n : Int) = nr
  | _ => False

/-! ### names of numbers -/

theorem namesAt_mono {l l' : List Str} (h : ∀ n s, at1 l n = .ok s → at1 l' n = .ok s) : ∀ (ns : List Int) (r : List Str),
    namesAt l ns = .ok r → namesAt l' ns = .ok r
  | [], r, hr => hr
  | n :: ns, r, hr => by
    unfold namesAt at hr ⊢
    by_cases h0 : n = 0
    · rw [if_pos h0] at hr ⊢
      simp only [Res.pure_eq, Res.bind_ok] at hr ⊢
      obtain ⟨r', h1, h2⟩ := Res.bind_eq_ok.mp hr
      rw [namesAt_mono h ns r' h1]
      exact h2
    · rw [if_neg h0] at hr ⊢
      obtain ⟨s, h1, h2⟩ := Res.bind_eq_ok.mp hr
      obtain ⟨t, h3, h4⟩ := Res.bind_eq_ok.mp h2
      obtain ⟨r', h5, h6⟩ := Res.bind_eq_ok.mp h4
      rw [h n s h1]
      simp only [Res.bind_ok]
      rw [h3]
      simp only [Res.bind_ok]
      rw [namesAt_mono h ns r' h5]
      exact h6

theorem namesAt_each {l : List Str} : ∀ (ns : List Int) (r : List Str), namesAt l ns = .ok r →
    List.Forall₂ (fun n t => if n = 0 then t = star else at1 l n = .ok t) ns r
  | [], r, hr => by cases hr; exact .nil
  | n :: ns, r, hr => by
    unfold namesAt at hr
    by_cases h0 : n = 0
    · rw [if_pos h0] at hr
      simp only [Res.pure_eq, Res.bind_ok] at hr
      obtain ⟨r', h1, h2⟩ := Res.bind_eq_ok.mp hr
      cases h2
      exact .cons (by rw [if_pos h0]) (namesAt_each ns r' h1)
    · rw [if_neg h0] at hr
      obtain ⟨s, h1, h2⟩ := Res.bind_eq_ok.mp hr
      obtain ⟨t, h3, h4⟩ := Res.bind_eq_ok.mp h2
      obtain ⟨r', h5, h6⟩ := Res.bind_eq_ok.mp h4
      cases h6
      refine .cons ?_ (namesAt_each ns r' h5)
      rw [if_neg h0, h1]
      unfold fits at h3
      split at h3
      · cases h3; rfl
      · cases h3

/-! ### gdxSymbolSetDomainX -/

theorem relaxOne_ok (l : List Str) (s : Str) : l <+: (relaxOne l s).1 ∧ (∀ t ∈ (relaxOne l s).1, t ∈ l ∨ t = s) ∧
    (¬ Ident s → (relaxOne l s).2 = 0) ∧ (Ident s →
      (relaxOne l s).2 ≠ 0 ∧ ∃ t, at1 (relaxOne l s).1 (relaxOne l s).2 = .ok t ∧ SameNoCase t s) := by
  unfold relaxOne
  have hid : (s = [] ∨ s = star ∨ isGoodIdent s = false) ↔ ¬ Ident s := by
    rw [← C14_ident]
    constructor
    · rintro (h | h | h)
      · rw [h]; decide
      · rw [h]; decide
      · rw [h]; decide
    · intro h
      exact Or.inr (Or.inr (by simpa using h))
  split
  · rename_i hx
    rw [hid] at hx
    exact ⟨List.prefix_refl _, fun t h => Or.inl h, fun _ => rfl, fun h => absurd h hx⟩
  · rename_i hx
    rw [hid, not_not] at hx
    split
    · rename_i n hn
      obtain ⟨x, h1, h2⟩ := lookup_some hn
      refine ⟨List.prefix_refl _, fun t h => Or.inl h, fun h => absurd hx h, fun _ => ⟨by simp only; omega, x, ?_, h2⟩⟩
      exact at1_nat h1
    · refine ⟨List.prefix_append _ _, ?_, fun h => absurd hx h, fun _ => ⟨by simp only; omega, s, ?_, rfl⟩⟩
      · intro t ht
        rcases List.mem_append.mp ht with ht | ht
        · exact Or.inl ht
        · exact Or.inr (List.mem_singleton.mp ht)
      · exact at1_nat (by simp)

theorem at1_prefix {l l' : List Str} (h : l <+: l') {n : Int} {s : Str} (hs : at1 l n = .ok s) : at1 l' n = .ok s := by
  obtain ⟨h1, h2, h3⟩ := at1_ok hs
  obtain ⟨t, rfl⟩ := h
  obtain ⟨m, rfl⟩ : ∃ m : Nat, n = (m : Int) + 1 := ⟨(n - 1).toNat, by omega⟩
  refine at1_nat ?_
  rw [show ((m : Int) + 1 - 1).toNat = m by omega] at h3
  rw [List.getElem?_append_left (List.getElem?_eq_some_iff.mp h3).1]
  exact h3

theorem relaxAll_ok : ∀ (ss l : List Str), l <+: (relaxAll l ss).1 ∧ (∀ t ∈ (relaxAll l ss).1, t ∈ l ∨ t ∈ ss) ∧
    List.Forall₂ (fun s n => (¬ Ident s → n = 0) ∧ (Ident s →
      n ≠ 0 ∧ ∃ t, at1 (relaxAll l ss).1 n = .ok t ∧ SameNoCase t s)) ss (relaxAll l ss).2
  | [], l => ⟨List.prefix_refl _, fun t h => Or.inl h, .nil⟩
  | s :: ss, l => by
    obtain ⟨a1, a2, a3⟩ := relaxOne_ok l s
    obtain ⟨b1, b2, b3⟩ := relaxAll_ok ss (relaxOne l s).1
    rw [relaxAll]
    refine ⟨a1.trans b1, ?_, .cons ?_ b3⟩
    · intro t ht
      rcases b2 t ht with h | h
      · rcases a2 t h with h | h
        · exact Or.inl h
        · exact Or.inr (by simp [h])
      · exact Or.inr (by simp [h])
    · refine ⟨a3.1, fun hid => ?_⟩
      obtain ⟨h1, t, h2, h3⟩ := a3.2 hid
      exact ⟨h1, t, at1_prefix b1 h2, h3⟩

theorem relaxed_of {ids : List Str} {ns : List Int} {L r : List Str} (b3 : List.Forall₂ (fun s n => (¬ Ident s → n = 0) ∧ (Ident s →
    n ≠ 0 ∧ ∃ t, at1 L n = .ok t ∧ SameNoCase t s)) ids ns)
    (he : List.Forall₂ (fun n t => if n = 0 then t = star else at1 L n = .ok t) ns r) : List.Forall₂ RelaxedAs ids r := by
  induction b3 generalizing r with
  | nil => cases he; exact .nil
  | @cons a b as bs ha _ ih =>
    cases he with
    | cons h8 h9 =>
      refine .cons ⟨fun hid => ?_, fun hid => ?_⟩ (ih h9)
      · obtain ⟨c1, t, c2, c3⟩ := ha.2 hid
        rw [if_neg c1, c2] at h8
        cases h8
        exact c3
      · rw [if_pos (ha.1 hid)] at h8
        exact h8

/-- C26, gdxSymbolSetDomainX: afterwards gdxSymbolGetDomainX returns 2 and the given names: the spelling is that of the first name in
    the file that agrees up to case (so the given one unless there is such a name), and what is not an identifier gives `*`.
    For a symbol without index positions nothing happens. -/
theorem C26_relaxed (g g' : Gx) (hi : Inv g) (nr : Int) (ids : List Str) (h : symbolSetDomainX g nr ids = .ok (g', true)) :
    (symbolDim g nr = 0 → g' = g) ∧ (symbolDim g nr ≠ 0 → ∃ r, symbolGetDomainX g' nr = .ok (g', (2, r)) ∧
      List.Forall₂ RelaxedAs ids r ∧ ∀ (l : List Str) (i : Nat) (s t : Str), g.domStrs = some l → ids[i]? = some s → r[i]? = some t →
        Ident s → (∀ x ∈ l ++ ids, SameNoCase x s → x = s) → t = s) := by
  unfold symbolSetDomainX at h
  obtain ⟨syms, h1, h2⟩ := Res.bind_eq_ok.mp h
  have hn := need_ok h1
  split at h2
  · cases h2
  rename_i hr
  rw [not_not] at hr
  obtain ⟨s, h3, h4⟩ := Res.bind_eq_ok.mp h2
  obtain ⟨_, _, h5⟩ := at1_ok h3
  have hs : g.symAt nr = some s := by
    unfold Gx.symAt
    rw [hn]
    simp only
    rw [if_pos hr]
    exact h5
  have hdim : symbolDim g nr = s.dim := by
    unfold symbolDim
    rw [if_neg (by omega), hs]
  have hok := (hi.tab.syms syms hn).each _ s h5
  rw [hdim]
  split at h4
  · rename_i hd
    split at h4
    · cases h4
    rename_i hlen
    rw [not_not] at hlen
    obtain ⟨l, h6, h7⟩ := Res.bind_eq_ok.mp h4
    have hl := need_ok h6
    cases h7
    refine ⟨fun h0 => by omega, fun _ => ?_⟩
    obtain ⟨b1, b2, b3⟩ := relaxAll_ok ids l
    have hgood : ∀ t ∈ (relaxAll l ids).1, t.length < ssSize := by
      have ev := (relaxAll_evo .all trivial ids g l hl).1
      have := ev.inv Inv.prim hi
      intro t ht
      exact isGoodIdent_len (this.dom _ rfl t ht)
    have hrange := (relaxAll_evo .all trivial ids g l hl).2.2.2
    obtain ⟨r, hr1, _⟩ := namesAt_ok hgood (relaxAll l ids).2 hrange
    have he := namesAt_each _ _ hr1
    refine ⟨r, ?_, ?_, ?_⟩
    · unfold symbolGetDomainX
      show (need (some (syms.modify (nr.toNat - 1) _)) >>= _) = _
      simp only [need, Res.bind_ok]
      unfold Gx.symAt
      simp only
      rw [if_pos (by rw [List.length_modify]; exact hr), List.getElem?_modify, h5]
      simp only [Option.map_eq_map, Option.map_some]
      rw [if_pos (by omega)]
      show (namesAt (relaxAll l ids).1 (relaxAll l ids).2 >>= _) = _
      rw [hr1]
      rfl
    · exact relaxed_of b3 he
    · intro l' i s' t hl' hi1 hi2 hid hx
      rw [hl] at hl'
      cases hl'
      obtain ⟨n, hn1⟩ : ∃ n, (relaxAll l ids).2[i]? = some n := by
        have := b3.length_eq
        have hlt := (List.getElem?_eq_some_iff.mp hi1).1
        exact ⟨_, List.getElem?_eq_getElem (by omega)⟩
      have c1 := forall₂_get? b3 hi1 hn1
      have c2 := forall₂_get? he hn1 hi2
      obtain ⟨d1, x, d2, d3⟩ := c1.2 hid
      rw [if_neg d1, d2] at c2
      cases c2
      refine hx t ?_ d3
      exact List.mem_append.mpr (b2 t (List.mem_of_getElem? (at1_ok d2).2.2))
  · rename_i hd
    cases h4
    refine ⟨fun _ => rfl, fun h0 => ?_⟩
    have := hok.dim.1
    omega
where
  forall₂_get? {α β : Type} {R : α → β → Prop} {l : List α} {l' : List β} (h : List.Forall₂ R l l') {i : Nat} {a : α} {b : β}
      (ha : l[i]? = some a) (hb : l'[i]? = some b) : R a b := by
    induction h generalizing i with
    | nil => simp at ha
    | cons h1 _ ih =>
      cases i with
      | zero => simp at ha hb; subst ha; subst hb; exact h1
      | succ i => exact ih (by simpa using ha) (by simpa using hb)

/-! ### gdxSymbolSetDomain -/

theorem symIndex_num {g : Gx} {syms : List Sym} (hn : g.names = some syms) {s : Str} (hs : s ≠ star) (h : 1 ≤ symIndex syms s) :
    DomNum g s (symIndex syms s) := by
  unfold DomNum
  rw [if_neg hs]
  refine ⟨h, ?_⟩
  unfold symIndex at h ⊢
  rcases indexOf1_cases false s (syms.map Sym.name) with ⟨_, h'⟩ | ⟨k, hk, h'⟩
  · omega
  · rw [h']
    obtain ⟨x, hx1, hx2⟩ := lookup_some hk
    rw [List.getElem?_map] at hx1
    obtain ⟨y, hy1, rfl⟩ := Option.map_eq_some_iff.mp hx1
    have hlt := (List.getElem?_eq_some_iff.mp hy1).1
    have : symbolInfo g ((k : Int) + 1) = ⟨true, y.name, y.dim, y.typ⟩ := by
      unfold symbolInfo
      rw [if_neg (by omega)]
      unfold Gx.symAt
      rw [hn]
      simp only
      rw [if_pos (by omega), show ((k : Int) + 1 - 1).toNat = k by omega, hy1]
    rw [this]
    exact ⟨rfl, hx2⟩

theorem domLoop_nums {g0 : Gx} {syms : List Sym} (hn : g0.names = some syms) (cur : Nat) (dim : Int) : ∀ (ss : List Str) (g : Gx) (d : Nat)
    (g' : Gx) (l : List Int) (ok st : Bool), domLoop syms cur dim g d ss = .ok (g', l, ok, st) →
    List.Forall₂ (fun s x => x = 0 ∨ DomNum g0 s x) (ss.take l.length) l ∧ (st = false → l.length = ss.length) ∧
      (ok = true → List.Forall₂ (DomNum g0) ss l)
  | [], g, d, g', l, ok, st, h => by
    cases h
    exact ⟨.nil, fun _ => rfl, fun _ => .nil⟩
  | s :: ss, g, d, g', l, ok, st, h => by
    rw [domLoop] at h
    simp only at h
    by_cases hs : s = star
    · rw [if_pos hs, if_pos (Or.inr rfl)] at h
      obtain ⟨⟨g1, l1, ok1, st1⟩, h1, h2⟩ := Res.bind_eq_ok.mp h
      cases h2
      obtain ⟨i1, i2, i3⟩ := domLoop_nums hn cur dim ss _ _ _ _ _ _ h1
      refine ⟨.cons (Or.inl rfl) i1, fun hs => by simp [i2 hs], ?_⟩
      intro hok
      rw [Bool.and_eq_true] at hok
      refine .cons ?_ (i3 hok.1)
      unfold DomNum
      rw [if_pos hs]
    rw [if_neg hs] at h
    by_cases hpos : symIndex syms s ≤ 0
    · rw [if_pos (Or.inl (by simp [hs, hpos]))] at h
      obtain ⟨⟨g1, l1, ok1, st1⟩, h1, h2⟩ := Res.bind_eq_ok.mp h
      cases h2
      obtain ⟨i1, i2, i3⟩ := domLoop_nums hn cur dim ss _ _ _ _ _ _ h1
      refine ⟨.cons (Or.inl rfl) i1, fun hs => by simp [i2 hs], ?_⟩
      intro hok
      rw [Bool.and_eq_true] at hok
      have := hok.2
      simp [hs, hpos] at this
    · rw [if_neg (by simp [hs]; omega)] at h
      have hpos : 1 ≤ symIndex syms s := by omega
      have hnum := symIndex_num hn hs hpos
      obtain ⟨r, _, h2⟩ := Res.bind_eq_ok.mp h
      cases r with
      | noData =>
        cases h2
        exact ⟨.nil, fun h => Bool.noConfusion h, fun h => Bool.noConfusion h⟩
      | notSet =>
        obtain ⟨⟨g1, l1, ok1, st1⟩, h3, h4⟩ := Res.bind_eq_ok.mp h2
        cases h4
        obtain ⟨i1, i2, i3⟩ := domLoop_nums hn cur dim ss _ _ _ _ _ _ h3
        exact ⟨.cons (Or.inl rfl) i1, fun hs => by simp [i2 hs], fun h => Bool.noConfusion h⟩
      | «universe» =>
        obtain ⟨⟨g1, l1, ok1, st1⟩, h3, h4⟩ := Res.bind_eq_ok.mp h2
        cases h4
        obtain ⟨i1, i2, i3⟩ := domLoop_nums hn cur dim ss _ _ _ _ _ _ h3
        exact ⟨.cons (Or.inr hnum) i1, fun hs => by simp [i2 hs], fun h => .cons hnum (i3 h)⟩
      | set t =>
        obtain ⟨ts, _, h2⟩ := Res.bind_eq_ok.mp h2
        obtain ⟨⟨g1, l1, ok1, st1⟩, h3, h4⟩ := Res.bind_eq_ok.mp h2
        cases h4
        obtain ⟨i1, i2, i3⟩ := domLoop_nums hn cur dim ss _ _ _ _ _ _ h3
        exact ⟨.cons (Or.inr hnum) i1, fun hs => by simp [i2 hs], fun h => .cons hnum (i3 h)⟩

/-- what gdxSymbolSetDomain does to the symbol table -/
theorem symbolSetDomain_ok {g g' : Gx} {ids : List Str} {b : Bool} (h : symbolSetDomain g ids = .ok (g', b)) :
    (g'.names = g.names ∧ g'.domStrs = g.domStrs ∧ (g.mode ∈ [Mode.wDomRaw, .wDomMap, .wDomStr] → g.cur = .none)) ∨
    ∃ (n : Nat) (syms : List Sym) (s : Sym) (l : List Int) (g1 : Gx) (ok st : Bool), g.cur = .sym (n + 1) ∧ g.names = some syms ∧
      syms[n]? = some s ∧ s.domSyms = none ∧ ids.length = s.dim.toNat ∧ domLoop syms (n + 1) s.dim g 0 ids = .ok (g1, l, ok, st) ∧
      (b = true → ok = true ∧ st = false) ∧
      g'.names = some (syms.set n { s with domSyms := some (l ++ List.replicate (s.dim.toNat - l.length) 0) }) ∧
      g'.domStrs = g.domStrs := by
  unfold symbolSetDomain at h
  rcases chk_cases g [.wDomRaw, .wDomMap, .wDomStr] with ⟨hm, hc⟩ | ⟨hm, hc⟩
  · rw [hc] at h
    simp only [Bool.true_eq_false, if_false] at h
    split at h
    · rename_i hcur
      cases h
      exact Or.inl ⟨rfl, rfl, fun _ => hcur⟩
    · cases h
    · rename_i n hcur
      refine Or.inr ?_
      obtain ⟨syms, h1, h⟩ := Res.bind_eq_ok.mp h
      obtain ⟨s, h2, h⟩ := Res.bind_eq_ok.mp h
      obtain ⟨n', syms', c1, c2, c3⟩ := curSym_ok h2
      rw [need_ok h1] at c2
      cases c2
      rw [hcur] at c1
      cases c1
      split at h
      · cases h
      rename_i hns
      rw [not_or, not_not] at hns
      obtain ⟨⟨g1, l, ok, st⟩, h3, h⟩ := Res.bind_eq_ok.mp h
      obtain ⟨d1, _, _⟩ := (domLoop_evo .all syms (n' + 1) s.dim ids g 0).of_ok h3
      obtain ⟨g2, h4, h⟩ := Res.bind_eq_ok.mp h
      obtain ⟨k, syms2, t, e1, e2, e3, e4⟩ := modCur_ok h4
      simp only at d1
      rw [d1.cur, hcur] at e1
      cases e1
      rw [d1.names, need_ok h1] at e2
      cases e2
      rw [c3] at e3
      cases e3
      refine ⟨n', syms, s, l, g1, ok, st, hcur, need_ok h1, c3, by simpa using hns.1, hns.2, h3, ?_⟩
      split at h
      · cases h
        rw [e4]
        exact ⟨fun h => Bool.noConfusion h, rfl, d1.domStrs⟩
      · rename_i hst
        cases h
        rw [e4]
        exact ⟨fun h => ⟨h, by simpa using hst⟩, rfl, d1.domStrs⟩
  · rw [hc] at h
    simp only [if_true] at h
    cases h
    exact Or.inl ⟨rfl, rfl, fun h => absurd h hm⟩

theorem getDomain_of {g : Gx} {syms : List Sym} {n : Nat} {s : Sym} (hn : g.names = some syms) (hs : syms[n]? = some s) :
    symbolGetDomain g ((n : Int) + 1) = .ok (g, some (s.domSyms.getD (List.replicate s.dim.toNat 0))) := by
  have hlt := (List.getElem?_eq_some_iff.mp hs).1
  unfold symbolGetDomain Gx.symAt need
  rw [hn]
  simp only [Res.bind_ok]
  rw [if_pos (by omega), show ((n : Int) + 1 - 1).toNat = n by omega, hs]
  rfl

/-- the answer of gdxSymbolGetDomainX for a symbol -/
def domainXOf (syms : List Sym) (dl : Option (List Str)) (s : Sym) : Res (Int × List Str) :=
  match s.domStrs, s.domSyms with
  | some ds, _ => do
    let dl ← need dl
    let r ← namesAt dl ds
    pure (2, r)
  | none, none => pure (1, List.replicate s.dim.toNat star)
  | none, some ds => do
    let r ← namesAt (syms.map Sym.name) ds
    pure (3, r)

theorem getDomainX_of {g : Gx} {syms : List Sym} {n : Nat} {s : Sym} (hn : g.names = some syms) (hs : syms[n]? = some s) :
    symbolGetDomainX g ((n : Int) + 1) = (domainXOf syms g.domStrs s >>= fun a => pure (g, a)) := by
  have hlt := (List.getElem?_eq_some_iff.mp hs).1
  have hsa : g.symAt ((n : Int) + 1) = some s := by
    unfold Gx.symAt
    rw [hn]
    simp only
    rw [if_pos (by omega), show ((n : Int) + 1 - 1).toNat = n by omega, hs]
  unfold symbolGetDomainX
  rw [show need g.names = .ok syms by rw [hn]; rfl]
  simp only [Res.bind_ok]
  rw [hsa]
  simp only
  unfold domainXOf
  cases s.domStrs with
  | some ds =>
    simp only
    generalize need g.domStrs = r
    cases r with
    | ub => rfl
    | ok dl =>
      simp only [Res.bind_ok]
      generalize namesAt dl ds = r
      cases r <;> rfl
  | none =>
    cases s.domSyms with
    | none => rfl
    | some ds =>
      simp only
      generalize namesAt _ ds = r
      cases r <;> rfl

theorem names_set {syms : List Sym} {m : Nat} {s t : Sym} (h : syms[m]? = some s) (ht : t.name = s.name) :
    (syms.set m t).map Sym.name = syms.map Sym.name := by
  apply List.ext_getElem?
  intro k
  rw [List.getElem?_map, List.getElem?_map, List.getElem?_set]
  split
  · rename_i hk
    subst hk
    rw [if_pos (List.getElem?_eq_some_iff.mp h).1, h]
    simp [ht]
  · rfl

/-- C26, gdxSymbolSetDomain: afterwards gdxSymbolGetDomain returns the numbers of the given symbols, 0 for the universe and for a name
    that was refused; if the call succeeded no name was refused. gdxSymbolGetDomainX returns 3 and the names of these symbols, unless
    relaxed domains were given before. -/
theorem C26_real (g g' : Gx) (hi : Inv g) (ids : List Str) (b : Bool) (h : symbolSetDomain g ids = .ok (g', b))
    (hm : g.mode ∈ [Mode.wDomRaw, .wDomMap, .wDomStr]) (n : Nat) (hc : g.cur = .sym n) :
    ∃ l, symbolGetDomain g' n = .ok (g', some l) ∧ List.Forall₂ (fun s d => d = 0 ∨ DomNum g s d) ids l ∧
      (b = true → List.Forall₂ (DomNum g) ids l) ∧
      ((∀ a g1, symbolGetDomainX g n = .ok (g1, a) → a.1 = 1) → g.domStrs ≠ none →
        ∃ r, symbolGetDomainX g' n = .ok (g', (3, r)) ∧ List.Forall₂ (fun d t => t = (symbolInfo g d).name) l r) := by
  rcases symbolSetDomain_ok h with ⟨_, _, h1⟩ | ⟨m, syms, s, l, g1, ok, st, h1, h2, h3, h4, h5, h6, h7, h8, h9⟩
  · rw [h1 hm] at hc
    cases hc
  rw [h1] at hc
  cases hc
  have hok := (hi.tab.syms syms h2).each _ s h3
  obtain ⟨i1, i2, i3⟩ := domLoop_nums h2 (m + 1) s.dim ids g 0 g1 l ok st h6
  obtain ⟨_, j2, j3⟩ := (domLoop_evo .all syms (m + 1) s.dim ids g 0).of_ok h6
  simp only at j2 j3
  have hlt := (List.getElem?_eq_some_iff.mp h3).1
  have hs' : (syms.set m { s with domSyms := some (l ++ List.replicate (s.dim.toNat - l.length) 0) })[m]? =
      some { s with domSyms := some (l ++ List.replicate (s.dim.toNat - l.length) 0) } := by
    rw [List.getElem?_set_self hlt]
  have hgd := getDomain_of h8 hs'
  refine ⟨l ++ List.replicate (s.dim.toNat - l.length) 0, ?_, ?_, ?_, ?_⟩
  · rw [show (((m + 1 : Nat)) : Int) = (m : Int) + 1 by omega, hgd]
    rfl
  · have : ids = ids.take l.length ++ ids.drop l.length := (List.take_append_drop _ _).symm
    rw [this]
    refine List.rel_append i1 ?_
    have hl2 : (ids.drop l.length).length = s.dim.toNat - l.length := by rw [List.length_drop, h5]
    generalize ids.drop l.length = t at hl2
    rw [← hl2]
    clear hl2 this
    induction t with
    | nil => exact .nil
    | cons a t ih => exact .cons (Or.inl rfl) ih
  · intro hb
    obtain ⟨q1, q2⟩ := h7 hb
    rw [show s.dim.toNat - l.length = 0 by rw [i2 q2, h5]; omega]
    simp only [List.replicate_zero, List.append_nil]
    exact i3 q1
  · intro hx hdom
    have hnone : s.domStrs = none := by
      cases hds : s.domStrs with
      | none => rfl
      | some ds =>
        exfalso
        obtain ⟨dl, hdl⟩ := Option.ne_none_iff_exists'.mp hdom
        obtain ⟨k1, k2⟩ := hok.dst ds hds
        obtain ⟨r, hr, _⟩ := namesAt_ok (l := dl) (fun x hx => isGoodIdent_len (hi.dom dl hdl x hx)) ds (by
          unfold Gx.nDom at k2
          rw [hdl] at k2
          exact k2)
        have := getDomainX_of h2 h3
        unfold domainXOf at this
        rw [hds] at this
        simp only at this
        rw [show need g.domStrs = .ok dl by rw [hdl]; rfl] at this
        simp only [Res.bind_ok] at this
        rw [hr] at this
        have := hx _ _ (by rw [show (((m + 1 : Nat)) : Int) = (m : Int) + 1 by omega]; exact this)
        cases this
    have hrange : ∀ d : Int, d ∈ l ++ List.replicate (s.dim.toNat - l.length) (0 : Int) → 0 ≤ d ∧ d ≤ (syms.map Sym.name).length := by
      intro d hd
      rw [List.length_map]
      rcases List.mem_append.mp hd with hd | hd
      · exact j3 d hd
      · rw [List.eq_of_mem_replicate hd]; omega
    obtain ⟨r, hr, _⟩ := namesAt_ok (l := syms.map Sym.name) (by
      intro x hx
      obtain ⟨y, hy, rfl⟩ := List.mem_map.mp hx
      obtain ⟨k, hk⟩ := List.mem_iff_getElem?.mp hy
      exact isGoodIdent_len ((hi.tab.syms syms h2).each k y hk).good) _ hrange
    refine ⟨r, ?_, ?_⟩
    · rw [show (((m + 1 : Nat)) : Int) = (m : Int) + 1 by omega, getDomainX_of h8 hs']
      unfold domainXOf
      simp only [hnone]
      rw [names_set h3 (by rfl), hr]
      rfl
    · refine (namesAt_each _ _ hr).imp ?_
      intro d t hdt
      by_cases h0 : d = 0
      · rw [if_pos h0] at hdt
        rw [hdt, h0]
        rfl
      · rw [if_neg h0] at hdt
        obtain ⟨p1, p2, p3⟩ := at1_ok hdt
        rw [List.length_map] at p2
        rw [List.getElem?_map] at p3
        obtain ⟨y, hy, hyt⟩ := Option.map_eq_some_iff.mp p3
        unfold symbolInfo
        rw [if_neg h0]
        unfold Gx.symAt
        rw [h2]
        simp only
        rw [if_pos ⟨p1, p2⟩, hy]
        exact hyt.symm

/-! ### the answers do not change -/

/-- the `n`th symbol has the domains `a` and `b` -/
def DomHolds (n : Nat) (a b : Option (List Int)) (g : Gx) : Prop :=
  ∀ syms, g.names = some syms → ∃ s, syms[n]? = some s ∧ s.domSyms = a ∧ s.domStrs = b

theorem DomHolds.prim {lc : Lic} (h1 : ¬ lc .dom) (h2 : ¬ lc .relax) (n : Nat) (a b : Option (List Int)) :
    ∀ x y, Prim lc x y → DomHolds n a b x → DomHolds n a b y := by
  intro x y h hg
  cases h with
  | ctrl h _ _ => intro l hl; exact hg l (by rw [← show y.names = x.names from congrArg Core.names h]; exact hl)
  | addSym syms acros s c m h ha hs hc _ =>
    intro l hl
    cases hl
    obtain ⟨t, e1, e2⟩ := hg syms h
    exact ⟨t, by rw [List.getElem?_append_left (List.getElem?_eq_some_iff.mp e1).1]; exact e1, e2⟩
  | modSym syms m s s' h hn hs =>
    intro l hl
    cases hl
    obtain ⟨t, e1, e2, e3⟩ := hg syms h
    by_cases hmn : m = n
    · subst hmn
      rw [hn] at e1
      cases e1
      refine ⟨s', by rw [List.getElem?_set_self (List.getElem?_eq_some_iff.mp hn).1], ?_⟩
      cases hs with
      | dom _ _ _ _ _ _ hk => exact absurd hk h1
      | relax _ _ _ hk => exact absurd hk h2
      | _ => exact ⟨e2, e3⟩
    · exact ⟨t, by rw [List.getElem?_set_ne hmn]; exact e1, e2, e3⟩
  | _ => exact hg

def StrHolds (x : List Str) (g : Gx) : Prop := ∀ l, g.domStrs = some l → x <+: l

theorem StrHolds.prim (x : List Str) : ∀ a b, Prim .all a b → StrHolds x a → StrHolds x b := by
  intro a b h hg
  cases h with
  | ctrl h _ _ => intro l hl; exact hg l (by rw [← show b.domStrs = a.domStrs from congrArg Core.domStrs h]; exact hl)
  | domStr l s h _ _ _ =>
    intro l' hl'
    cases hl'
    exact (hg l h).trans (List.prefix_append _ _)
  | _ => exact hg

theorem lic_dom {c : Call} (h : ∀ ids, c ≠ .setDomain ids) : ¬ c.lic .dom := by
  cases c <;> first | exact absurd rfl (h _) | (intro h; cases h; done) | (rintro (h | h) <;> cases h; done) | (intro h; exact h)

theorem lic_relax {c : Call} (h : ∀ n ids, c ≠ .setDomainX n ids) : ¬ c.lic .relax := by
  cases c <;> first | exact absurd rfl (h _ _) | (intro h; cases h; done) | (rintro (h | h) <;> cases h; done) | (intro h; exact h)

theorem stateOf_ok {α : Type} {r : Res (Gx × α)} {g : Gx} (h : stateOf r = .ok g) : ∃ a, r = .ok (g, a) := by
  unfold stateOf at h
  obtain ⟨⟨x, a⟩, h1, h2⟩ := Res.bind_eq_ok.mp h
  cases h2
  exact ⟨a, h1⟩

theorem DomHolds.step (e : Env) (z : Cz) (n : Nat) (a b : Option (List Int)) {g g' : Gx} {c : Call} (hc : c.WF) (hr : c.opensRead = false)
    (hw : c.opensWrite = false) (ha : Aft g) (hs : ¬ SetsDomain ((n : Int) + 1) g c) (hg : step e z g c = .ok g') (h : DomHolds n a b g) :
    DomHolds n a b g' := by
  by_cases h1 : ∃ ids, c = .setDomain ids
  · obtain ⟨ids, rfl⟩ := h1
    obtain ⟨r, hg⟩ := stateOf_ok hg
    rcases symbolSetDomain_ok hg with ⟨h2, _⟩ | ⟨m, syms, s, l, g1, ok, st, h2, h3, h4, _, _, _, _, h5, _⟩
    · intro syms hsy
      rw [h2] at hsy
      exact h syms hsy
    · have hne : m ≠ n := by
        rintro rfl
        exact hs ⟨m + 1, h2, by omega⟩
      intro l' hl'
      rw [h5] at hl'
      cases hl'
      rw [List.getElem?_set_ne hne]
      exact h syms h3
  by_cases h2 : ∃ m ids, c = .setDomainX m ids
  · obtain ⟨m, ids, rfl⟩ := h2
    obtain ⟨r, hg⟩ := stateOf_ok hg
    unfold symbolSetDomainX at hg
    obtain ⟨syms, h3, hg⟩ := Res.bind_eq_ok.mp hg
    split at hg
    · cases hg
      exact h
    rename_i hmr
    rw [not_not] at hmr
    obtain ⟨s, h4, hg⟩ := Res.bind_eq_ok.mp hg
    split at hg
    · split at hg
      · cases hg
      obtain ⟨l, h5, hg⟩ := Res.bind_eq_ok.mp hg
      cases hg
      have hne : m ≠ (n : Int) + 1 := hs
      intro l' hl'
      cases hl'
      obtain ⟨t, e1, e2⟩ := h syms (need_ok h3)
      exact ⟨t, by rw [List.getElem?_modify, e1]; simp; omega, e2⟩
    · cases hg
      exact h
  have hp := DomHolds.prim (lc := c.lic) (lic_dom fun ids hi => h1 ⟨ids, hi⟩) (lic_relax fun m ids hi => h2 ⟨m, ids, hi⟩) n a b
  exact (step_inv_l hp (fun _ _ _ _ l hl => by cases hl) (fun _ h => h) e z hc hr hw ha
    (fun m s _ => uelRegisterMap_inv hp (fun _ _ _ _ _ h => h) m s h) (fun o s _ => renameUEL_inv (fun _ _ _ _ _ h => h) o s h) h).of_ok hg

theorem along_and {Q R : Gx → Call → Gx → Prop} {e : Env} {z : Cz} : ∀ {cs : List Call} {g : Gx}, Along Q e z g cs → Along R e z g cs →
    Along (fun g c g' => Q g c g' ∧ R g c g') e z g cs
  | [], _, _, _ => trivial
  | _ :: _, _, h1, h2 => fun g' hg => ⟨⟨(h1 g' hg).1, (h2 g' hg).1⟩, along_and (h1 g' hg).2 (h2 g' hg).2⟩

/-- C26, along histories without opening a file: as long as the domain of the symbol is not set again the answers of
    gdxSymbolGetDomain and gdxSymbolGetDomainX stay the same -/
theorem C26_stable (e : Env) (z : Cz) (cs : List Call) (g g' : Gx) (hc : NoOpen cs) (ha : Aft g) (hr : run e z g cs = .ok g')
    (nr : Int) (hs : Along (fun g c _ => ¬ SetsDomain nr g c) e z g cs) (hn : g'.names ≠ none) (hd : g'.domStrs ≠ none) :
    (∀ l, symbolGetDomain g nr = .ok (g, some l) → symbolGetDomain g' nr = .ok (g', some l)) ∧
    (∀ k r, symbolGetDomainX g nr = .ok (g, (k, r)) → k ≠ 0 → symbolGetDomainX g' nr = .ok (g', (k, r))) := by
  obtain ⟨syms', hn'⟩ := Option.ne_none_iff_exists'.mp hn
  obtain ⟨dl', hd'⟩ := Option.ne_none_iff_exists'.mp hd
  -- what both queries say about the symbol
  have key : ∀ (syms : List Sym) (n : Nat) (s : Sym), g.names = some syms → nr = (n : Int) + 1 → syms[n]? = some s →
      ∃ s', syms'[n]? = some s' ∧ s'.domSyms = s.domSyms ∧ s'.domStrs = s.domStrs ∧ s'.dim = s.dim := by
    intro syms n s h1 h2 h3
    have hk := ((run_all (P := DomHolds n s.domSyms s.domStrs) (Q := fun g c _ => (c.opensRead = false ∧ c.opensWrite = false) ∧
      ¬ SetsDomain ((n : Int) + 1) g c) e z (fun g c g' hc ha hg hq hp => hp.step e z n _ _ hc hq.1.1 hq.1.2 ha hq.2 hg) cs g
      (fun c h => (hc c h).1) ha (fun l hl => by rw [h1] at hl; cases hl; exact ⟨s, h3, rfl, rfl⟩)
      (along_and (along_of e z cs g fun _ _ c h => (hc c h).2) (by rw [← h2]; exact hs))).of_ok hr).2
    obtain ⟨s', e1, e2, e3⟩ := hk syms' hn'
    obtain ⟨s2, e4, e5⟩ := (Holds.run e z cs g hc ha syms h1).of_ok hr syms' hn' n s h3
    rw [e1] at e4
    cases e4
    exact ⟨s', e1, e2, e3, e5.dim⟩
  have at' : ∀ s, g.symAt nr = some s → ∃ (syms : List Sym) (n : Nat), g.names = some syms ∧ nr = (n : Int) + 1 ∧ syms[n]? = some s := by
    intro s hs
    unfold Gx.symAt at hs
    cases hsy : g.names with
    | none => rw [hsy] at hs; cases hs
    | some syms =>
      rw [hsy] at hs
      simp only at hs
      split at hs
      · exact ⟨syms, (nr - 1).toNat, rfl, by omega, hs⟩
      · cases hs
  constructor
  · intro l hl
    cases hsa : g.symAt nr with
    | none =>
      unfold symbolGetDomain at hl
      obtain ⟨_, _, hl⟩ := Res.bind_eq_ok.mp hl
      rw [hsa] at hl
      injection hl with hl
      injection hl with _ hl
      cases hl
    | some s =>
      obtain ⟨syms, n, h1, h2, h3⟩ := at' s hsa
      obtain ⟨s', e1, e2, e3, e4⟩ := key syms n s h1 h2 h3
      rw [h2, getDomain_of h1 h3] at hl
      rw [h2, getDomain_of hn' e1, e2, e4]
      cases hl
      rfl
  · intro k r hl hk
    cases hsa : g.symAt nr with
    | none =>
      unfold symbolGetDomainX at hl
      obtain ⟨_, _, hl⟩ := Res.bind_eq_ok.mp hl
      rw [hsa] at hl
      injection hl with hl
      injection hl with _ hl
      cases hl
      exact absurd rfl hk
    | some s =>
      obtain ⟨syms, n, h1, h2, h3⟩ := at' s hsa
      obtain ⟨s', e1, e2, e3, e4⟩ := key syms n s h1 h2 h3
      rw [h2, getDomainX_of h1 h3] at hl
      rw [h2, getDomainX_of hn' e1]
      unfold domainXOf at hl ⊢
      rw [e2, e3, e4]
      cases hds : s.domStrs with
      | some ds =>
        rw [hds] at hl
        simp only at hl ⊢
        obtain ⟨⟨k', r'⟩, h4, h5⟩ := Res.bind_eq_ok.mp hl
        cases h5
        obtain ⟨dl, h5, h6⟩ := Res.bind_eq_ok.mp h4
        obtain ⟨r', h7, h8⟩ := Res.bind_eq_ok.mp h6
        cases h8
        have hpre : dl <+: dl' := (run_noOpen (P := StrHolds dl) (StrHolds.prim dl) (fun _ _ _ h => h) (fun _ _ l hl => by cases hl)
          (fun _ _ _ _ _ h => h) (fun _ h => h) e z cs g hc ha (fun l hl => by rw [need_ok h5] at hl; cases hl; exact List.prefix_refl _)
          ).of_ok hr dl' hd'
        rw [show need g'.domStrs = .ok dl' by rw [hd']; rfl]
        simp only [Res.bind_ok]
        rw [namesAt_mono (fun _ _ h => at1_prefix hpre h) ds _ h7]
        rfl
      | none =>
        rw [hds] at hl
        cases hdy : s.domSyms with
        | none =>
          rw [hdy] at hl
          cases hl
          rfl
        | some ds =>
          rw [hdy] at hl
          simp only at hl ⊢
          obtain ⟨⟨k', r'⟩, h4, h5⟩ := Res.bind_eq_ok.mp hl
          cases h5
          obtain ⟨r', h7, h8⟩ := Res.bind_eq_ok.mp h4
          cases h8
          have hk2 := (Holds.run e z cs g hc ha syms h1).of_ok hr syms' hn'
          rw [namesAt_mono (l' := syms'.map Sym.name) (fun m t h => ?_) ds _ h7]
          · rfl
          · obtain ⟨p1, p2, p3⟩ := at1_ok h
            rw [List.getElem?_map] at p3
            obtain ⟨y, hy, hyt⟩ := Option.map_eq_some_iff.mp p3
            obtain ⟨y', q1, q2⟩ := hk2 _ y hy
            have hlt := (List.getElem?_eq_some_iff.mp q1).1
            unfold at1
            rw [if_pos p1, List.getElem?_map, q1]
            simp [q2.name, hyt]

/-- the symbols from the `k`th on have no domains -/
def NoDomFrom (k : Nat) (g : Gx) : Prop :=
  ∀ syms, g.names = some syms → ∀ (n : Nat) (s : Sym), k ≤ n → syms[n]? = some s → s.domSyms = none ∧ s.domStrs = none

theorem NoDomFrom.prim {lc : Lic} (h1 : ¬ lc .dom) (h2 : ¬ lc .relax) (k : Nat) : ∀ x y, Prim lc x y → NoDomFrom k x → NoDomFrom k y := by
  intro x y h hg
  cases h with
  | ctrl h _ _ => intro l hl; exact hg l (by rw [← show y.names = x.names from congrArg Core.names h]; exact hl)
  | addSym syms acros s c m h ha hs hc _ =>
    intro l hl n t hk ht
    cases hl
    rcases Nat.lt_or_ge n syms.length with hn | hn
    · rw [List.getElem?_append_left hn] at ht
      exact hg syms h n t hk ht
    · rw [List.getElem?_append_right hn] at ht
      have : t = s := by
        cases hnn : n - syms.length with
        | zero => rw [hnn] at ht; cases ht; rfl
        | succ j => rw [hnn] at ht; cases ht
      subst this
      exact ⟨hs.zero.2.2.2.2.1, hs.zero.2.2.2.2.2.1⟩
  | modSym syms m s s' h hn hs =>
    intro l hl n t hk ht
    cases hl
    by_cases hmn : m = n
    · subst hmn
      rw [List.getElem?_set_self (List.getElem?_eq_some_iff.mp hn).1] at ht
      cases ht
      have := hg syms h m s hk hn
      cases hs with
      | dom _ _ _ _ _ _ hk => exact absurd hk h1
      | relax _ _ _ hk => exact absurd hk h2
      | _ => exact this
    · rw [List.getElem?_set_ne hmn] at ht
      exact hg syms h n t hk ht
  | _ => exact hg

/-- C26, symbols added by any call: gdxSymbolGetDomainX returns 1 and `*` for every dimension, gdxSymbolGetDomain 0 -/
theorem C26_new (e : Env) (z : Cz) (g g' : Gx) (c : Call) (hc : c.WF) (ho : c.opensRead = false ∧ c.opensWrite = false) (ha : Aft g)
    (hs : ∀ n ids, c ≠ .setDomain ids ∧ c ≠ .setDomainX n ids) (h : step e z g c = .ok g') (n : Int) (h1 : (systemInfo g).1 < n)
    (h2 : n ≤ (systemInfo g').1) :
    symbolGetDomainX g' n = .ok (g', (1, List.replicate (symbolDim g' n).toNat star)) ∧
    symbolGetDomain g' n = .ok (g', some (List.replicate (symbolDim g' n).toNat 0)) := by
  have hcnt : ∀ x : Gx, (systemInfo x).1 = ((x.names.getD []).length : Int) := by
    intro x
    unfold systemInfo
    cases x.names <;> rfl
  rw [hcnt] at h1 h2
  cases hn' : g'.names with
  | none =>
    rw [hn'] at h2
    simp only [Option.getD_none, List.length_nil] at h2
    omega
  | some syms' =>
    rw [hn'] at h2
    simp only [Option.getD_some] at h2
    have hp := NoDomFrom.prim (lc := c.lic) (lic_dom fun ids => (hs 0 ids).1) (lic_relax fun m ids => (hs m ids).2) (g.names.getD []).length
    have h0 : NoDomFrom (g.names.getD []).length g := by
      intro syms hsy k s hk hks
      rw [hsy] at hk
      have := (List.getElem?_eq_some_iff.mp hks).1
      simp only [Option.getD_some] at hk
      omega
    have hnd := (step_inv_l hp (fun _ _ _ _ l hl => by cases hl) (fun _ h => h) e z hc ho.1 ho.2 ha
      (fun m s _ => uelRegisterMap_inv hp (fun _ _ _ _ _ h => h) m s h0) (fun o s _ => renameUEL_inv (fun _ _ _ _ _ h => h) o s h0)
      h0).of_ok h
    obtain ⟨s, hsn⟩ : ∃ s, syms'[(n - 1).toNat]? = some s := ⟨_, List.getElem?_eq_getElem (by omega)⟩
    obtain ⟨d1, d2⟩ := hnd syms' hn' _ s (by omega) hsn
    have hnn : n = ((n - 1).toNat : Int) + 1 := by omega
    have hdim : symbolDim g' n = s.dim := by
      unfold symbolDim
      rw [if_neg (by omega)]
      unfold Gx.symAt
      rw [hn']
      simp only
      rw [if_pos (by omega), hsn]
    rw [hdim]
    constructor
    · conv => lhs; rw [hnn, getDomainX_of hn' hsn]
      unfold domainXOf
      rw [d1, d2]
      rfl
    · conv => lhs; rw [hnn, getDomain_of hn' hsn]
      rw [d1]
      rfl

/-- C26, both kinds for one symbol: relaxed domains given before gdxSymbolSetDomain are still returned by gdxSymbolGetDomainX -/
theorem C26_both (g g' : Gx) (ids : List Str) (b : Bool) (h : symbolSetDomain g ids = .ok (g', b)) (n : Int) (r : List Str)
    (hr : symbolGetDomainX g n = .ok (g, (2, r))) : symbolGetDomainX g' n = .ok (g', (2, r)) := by
  cases hsa : g.symAt n with
  | none =>
    unfold symbolGetDomainX at hr
    obtain ⟨_, _, hr⟩ := Res.bind_eq_ok.mp hr
    rw [hsa] at hr
    injection hr with hr
    injection hr with _ hr
    cases hr
  | some s =>
    obtain ⟨syms, hsy⟩ : ∃ syms, g.names = some syms := by
      unfold Gx.symAt at hsa
      cases hsy : g.names with
      | none => rw [hsy] at hsa; cases hsa
      | some syms => exact ⟨syms, rfl⟩
    unfold Gx.symAt at hsa
    rw [hsy] at hsa
    simp only at hsa
    split at hsa
    case isFalse => cases hsa
    rename_i hrange
    have hnn : n = ((n - 1).toNat : Int) + 1 := by omega
    rw [hnn, getDomainX_of hsy hsa] at hr
    rw [hnn]
    obtain ⟨⟨k, r'⟩, h1, h2⟩ := Res.bind_eq_ok.mp hr
    cases h2
    unfold domainXOf at h1
    cases hds : s.domStrs with
    | none =>
      rw [hds] at h1
      cases hdy : s.domSyms with
      | none => rw [hdy] at h1; cases h1
      | some l =>
        rw [hdy] at h1
        obtain ⟨_, _, h1⟩ := Res.bind_eq_ok.mp h1
        cases h1
    | some ds =>
      rw [hds] at h1
      simp only at h1
      rcases symbolSetDomain_ok h with ⟨h2, h3, _⟩ | ⟨m, syms2, s2, l, g1, ok, st, _, h3, h4, _, _, _, _, h5, h6⟩
      · rw [getDomainX_of (h2.trans hsy) hsa]
        unfold domainXOf
        rw [hds, h3]
        simp only
        rw [h1]
        rfl
      · rw [hsy] at h3
        cases h3
        by_cases hm : m = (n - 1).toNat
        · subst hm
          rw [hsa] at h4
          cases h4
          rw [getDomainX_of h5 (by rw [List.getElem?_set_self (List.getElem?_eq_some_iff.mp hsa).1])]
          unfold domainXOf
          simp only [hds]
          rw [h6, h1]
          rfl
        · rw [getDomainX_of h5 (by rw [List.getElem?_set_ne hm]; exact hsa)]
          unfold domainXOf
          rw [hds, h6]
          simp only
          rw [h1]
          rfl

/-- C26, both kinds for one symbol: gdxSymbolSetDomainX does not change what gdxSymbolGetDomain returns -/
theorem C26_relaxed_only (g g' : Gx) (m : Int) (ids : List Str) (b : Bool) (h : symbolSetDomainX g m ids = .ok (g', b)) (n : Int) (l : List Int)
    (hl : symbolGetDomain g n = .ok (g, some l)) : symbolGetDomain g' n = .ok (g', some l) := by
  unfold symbolSetDomainX at h
  obtain ⟨syms, h1, h⟩ := Res.bind_eq_ok.mp h
  have hsy := need_ok h1
  unfold symbolGetDomain at hl
  obtain ⟨_, _, hl⟩ := Res.bind_eq_ok.mp hl
  cases hsa : g.symAt n with
  | none =>
    rw [hsa] at hl
    injection hl with hl
    injection hl with _ hl
    cases hl
  | some s =>
    rw [hsa] at hl
    cases hl
    unfold Gx.symAt at hsa
    rw [hsy] at hsa
    simp only at hsa
    split at hsa
    case isFalse => cases hsa
    rename_i hrange
    have hnn : n = ((n - 1).toNat : Int) + 1 := by omega
    rw [hnn]
    split at h
    · cases h
      rw [getDomain_of (by exact hsy) hsa]
    · obtain ⟨t, _, h⟩ := Res.bind_eq_ok.mp h
      split at h
      · split at h
        · cases h
        obtain ⟨dl, _, h⟩ := Res.bind_eq_ok.mp h
        cases h
        have hx : ∃ t, (syms.modify (m.toNat - 1) fun s => { s with domStrs := some (relaxAll dl ids).2 })[(n - 1).toNat]? = some t ∧
            t.domSyms = s.domSyms ∧ t.dim = s.dim := by
          rw [List.getElem?_modify, hsa]
          simp only [Option.map_eq_map, Option.map_some]
          split
          · exact ⟨_, rfl, rfl, rfl⟩
          · exact ⟨_, rfl, rfl, rfl⟩
        obtain ⟨t, e1, e2, e3⟩ := hx
        rw [getDomain_of rfl e1, e2, e3]
      · cases h
        rw [getDomain_of hsy hsa]

/-- C26, after closing and opening again, for histories that open only files of the library -/
theorem C26_reopen {e : Env} {z : Cz} (hz : z.Good) {cs : List Call} (hc : ∀ c ∈ cs, c.WF) (hi : OpensOwn z cs) {g g' : Gx} {r : Int}
    (hr : run e z Gx.new cs = .ok g) (hm : g.mode = .wInit) (hcl : gdxClose z g = .ok (g', r)) (hf : FileFits g)
    (hl : (g'.file.length : Int) ≤ 9223372036854775807) {g0 : Gx} (h0 : g0.mode = .notOpen) :
    ∃ g2, openRead z g0 (.content g'.file) = .ok (g2, (true, 0)) ∧
      (∀ n g1 a, symbolGetDomain g n = .ok (g1, a) → ∃ g3, symbolGetDomain g2 n = .ok (g3, a)) ∧
      (∀ n g1 a, symbolGetDomainX g n = .ok (g1, a) → ∃ g3, symbolGetDomainX g2 n = .ok (g3, a)) := by
  obtain ⟨_, g2, h1, _, h2⟩ := C06_own hz hc hi hr hm hcl hf hl h0
  exact ⟨g2, h1, h2.domain, h2.domainX⟩

/-! ### examples and counterexamples -/

/-- sets `i` over `*` and `j` over `i`, a parameter `p(i,j)`, and one with relaxed domains -/
def exDom26 : List Call :=
  [.openWrite false 0 [65] 0, .uelRawStart, .uelRaw [97], .uelDone,
   .rawStart [105] [] 1 0 0, .setDomain [star], .writeRaw [1] [0], .writeDone,
   .rawStart [106] [] 1 0 0, .setDomain [[105]], .writeRaw [1] [0], .writeDone,
   .rawStart [112] [] 2 1 0, .setDomain [[73], [106]], .writeRaw [1, 1] [0], .writeDone,
   .rawStart [113] [] 2 1 0, .setDomainX 4 [[107], star], .writeRaw [1, 1] [0], .writeDone,
   .rawStart [114] [] 2 1 0, .writeRaw [1, 1] [0], .writeDone]

def domAnswer (n : Int) (g : Gx) : Res (Option (List Int) × Int × List Str) := do
  let (_, l) ← symbolGetDomain g n
  let (_, k, r) ← symbolGetDomainX g n
  pure (l, k, r)

def reopened26 {α : Type} (cs : List Call) (f : Gx → Res α) : Res α :=
  after cs fun g => do
    let (g1, _) ← gdxClose Cz.id g
    let (g2, _) ← openRead Cz.id Gx.new (.content g1.file)
    f g2

/-- `p` was declared over `I` and `j`: the symbols 1 and 2, named `i` and `j`; the relaxed domain of `q` is `k` and `*`; `r` has none -/
example : after exDom26 (fun g => do
      let a ← domAnswer 3 g
      let b ← domAnswer 4 g
      let c ← domAnswer 5 g
      pure [a, b, c]) = .ok [(some [1, 2], 3, [[105], [106]]), (some [0, 0], 2, [[107], star]), (some [0, 0], 1, [star, star])] := by decide +kernel

/-- the same after closing and opening again -/
example : reopened26 exDom26 (fun g => do
      let a ← domAnswer 3 g
      let b ← domAnswer 4 g
      let c ← domAnswer 5 g
      pure [a, b, c]) = .ok [(some [1, 2], 3, [[105], [106]]), (some [0, 0], 2, [[107], star]), (some [0, 0], 1, [star, star])] := by decide +kernel

/-- C26 does not hold to the letter. Relaxed domains: of names that differ only in case the first is returned for all; what is not an
    identifier comes back as `*`. -/
theorem C26_spelling : after [.openWrite false 0 [65] 0, .uelRawStart, .uelRaw [97], .uelDone,
      .rawStart [112] [] 1 1 0, .setDomainX 1 [[75]], .writeRaw [1] [0], .writeDone,
      .rawStart [113] [] 2 1 0, .setDomainX 2 [[107], [49, 50]], .writeRaw [1, 1] [0], .writeDone]
    (domAnswer 2) = .ok (some [0, 0], 2, [[75], star]) := by decide +kernel

/-- C26 does not hold to the letter: a name refused by gdxSymbolSetDomain is returned as `*` -/
theorem C26_refused : after [.openWrite false 0 [65] 0, .uelRawStart, .uelRaw [97], .uelDone,
      .rawStart [112] [] 1 1 0, .setDomain [[120]]]
    (domAnswer 1) = .ok (some [0], 3, [star]) := by decide +kernel

/-- C26 does not hold to the letter: a symbol of dimension 0 accepts gdxSymbolSetDomainX but keeps answering 1 -/
theorem C26_scalar : after [.openWrite false 0 [65] 0, .rawStart [112] [] 0 1 0, .setDomainX 1 []]
    (domAnswer 1) = .ok (some [], 1, []) := by decide +kernel

#print axioms C26_relaxed
#print axioms C26_real
#print axioms C26_stable
#print axioms C26_new
#print axioms C26_both
#print axioms C26_relaxed_only
#print axioms C26_reopen
#print axioms C26_spelling

end Gdx.Props
