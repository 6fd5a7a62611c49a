import Verif.Proofs.UelInv
import Verif.Proofs.EvoWrite

/-!
The keys of records that are collected for sorting: numbers of the user, and strings.
-/

namespace Gdx

/-- the key is within the bounds -/
def InB (bs : List (Int × Int)) (key : List Int) : Prop := List.Forall₂ (fun b k => b.1 ≤ k ∧ k ≤ b.2) bs key

/-- bounds became wider -/
def Wider (bs bs' : List (Int × Int)) : Prop := List.Forall₂ (fun b b' => b'.1 ≤ b.1 ∧ b.2 ≤ b'.2) bs bs'

theorem Wider.refl (bs : List (Int × Int)) : Wider bs bs := List.forall₂_same.mpr fun _ _ => ⟨le_refl _, le_refl _⟩

theorem InB.wider {bs bs' : List (Int × Int)} {key : List Int} (h : InB bs key) (hw : Wider bs bs') : InB bs' key := by
  unfold InB Wider at *
  induction hw generalizing key with
  | nil => exact h
  | cons h1 _ ih =>
    cases h with
    | cons h2 h3 => exact .cons ⟨h1.1.trans h2.1, h2.2.trans h1.2⟩ (ih h3)

/-- bounds as they are in a table with `n` elements -/
def BndOk (n : Nat) (b : Int × Int) : Prop := 0 ≤ b.1 ∧ b.1 ≤ intMax ∧ 0 ≤ b.2 ∧ b.2 ≤ n

theorem BndOk.mono {n n' : Nat} {b : Int × Int} (h : BndOk n b) (hn : n ≤ n') : BndOk n' b := by
  unfold BndOk at *
  omega

theorem widen_spec {n : Nat} {b : Int × Int} (h : BndOk n b) {k : Int} (h1 : 1 ≤ k) (h2 : k ≤ n) :
    BndOk n (widen b k) ∧ (widen b k).1 ≤ b.1 ∧ b.2 ≤ (widen b k).2 ∧ (widen b k).1 ≤ k ∧ k ≤ (widen b k).2 := by
  unfold BndOk at *
  unfold widen
  dsimp only
  split <;> split <;> omega

/-- the numbers of the user -/
theorem mapKey_spec {u : Uel} (hu : ∀ k, u.usr.get k = -1 ∨ (1 ≤ u.usr.get k ∧ u.usr.get k ≤ u.ents.length)) :
    ∀ (key : List Int) (bs : List (Int × Int)), bs.length = key.length → (∀ b ∈ bs, BndOk u.ents.length b) →
    Wider bs (mapKey u key bs).1 ∧ (∀ b ∈ (mapKey u key bs).1, BndOk u.ents.length b) ∧
    (∀ ks, (mapKey u key bs).2 = some ks → ks = key.map u.usr.get ∧ InB (mapKey u key bs).1 ks ∧ ∀ k ∈ ks, 1 ≤ k ∧ k ≤ u.ents.length) ∧
    ((mapKey u key bs).2 = none ↔ ∃ k ∈ key, u.usr.get k = -1) := by
  intro key
  induction key with
  | nil =>
    intro bs hl hb
    cases bs with
    | nil => exact ⟨.nil, hb, fun ks h => by cases h; exact ⟨rfl, .nil, by simp⟩, by simp [mapKey]⟩
    | cons b bs => cases hl
  | cons k key ih =>
    intro bs hl hb
    cases bs with
    | nil => cases hl
    | cons b bs =>
      rw [mapKey]
      rcases hu k with h | ⟨h1, h2⟩
      · rw [if_pos (by omega)]
        exact ⟨Wider.refl _, hb, by simp, fun _ => ⟨k, by simp, h⟩, fun _ => rfl⟩
      · rw [if_neg (by omega)]
        obtain ⟨i1, i2, i3, i4⟩ := ih bs (by simpa using hl) (fun x hx => hb x (by simp [hx]))
        obtain ⟨w1, w2, w3, w4, w5⟩ := widen_spec (hb b (by simp)) h1 h2
        simp only [List.take_succ_cons, List.take_zero, List.map_cons, List.map_nil, List.tail_cons, List.singleton_append]
        refine ⟨.cons ⟨w2, w3⟩ i1, ?_, ?_, ?_⟩
        · intro x hx
          rcases List.mem_cons.mp hx with rfl | hx
          · exact w1
          · exact i2 x hx
        · intro ks hk
          obtain ⟨ks', e1, rfl⟩ := Option.map_eq_some_iff.mp hk
          obtain ⟨j1, j2, j3⟩ := i3 ks' e1
          refine ⟨by rw [j1], .cons ⟨w4, w5⟩ j2, ?_⟩
          intro x hx
          rcases List.mem_cons.mp hx with rfl | hx
          · exact ⟨h1, h2⟩
          · exact j3 x hx
        · rw [Option.map_eq_none_iff, i4]
          constructor
          · rintro ⟨x, hx, e⟩
            exact ⟨x, by simp [hx], e⟩
          · rintro ⟨x, hx, e⟩
            rcases List.mem_cons.mp hx with rfl | hx
            · omega
            · exact ⟨x, hx, e⟩

/-! ### strings -/

theorem UelEvo.keep {lc : Lic} {a b : Uel} (h : UelEvo lc a b) : KeepStrs a b := by
  induction h with
  | refl => exact ⟨[], (List.append_nil _).symm⟩
  | snoc _ h2 ih => exact ih.trans h2.keep

theorem UelEvo.good {lc : Lic} {a b : Uel} (h : UelEvo lc a b) (hg : UelGood a) : UelGood b := by
  induction h with
  | refl => exact hg
  | snoc _ h2 ih => exact h2.good ih

/-- a string that is found keeps its number -/
theorem indexOf_keep {u u' : Uel} (hg : UelGood u') (hk : KeepStrs u u') {s : Str} (h : 1 ≤ u.indexOf s) : u'.indexOf s = u.indexOf s := by
  unfold Uel.indexOf at *
  rcases indexOf1_cases false s u.strs with ⟨_, h2⟩ | ⟨j, h1, h2⟩
  · omega
  · obtain ⟨x, h3, h4⟩ := lookup_some h1
    obtain ⟨t, ht⟩ := hk
    have h5 : u'.strs[j]? = some x := by
      rw [ht, List.getElem?_append_left (List.getElem?_eq_some_iff.mp h3).1]
      exact h3
    rw [h2]
    unfold indexOf1
    rw [hg.distinct.lookup h5 h4]

theorem indexOf_range (u : Uel) (s : Str) : u.indexOf s = -1 ∨ (1 ≤ u.indexOf s ∧ u.indexOf s ≤ u.ents.length) := by
  unfold Uel.indexOf
  rcases indexOf1_cases false s u.strs with ⟨_, h2⟩ | ⟨j, h1, h2⟩
  · exact Or.inl h2
  · obtain ⟨x, h3, _⟩ := lookup_some h1
    have := (List.getElem?_eq_some_iff.mp h3).1
    simp [Uel.strs] at this
    refine Or.inr ?_
    rw [h2]
    omega

theorem lookup_snoc (t : Str) : ∀ l : List Str, lookup false t (l ++ [t]) = some l.length
  | [] => by
    have := (sameText_iff false t t).mpr (sameName_refl false t)
    simp [lookup, this]
  | a :: l => by rw [List.cons_append, lookup, lookup_snoc t l]; simp

/-- a new element -/
theorem addObject_new {u : Uel} {s : Str} (h : u.indexOf s = -1) :
    (u.addObject s) = ({ u with ents := u.ents ++ [(s, -1)] }, u.ents.length + 1) ∧
    ({ u with ents := u.ents ++ [(s, -1)] } : Uel).indexOf s = u.ents.length + 1 ∧ lookup false s u.strs = none := by
  have h0 : lookup false s u.strs = none := by
    unfold Uel.indexOf at h
    rcases indexOf1_cases false s u.strs with ⟨h1, _⟩ | ⟨j, h1, h2⟩
    · exact h1
    · omega
  refine ⟨?_, ?_, h0⟩
  · unfold Uel.addObject
    rw [h0]
  · unfold Uel.indexOf indexOf1 Uel.strs
    rw [show ({ u with ents := u.ents ++ [(s, (-1 : Int))] } : Uel).ents.map Prod.fst = u.ents.map Prod.fst ++ [s] by simp, lookup_snoc]
    simp

/-- what is remembered about an index position is right -/
structure PosOk (u : Uel) (p : StrPos) : Prop where
  idx : ∀ s, p.cache = some s → p.last = u.indexOf s ∧ 1 ≤ p.last ∧ p.bnd.1 ≤ p.last ∧ p.last ≤ p.bnd.2
  bnd : BndOk u.ents.length p.bnd

theorem PosOk.keep {u u' : Uel} {p : StrPos} (h : PosOk u p) (hg : UelGood u') (hk : KeepStrs u u') (hl : u.ents.length ≤ u'.ents.length) : PosOk u' p where
  idx := by
    intro s hs
    obtain ⟨h1, h2, h3⟩ := h.idx s hs
    exact ⟨by rw [indexOf_keep hg hk (by omega)]; exact h1, h2, h3⟩
  bnd := h.bnd.mono hl

theorem KeepStrs.length {u u' : Uel} (h : KeepStrs u u') : u.ents.length ≤ u'.ents.length := by
  obtain ⟨t, h⟩ := h
  have := congrArg List.length h
  simp [Uel.strs] at this
  omega

/-- the string is the element with this number -/
def ElemIs (u : Uel) (k : Str) (n : Int) : Prop := u.indexOf (trimRight k) = n ∧ 1 ≤ n ∧ n ≤ u.ents.length

theorem goodUEL_len {s : Str} (h : goodUEL s = true) : s.length < 64 := by
  unfold goodUEL at h
  simp only [Bool.and_eq_true, decide_eq_true_eq] at h
  exact h.1

theorem strPos_spec {u : Uel} (hg : UelGood u) {p : StrPos} (hp : PosOk u p) {s : Str} (ht : trimRight s = s) :
    (strPos u p s = none ∧ u.indexOf s = -1 ∧ goodUEL s = false) ∨
    ∃ u' p', strPos u p s = some (u', p') ∧ UelEvo (fun _ => True) u u' ∧ PosOk u' p' ∧ p'.last = u'.indexOf s ∧ 1 ≤ p'.last ∧ p'.last ≤ u'.ents.length ∧
      p'.bnd.1 ≤ p'.last ∧ p'.last ≤ p'.bnd.2 ∧ p'.bnd.1 ≤ p.bnd.1 ∧ p.bnd.2 ≤ p'.bnd.2 := by
  unfold strPos
  by_cases hc : p.cache = some s
  · rw [if_pos hc]
    obtain ⟨h1, h2, h3, h4⟩ := hp.idx s hc
    refine Or.inr ⟨u, p, rfl, .refl u, hp, h1, h2, ?_, h3, h4, le_refl _, le_refl _⟩
    rcases indexOf_range u s with h | h
    · omega
    · rw [h1]; exact h.2
  · rw [if_neg hc]
    dsimp only
    by_cases hi : u.indexOf s = -1
    · rw [if_pos hi]
      by_cases hgd : goodUEL s = true
      · rw [if_pos hgd]
        obtain ⟨a1, a2, a3⟩ := addObject_new hi
        rw [a1]
        dsimp only
        rw [if_pos (goodUEL_len hgd)]
        have he : UelEvo (fun _ => True) u { u with ents := u.ents ++ [(s, -1)] } := .snoc (.refl u) (.add u s hgd ht a3 (Or.inr trivial))
        have hl : ({ u with ents := u.ents ++ [(s, -1)] } : Uel).ents.length = u.ents.length + 1 := by simp
        have hb : BndOk (u.ents.length + 1) p.bnd := hp.bnd.mono (by omega)
        obtain ⟨w1, w2, w3, w4, w5⟩ := widen_spec hb (k := (u.ents.length : Int) + 1) (by omega) (by push_cast; omega)
        refine Or.inr ⟨_, _, rfl, he, ⟨?_, ?_⟩, a2.symm, ?_, ?_, w4, w5, w2, w3⟩
        · rintro t ⟨⟩
          exact ⟨a2.symm, by dsimp only; omega, w4, w5⟩
        · rw [hl]; exact w1
        · dsimp only; omega
        · rw [hl]
      · rw [if_neg hgd]
        exact Or.inl ⟨rfl, hi, by simpa using hgd⟩
    · rw [if_neg hi]
      rcases indexOf_range u s with h | ⟨h1, h2⟩
      · exact absurd h hi
      obtain ⟨w1, w2, w3, w4, w5⟩ := widen_spec hp.bnd h1 h2
      have hlen : s.length < 64 := by
        unfold Uel.indexOf at h1
        rcases indexOf1_cases false s u.strs with ⟨_, h4⟩ | ⟨j, h4, h5⟩
        · omega
        · obtain ⟨x, h6, h7⟩ := lookup_some h4
          have := goodUEL_len (hg.good x (List.mem_of_getElem? h6)).1
          have he : x.length = s.length := by
            have := congrArg List.length (show x.map Spec.lower = s.map Spec.lower from h7)
            simpa using this
          omega
      rw [if_pos hlen]
      refine Or.inr ⟨_, _, rfl, .refl u, ⟨?_, w1⟩, rfl, h1, h2, w4, w5, w2, w3⟩
      rintro t ⟨⟩
      exact ⟨rfl, h1, w4, w5⟩

/-- the numbers of the strings of a record -/
theorem strKey_spec : ∀ (ps : List StrPos) (ks : List Str) (u : Uel), ps.length = ks.length → UelGood u → (∀ p ∈ ps, PosOk u p) →
    ∀ u' ps' ok, strKey u ps ks = .ok (u', ps', ok) → UelEvo (fun _ => True) u u' ∧ ps'.length = ps.length ∧ (∀ p ∈ ps', PosOk u' p) ∧
      Wider (ps.map StrPos.bnd) (ps'.map StrPos.bnd) ∧
      (ok = true → List.Forall₂ (ElemIs u') ks (ps'.map StrPos.last) ∧ InB (ps'.map StrPos.bnd) (ps'.map StrPos.last)) ∧
      (ok = false → ∃ k ∈ ks, u'.indexOf (trimRight k) = -1 ∧ goodUEL (trimRight k) = false) := by
  intro ps
  induction ps with
  | nil =>
    intro ks u hl _ _ u' ps' ok h
    cases ks with
    | nil =>
      cases h
      exact ⟨.refl _, rfl, by simp, .nil, fun _ => ⟨.nil, .nil⟩, by simp⟩
    | cons => cases hl
  | cons p ps ih =>
    intro ks u hl hg hp u' ps' ok h
    cases ks with
    | nil => cases hl
    | cons k ks =>
      rw [strKey] at h
      obtain ⟨s, hs, h⟩ := Res.bind_eq_ok.mp h
      have hse := trimR_ok hs
      rcases strPos_spec hg (hp p (by simp)) (trimR_trimmed hs) with ⟨e, e1, e2⟩ | ⟨u1, p1, e, e1, e2, e3, e4, e5, e6, e7, e8, e9⟩
      · rw [e] at h
        cases h
        refine ⟨.refl _, rfl, hp, Wider.refl _, by simp, fun _ => ⟨k, by simp, ?_⟩⟩
        rw [← hse]
        exact ⟨e1, e2⟩
      · rw [e] at h
        dsimp only at h
        obtain ⟨⟨u2, ps2, ok2⟩, h2, h⟩ := Res.bind_eq_ok.mp h
        cases h
        have g1 : UelGood u1 := e1.good hg
        obtain ⟨i1, i2, i3, i4, i5, i6⟩ := ih ks u1 (by simpa using hl) g1
          (fun q hq => (hp q (by simp [hq])).keep g1 e1.keep e1.keep.length) _ _ _ h2
        have g2 := i1.good g1
        refine ⟨e1.trans i1, by simp [i2], ?_, .cons ⟨e8, e9⟩ i4, ?_, ?_⟩
        · intro q hq
          rcases List.mem_cons.mp hq with rfl | hq
          · exact e2.keep g2 i1.keep i1.keep.length
          · exact i3 q hq
        · intro hok
          obtain ⟨j1, j2⟩ := i5 hok
          refine ⟨.cons ⟨?_, e4, ?_⟩ j1, .cons ⟨e6, e7⟩ j2⟩
          · rw [← hse, indexOf_keep g2 i1.keep (by omega)]
            exact e3.symm
          · have hh := i1.keep.length
            exact e5.trans (by exact_mod_cast hh)
        · intro hok
          obtain ⟨x, hx, j⟩ := i6 hok
          exact ⟨x, by simp [hx], j⟩

end Gdx
