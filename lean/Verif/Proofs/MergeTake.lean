import Verif.Proofs.MergeReg
import Verif.Proofs.Trace
import Verif.Proofs.ReadFix

/-! gdxmerge: the records of one symbol of an input file are taken over. -/

namespace Gdx.Merge
open Gdx Gdx.Spec

theorem _root_.Gdx.Props.StaysIn.refl {e : Env} {z : Cz} (a : Gx) : Props.StaysIn e z a a := ⟨[], by simp, rfl⟩

/-! ### reading as strings -/

theorem dataReadStr_some {g g1 : Gx} {r : RecOut Str} (h : dataReadStr g = .ok (g1, some r)) : RdStep g g1 ∧ g1.left < g.left := by
  unfold dataReadStr at h
  rcases chk_cases g [.rStr] with ⟨_, hc⟩ | ⟨_, hc⟩
  · simp only [hc, Bool.true_eq_false, if_false] at h
    obtain ⟨⟨g2, o⟩, h1, h⟩ := Res.bind_eq_ok.mp h
    have hs := (doRead_step g).of_ok h1
    dsimp only at h
    cases o with
    | none =>
      obtain ⟨x, _, h⟩ := Res.bind_eq_ok.mp h
      cases h
    | some o =>
      obtain ⟨x, _, h⟩ := Res.bind_eq_ok.mp h
      cases h
      exact ⟨hs.1, hs.2 (by simp)⟩
  · simp only [hc, if_true] at h
    cases h

theorem dataReadStr_none {g g1 : Gx} (hn : g.nrMapped = 0) (hm : g.mode = .rStr) (h : dataReadStr g = .ok (g1, none)) :
    g1.nrMapped = 0 ∧ g1.mode = .rInit := by
  unfold dataReadStr at h
  rcases chk_cases g [.rStr] with ⟨_, hc⟩ | ⟨hc, _⟩
  · simp only [hc, Bool.true_eq_false, if_false] at h
    obtain ⟨⟨g2, o⟩, h1, h⟩ := Res.bind_eq_ok.mp h
    have hs := (doRead_step g).of_ok h1
    dsimp only at h
    cases o with
    | none =>
      obtain ⟨⟨x, b⟩, hx, h⟩ := Res.bind_eq_ok.mp h
      cases h
      have n2 : g2.nrMapped = 0 := by
        have := hs.1.nrMapped
        dsimp only at this
        rw [this, hn]
      rw [dataReadDone_plain (by rw [hs.1.mode, hm]; decide) n2] at hx
      cases hx
      exact ⟨n2, rfl⟩
    | some o =>
      obtain ⟨x, _, h⟩ := Res.bind_eq_ok.mp h
      cases h
  · exact absurd (by simp [hm]) hc

theorem _root_.Gdx.DeliversStr.len {g g' : Gx} {rs : List (RecOut Str)} (h : DeliversStr g rs g') : rs.length ≤ g.left := by
  induction h with
  | done h => exact Nat.zero_le _
  | next h _ ih =>
    have := (dataReadStr_some h).2
    simp only [List.length_cons]
    omega

/-! ### the records -/

/-- the text of an element of a set whose value is `v`: number 0 stands for no text -/
def HasText (g : Gx) (v : Dbl) (t : Str) : Prop :=
  ∃ n : Int, 0 ≤ n ∧ n < 2147483648 ∧ v = intDbl n ∧ t = if n = 0 then [] else (getElemText g n).2.1

theorem HasText.congr {g g' : Gx} {v : Dbl} {t : Str} (h : HasText g v t) (e : g'.texts = g.texts) : HasText g' v t := by
  obtain ⟨n, h1, h2, h3, h4⟩ := h
  refine ⟨n, h1, h2, h3, ?_⟩
  unfold getElemText at h4 ⊢
  rw [e]
  exact h4

/-- the values of a record that was taken over: for a set, the number of its text in the list of texts -/
def TakenVals (pool : List Str) (g : Gx) (typ : Nat) (v w : List Dbl) : Prop :=
  if typ = dtSet then ∃ d t n, v = [d] ∧ HasText g d t ∧ w = [intDbl n] ∧ 0 ≤ n ∧ n < 2147483648 ∧ pool[n.toNat]? = some t else w = v

/-- a record that was taken over -/
structure Taken (L pool : List Str) (g : Gx) (typ : Nat) (id : Str) (r : RecOut Str) (x : MRec) : Prop where
  key : List.Forall₂ (Label L) x.1 (id :: r.key)
  vals : TakenVals pool g typ r.vals x.2

theorem TakenVals.mono {P P' : List Str} {g g' : Gx} {typ : Nat} {v w : List Dbl} (h : TakenVals P g typ v w) (hp : P <+: P') (hg : g'.texts = g.texts) :
    TakenVals P' g' typ v w := by
  unfold TakenVals at h ⊢
  split
  · rename_i hs
    rw [if_pos hs] at h
    obtain ⟨d, t, n, h1, h2, h3, h4, h5, h6⟩ := h
    refine ⟨d, t, n, h1, h2.congr hg, h3, h4, h5, ?_⟩
    obtain ⟨q, rfl⟩ := hp
    rw [List.getElem?_append_left (List.getElem?_eq_some_iff.mp h6).1]
    exact h6
  · rename_i hs
    rw [if_neg hs] at h
    exact h

theorem Taken.mono {L L' P P' : List Str} {g g' : Gx} {typ : Nat} {id : Str} {r : RecOut Str} {x : MRec} (h : Taken L P g typ id r x)
    (hl : L <+: L') (hp : P <+: P') (hg : g'.texts = g.texts) : Taken L' P' g' typ id r x :=
  ⟨h.key.imp fun _ _ h => h.mono hl, h.vals.mono hp hg⟩

/-- the first changed positions, for keys of length `dim` after the key `k` -/
def Firsts (dim : Nat) : List Str → List (RecOut Str) → Prop
  | _, [] => True
  | k, r :: rs => r.key.length = dim ∧ (dim = 0 ∨ 1 ≤ r.frst ∧ r.frst ≤ dim ∧ r.frst ≤ k.length + 1 ∧ k.take (r.frst - 1) = r.key.take (r.frst - 1)) ∧
      Firsts dim r.key rs

/-- the values of a record of type `typ`: as many as the type has, for a set the number of a text out of `X` -/
def ValsOk (X : List Str) (g : Gx) (typ : Nat) (v : List Dbl) : Prop :=
  typSize typ = .ok v.length ∧ (typ = dtSet → ∃ d t, v = [d] ∧ HasText g d t ∧ t ∈ X)

/-- the list of texts -/
structure Texts (X P : List Str) : Prop where
  nodup : P.Nodup
  sub : ∀ t ∈ P, t ∈ X
  fst : P[0]? = some []

theorem Texts.size {X P : List Str} (h : Texts X P) : P.length ≤ X.length := (h.nodup.subperm h.sub).length_le

theorem poolAdd_ok {X P : List Str} (h : Texts X P) {t : Str} (ht : t ∈ X) :
    P <+: (poolAdd P t).1 ∧ (poolAdd P t).1[(poolAdd P t).2]? = some t ∧ Texts X (poolAdd P t).1 := by
  unfold poolAdd
  cases hf : P.findIdx? (· == t) with
  | some n =>
    rw [List.findIdx?_eq_some_iff_getElem] at hf
    obtain ⟨h1, h2, _⟩ := hf
    refine ⟨List.prefix_refl _, ?_, h⟩
    dsimp only
    rw [List.getElem?_eq_getElem h1]
    simpa using h2
  | none =>
    rw [List.findIdx?_eq_none_iff] at hf
    refine ⟨⟨[t], rfl⟩, by simp, ?_, ?_, ?_⟩
    · refine List.nodup_append.mpr ⟨h.nodup, List.nodup_singleton t, ?_⟩
      intro a ha b hb hab
      rw [List.mem_singleton] at hb
      subst hab hb
      have := hf a ha
      simp at this
    · intro x hx
      rcases List.mem_append.mp hx with hx | hx
      · exact h.sub x hx
      · rw [List.mem_singleton] at hx
        subst hx
        exact ht
    · have := (List.getElem?_eq_some_iff.mp h.fst).1
      rw [List.getElem?_append_left this]
      exact h.fst

/-- the arrays after a record with key `k` -/
structure Arr (L : List Str) (id : Str) (k : List Str) (b : Bufs) : Prop where
  nidx : b.idx.length = 20
  nval : b.vals.length = 5
  key : List.Forall₂ (Label L) (b.idx.take (k.length + 1)) (id :: k)

theorem Arr.mono {L L' : List Str} {id : Str} {k : List Str} {b : Bufs} (h : Arr L id k b) (hl : L <+: L') : Arr L' id k b :=
  ⟨h.nidx, h.nval, h.key.imp fun _ _ h => h.mono hl⟩

theorem typSize_le {t n : Nat} (h : typSize t = .ok n) : n ≤ 5 := by
  unfold typSize at h
  match t with
  | 0 => cases h; omega
  | 1 => cases h; omega
  | 2 => cases h; omega
  | 3 => cases h; omega
  | 4 => cases h; omega
  | _ + 5 => cases h

theorem setIndex_ok (e : Env) (z : Cz) {A : List Str} {b : Gx} (hm : b.mode = .strElem) (hA : A.length < 2147483647) {u : Uel} (hu : Labels A u)
    {dim : Nat} (hd : 0 < dim) (hd2 : dim < 20) {id : Str} {k key : List Str} {frst : Nat} {w : Bufs} (hw : Arr u.strs id k w) (hst : w.strs.take dim = key)
    (hk : key.length = dim) (hf : 1 ≤ frst ∧ frst ≤ dim ∧ frst ≤ k.length + 1 ∧ k.take (frst - 1) = key.take (frst - 1))
    (hg : ∀ s ∈ key, GoodLabel s ∧ s ∈ A) :
    ∃ u' idx, setIndex { b with uel := some u } w frst dim = .ok ({ b with uel := some u' }, { w with idx := idx }) ∧ Labels A u' ∧
      u.strs <+: u'.strs ∧ idx.length = 20 ∧ List.Forall₂ (Label u'.strs) (idx.take (dim + 1)) (id :: key) ∧
      Props.StaysIn e z { b with uel := some u } { b with uel := some u' } := by
  obtain ⟨f1, f2, f3, f4⟩ := hf
  obtain ⟨u', ns, a1, a2, a3, a4, a5⟩ := addUELs_ok e z hm hA (key.drop (frst - 1)) hu fun s hs => hg s (List.mem_of_mem_drop hs)
  have hl := a4.length_eq
  rw [List.length_drop, hk] at hl
  refine ⟨u', w.idx.take frst ++ ns ++ w.idx.drop (frst + ns.length), ?_, a2, a3, ?_, ?_, a5⟩
  · unfold setIndex
    rw [if_neg (by omega), if_neg (by omega), hst, a1]
    rfl
  · have := hw.nidx
    simp only [List.length_append, List.length_take, List.length_drop]
    omega
  · have e1 : (w.idx.take frst ++ ns ++ w.idx.drop (frst + ns.length)).take (dim + 1) = w.idx.take frst ++ ns := by
      refine List.take_left' ?_
      have := hw.nidx
      simp only [List.length_append, List.length_take]
      omega
    rw [e1]
    have e2 : id :: key = (id :: key.take (frst - 1)) ++ key.drop (frst - 1) := by
      rw [List.cons_append, List.take_append_drop]
    rw [e2]
    refine List.rel_append ?_ a4
    rw [← f4]
    have h1 := (List.forall₂_take frst hw.key)
    rw [List.take_take, Nat.min_eq_left f3] at h1
    rw [show frst = (frst - 1) + 1 by omega, List.take_succ_cons] at h1
    rw [show frst = (frst - 1) + 1 by omega]
    exact h1.imp fun _ _ h => h.mono a3

theorem overwrite_len {α : Type} {old new : List α} (h : new.length ≤ old.length) : (overwrite old new).length = old.length := by
  unfold overwrite
  simp
  omega

theorem overwrite_take {α : Type} {old new : List α} {n : Nat} (h : new.length = n) : (overwrite old new).take n = new := by
  unfold overwrite
  exact List.take_left' h

theorem poolText_ok {X P : List Str} (hX : X.length < 2147483648) (h : Texts X P) {g : Gx} {typ : Nat} {v old : List Dbl} (hv : ValsOk X g typ v) (ho : old.length = 5) :
    ∃ P' w, poolText g typ P (overwrite old v) = .ok (P', w) ∧ w.length = 5 ∧ Texts X P' ∧ P <+: P' ∧ TakenVals P' g typ v (w.take v.length) := by
  obtain ⟨hv1, hv2⟩ := hv
  have hn := typSize_le hv1
  by_cases ht : typ = dtSet
  · obtain ⟨d, t, rfl, hd, hX2⟩ := hv2 ht
    obtain ⟨n, n1, n2, rfl, rfl⟩ := hd
    have hz := nonZero_intDbl n1 n2
    have hlen : (overwrite old [intDbl n]).length = 5 := by rw [overwrite_len (by simp [ho]), ho]
    unfold poolText
    rw [show (overwrite old [intDbl n]).head? = some (intDbl n) from rfl]
    simp only [need, Res.bind_ok]
    by_cases h0 : n = 0
    · subst h0
      rw [if_neg (by rw [hz]; simp)]
      refine ⟨P, overwrite old [intDbl 0], rfl, hlen, h, List.prefix_refl _, ?_⟩
      rw [overwrite_take rfl]
      unfold TakenVals
      rw [if_pos ht]
      exact ⟨_, [], 0, rfl, ⟨0, by omega, by omega, rfl, by simp⟩, rfl, by omega, by omega, h.fst⟩
    · rw [if_pos ⟨ht, by rw [hz]; simpa using h0⟩]
      rw [if_neg h0] at hX2
      obtain ⟨p1, p2, p3⟩ := poolAdd_ok h hX2
      have hlt := (List.getElem?_eq_some_iff.mp p2).1
      have := p3.size
      rw [roundInt_intDbl n1 n2]
      simp only [Res.bind_ok, Res.pure_eq]
      refine ⟨_, _, rfl, ?_, p3, p1, ?_⟩
      · simp only [List.length_cons, List.length_drop, hlen]
      · unfold TakenVals
        rw [if_pos ht]
        refine ⟨_, _, ((poolAdd P (getElemText g n).2.1).2 : Int), rfl, ⟨n, n1, n2, rfl, rfl⟩, by simp, by omega, by omega, ?_⟩
        rw [if_neg h0]
        simpa using p2
  · obtain ⟨x, xs, hx⟩ : ∃ x xs, overwrite old v = x :: xs := by
      have : (overwrite old v).length = 5 := by rw [overwrite_len (by rw [ho]; exact hn), ho]
      cases hc : overwrite old v with
      | nil => rw [hc] at this; cases this
      | cons x xs => exact ⟨x, xs, rfl⟩
    refine ⟨P, overwrite old v, ?_, by rw [overwrite_len (by rw [ho]; exact hn), ho], h, List.prefix_refl _, ?_⟩
    · unfold poolText
      rw [hx]
      simp only [List.head?_cons, need, Res.bind_ok]
      rw [if_neg (by simp [ht])]
      rfl
    · rw [overwrite_take rfl]
      unfold TakenVals
      rw [if_neg ht]

/-- the position up to which the labels of a record are registered -/
def lastPos (dim : Nat) : Option Nat := if 0 < dim then some dim else none

theorem takeRec_ok (e : Env) (z : Cz) {A X : List Str} {b : Gx} (hm : b.mode = .strElem) (hA : A.length < 2147483647) (hX : X.length < 2147483648)
    {u : Uel} (hu : Labels A u) {P : List Str} (hp : Texts X P) {y : MSym} {dim typ : Nat} (hd : dim < 20) (hy : y.dim = dim + 1) (ht : y.typ = typ)
    {id : Str} {k : List Str} {w : Bufs} (hw : Arr u.strs id k w) {r : RecOut Str} {rs : List (RecOut Str)} (hf : Firsts dim k (r :: rs))
    {g : Gx} (hv : ValsOk X g typ r.vals) (hg : ∀ s ∈ r.key, GoodLabel s ∧ s ∈ A) :
    ∃ u' P' w' x, takeRec g y typ (lastPos dim) { b with uel := some u } P w r = .ok ({ b with uel := some u' }, P', w', x) ∧ Labels A u' ∧
      u.strs <+: u'.strs ∧ Texts X P' ∧ P <+: P' ∧ Arr u'.strs id r.key w' ∧ Taken u'.strs P' g typ id r x ∧
      Props.StaysIn e z { b with uel := some u } { b with uel := some u' } := by
  obtain ⟨f1, f2, _⟩ := hf
  obtain ⟨P', v', p1, p2, p3, p4, p5⟩ := poolText_ok hX hp hv hw.nval
  have hrec : ∀ (ss : List Str) (ix : List Int), record y ⟨ss, ix, v'⟩ = .ok (ix.take (dim + 1), v'.take r.vals.length) := by
    intro ss ix
    unfold record
    rw [ht, hv.1]
    simp only [Res.bind_ok]
    rw [if_neg (by omega), hy]
    rfl
  by_cases h0 : dim = 0
  · subst h0
    have hk0 : r.key = [] := List.length_eq_zero_iff.mp f1
    have hkey : List.Forall₂ (Label u.strs) (w.idx.take 1) (id :: r.key) := by
      have := List.forall₂_take 1 hw.key
      rw [List.take_take, Nat.min_eq_left (by omega)] at this
      rw [hk0]
      exact this
    refine ⟨u, P', { w with strs := overwrite w.strs r.key, vals := v' }, (w.idx.take 1, v'.take r.vals.length), ?_, hu, List.prefix_refl _, p3, p4, ?_, ?_, .refl _⟩
    · unfold takeRec lastPos
      rw [if_neg (by omega)]
      simp only [Res.bind_ok, p1, hrec]
      rfl
    · exact ⟨hw.nidx, p2, by rw [hk0] at hkey ⊢; exact hkey⟩
    · exact ⟨hkey, p5⟩
  · obtain ⟨u', idx, a1, a2, a3, a4, a5, a6⟩ := setIndex_ok e z hm hA hu (dim := dim) (by omega) hd (id := id) (k := k) (key := r.key) (frst := r.frst)
      (w := { w with strs := overwrite w.strs r.key, vals := overwrite w.vals r.vals })
      ⟨hw.nidx, by rw [overwrite_len (by rw [hw.nval]; exact typSize_le hv.1)]; exact hw.nval, hw.key⟩ (overwrite_take f1) f1
      (f2.resolve_left h0) hg
    refine ⟨u', P', { strs := overwrite w.strs r.key, idx := idx, vals := v' }, (idx.take (dim + 1), v'.take r.vals.length), ?_, a2, a3, p3, p4, ?_, ?_, a6⟩
    · unfold takeRec lastPos
      rw [if_pos (by omega)]
      simp only [a1, Res.bind_ok, p1, hrec]
      rfl
    · exact ⟨a4, p2, by rw [f1]; exact a5⟩
    · exact ⟨a5, p5⟩

/-- the records of a symbol that were taken over -/
def AllTaken (L P : List Str) (g : Gx) (typ : Nat) (id : Str) (rs : List (RecOut Str)) (xs : List MRec) : Prop := List.Forall₂ (Taken L P g typ id) rs xs

theorem AllTaken.mono {L L' P P' : List Str} {g g' : Gx} {typ : Nat} {id : Str} {rs : List (RecOut Str)} {xs : List MRec} (h : AllTaken L P g typ id rs xs)
    (hl : L <+: L') (hp : P <+: P') (hg : g'.texts = g.texts) : AllTaken L' P' g' typ id rs xs :=
  h.imp fun _ _ h => h.mono hl hp hg

theorem takeRecs_ok (e : Env) (z : Cz) {A X : List Str} {b : Gx} (hm : b.mode = .strElem) (hA : A.length < 2147483647) (hX : X.length < 2147483648)
    {y : MSym} {dim typ : Nat} (hd : dim < 20) (hy : y.dim = dim + 1) (ht : y.typ = typ) {id : Str} {a : Gx} {rs : List (RecOut Str)} :
    ∀ {fuel : Nat} {g g' : Gx} {u : Uel} {P : List Str} {w : Bufs} {k : List Str}, DeliversStr g rs g' → rs.length < fuel → g.nrMapped = 0 → g.mode = .rStr →
      g.texts = a.texts → Labels A u → Texts X P → Arr u.strs id k w → Firsts dim k rs →
      (∀ r ∈ rs, ValsOk X a typ r.vals ∧ ∀ s ∈ r.key, GoodLabel s ∧ s ∈ A) →
      ∃ u' P' w' xs, takeRecs y typ (lastPos dim) fuel g { b with uel := some u } P w =
          .ok ({ g' with sort := none, cur := .none, mode := .rInit }, { b with uel := some u' }, P', w', xs) ∧ g'.nrMapped = 0 ∧ Labels A u' ∧
        u.strs <+: u'.strs ∧ Texts X P' ∧ P <+: P' ∧ w'.idx.length = 20 ∧ w'.vals.length = 5 ∧ AllTaken u'.strs P' a typ id rs xs ∧
        Props.StaysIn e z { b with uel := some u } { b with uel := some u' } := by
  induction rs with
  | nil =>
    intro fuel g g' u P w k hdl hfu hn hmo htx hu hp hw _ _
    obtain ⟨fuel, rfl⟩ : ∃ f, fuel = f + 1 := ⟨fuel - 1, by simp at hfu; omega⟩
    cases hdl with
    | done h =>
      obtain ⟨q1, q2⟩ := dataReadStr_none hn hmo h
      refine ⟨u, P, w, [], ?_, q1, hu, List.prefix_refl _, hp, List.prefix_refl _, hw.nidx, hw.nval, .nil, .refl _⟩
      unfold takeRecs
      simp only [h, Res.bind_ok, dataReadDone_plain (g := g') (by rw [q2]; decide) q1]
      rfl
  | cons r rs ih =>
    intro fuel g g' u P w k hdl hfu hn hmo htx hu hp hw hf hv
    obtain ⟨fuel, rfl⟩ : ∃ f, fuel = f + 1 := ⟨fuel - 1, by simp at hfu; omega⟩
    cases hdl with
    | next h hr =>
      rename_i g1
      have hs := (dataReadStr_some h).1
      have ht1 : g1.texts = a.texts := by rw [← htx, hs]
      obtain ⟨v1, v2⟩ := hv r (by simp)
      have v1' : ValsOk X g1 typ r.vals := ⟨v1.1, fun h => by
        obtain ⟨d, t, c1, c2, c3⟩ := v1.2 h
        exact ⟨d, t, c1, c2.congr ht1, c3⟩⟩
      obtain ⟨u1, P1, w1, x, a1, a2, a3, a4, a5, a6, a7, a8⟩ := takeRec_ok e z hm hA hX hu hp hd hy ht hw hf v1' v2
      obtain ⟨u2, P2, w2, xs, b1, b2, b3, b4, b5, b6, b7, b8, b9, b10⟩ := ih (fuel := fuel) hr (by simp at hfu; omega) (by rw [hs.nrMapped]; exact hn)
        (by rw [hs.mode]; exact hmo) ht1 a2 a4 a6 hf.2.2 fun r hr => hv r (by simp [hr])
      refine ⟨u2, P2, w2, x :: xs, ?_, b2, b3, a3.trans b4, b5, a5.trans b6, b7, b8, .cons (a7.mono b4 b6 ht1.symm) b9, a8.trans b10⟩
      unfold takeRecs
      simp only [h, Res.bind_ok, a1, b1]
      rfl

end Gdx.Merge
