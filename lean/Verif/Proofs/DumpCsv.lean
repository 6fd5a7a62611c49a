import Verif.Proofs.Csv
import Verif.Proofs.ReadFix
import Verif.Proofs.Reading

/-!
gdxdump: the lines written for the records of a symbol.
-/

namespace Gdx.Dump
open Gdx

/-- what gdxdump looks at besides the records is the same in both objects -/
structure View (g0 g : Gx) : Prop where
  uel : g.uel.map Uel.ents = g0.uel.map Uel.ents
  acros : g.acros = g0.acros
  sv : g.sv = g0.sv
  texts : g.texts = g0.texts

theorem View.of_fixed {g0 g : Gx} (h : g.fixed = g0.fixed) : View g0 g := by
  refine ⟨?_, congrArg Fixed.acros h, congrArg Fixed.sv h, congrArg Fixed.texts h⟩
  have := congrArg Fixed.uel h
  have h2 : ∀ x : Gx, x.uel.map Uel.ents = x.fixed.uel.map Prod.fst := by
    intro x
    show _ = (x.uel.map fun u => (u.ents, u.usr)).map Prod.fst
    cases x.uel <;> rfl
  rw [h2, h2, h]

theorem View.wrVal {g0 g : Gx} (h : View g0 g) (o : Opt) (v : Dbl) : wrVal o g v = wrVal o g0 v := by
  unfold Dump.wrVal acronymName
  rw [h.acros, h.sv]

theorem View.text {g0 g : Gx} (h : View g0 g) (n : Int) : getElemText g n = getElemText g0 n := by
  unfold getElemText
  rw [h.texts]

/-- the label of element `n` -/
def LabelIs (g : Gx) (n : Int) (s : Str) : Prop := ∃ (u : Uel) (k : Nat) (m : Int), g.uel = some u ∧ n = (k : Int) + 1 ∧ u.ents[k]? = some (s, m) ∧ Printable s ∧ s.length < 64

theorem View.label {g0 g : Gx} (h : View g0 g) {n : Int} {s : Str} (hl : LabelIs g0 n s) : LabelIs g n s := by
  obtain ⟨u, k, m, h1, h2, h3, h4⟩ := hl
  have := h.uel
  rw [h1] at this
  cases hu : g.uel with
  | none => rw [hu] at this; cases this
  | some u' =>
    rw [hu] at this
    have he : u'.ents = u.ents := Option.some.inj this
    exact ⟨u', k, m, hu, h2, by rw [he]; exact h3, h4⟩

theorem LabelIs.uelAs {g : Gx} {n : Int} {s : Str} (h : LabelIs g n s) : uelAs g n = .ok (s, 0) := by
  obtain ⟨u, k, m, h1, rfl, h3, _, h5⟩ := h
  have hlt := (List.getElem?_eq_some_iff.mp h3).1
  have hg : umUelGet g ((k : Int) + 1) = .ok (true, s, m) := by
    unfold umUelGet
    rw [h1]
    simp only
    rw [if_pos ⟨by omega, by unfold Uel.size; omega⟩]
    unfold Uel.str Uel.userMap
    rw [at1_nat h3]
    simp only [Res.bind_ok, Res.pure_eq]
    unfold fits
    rw [if_pos h5]
    rfl
  unfold Dump.uelAs
  rw [hg]
  rfl

theorem csvKeys_ok {o : Opt} {g : Gx} {ks : List Int} {ls : List Str} (h : List.Forall₂ (LabelIs g) ks ls) : csvKeys o g ks = .ok (ls.map (qqcsv o.delim), 0) := by
  induction h with
  | nil => rfl
  | cons h1 _ ih =>
    unfold csvKeys
    rw [h1.uelAs, Res.bind_ok, ih]
    rfl

theorem labels_fields {g : Gx} {d : UInt8} {ks : List Int} {ls : List Str} (h : List.Forall₂ (LabelIs g) ks ls) : List.Forall₂ (IsField d) (ls.map (qqcsv d)) ls := by
  induction h with
  | nil => exact .nil
  | cons h1 _ ih =>
    obtain ⟨_, _, _, _, _, _, h4, _⟩ := h1
    exact .cons (field_of h4) ih

/-! ### values -/

/-- the text of a value, fit for a field -/
def Texts (o : Opt) (g : Gx) (v : Dbl) (t : Str) : Prop := wrVal o g v = .ok t ∧ Bare o.delim t

/-- the values that are written -/
def shown (o : Opt) (typ : Nat) (vals : List Dbl) : List Dbl := if (typ = dtVar ∨ typ = dtEqu) ∧ o.allFields = true then vals.take 5 else vals.take 1

theorem joined_cons (d : UInt8) (s : Str) (ss : List Str) : joined d (s :: ss) = s ++ (ss.map fun t => [d] ++ t).flatten := by
  induction ss generalizing s with
  | nil => simp [joined]
  | cons t ss ih =>
    show s ++ [d] ++ joined d (t :: ss) = _
    rw [ih]
    simp

theorem moreVals_ok {o : Opt} {g : Gx} {vals : List Dbl} : ∀ {ks : List Nat} {vs : List Dbl} {ts : List Str}, List.Forall₂ (fun (k : Nat) v => vals[k]? = some v) ks vs →
    List.Forall₂ (Texts o g) vs ts → moreVals o g vals ks = .ok (ts.map fun t => [o.delim] ++ t).flatten
  | _, _, _, .nil, .nil => rfl
  | _, _, _, .cons (a := k) (b := v) h1 h2, .cons h3 h4 => by
    unfold moreVals at0
    rw [if_pos (by omega), Int.toNat_natCast, h1, Res.bind_ok, h3.1, Res.bind_ok, moreVals_ok h2 h4]
    simp

theorem csvVals_ok {o : Opt} {g : Gx} {typ : Nat} {vals : List Dbl} {ts : List Str} (hn : if (typ = dtVar ∨ typ = dtEqu) ∧ o.allFields = true then 5 ≤ vals.length else 1 ≤ vals.length)
    (h : List.Forall₂ (Texts o g) (shown o typ vals) ts) : csvVals o g typ vals = .ok (joined o.delim ts) ∧ ts ≠ [] := by
  unfold csvVals
  by_cases hc : (typ = dtVar ∨ typ = dtEqu) ∧ o.allFields = true
  · simp only [if_pos hc] at hn ⊢
    unfold shown at h
    rw [if_pos hc] at h
    match vals, hn, h with
    | a :: b :: c :: d :: e :: r, _, h =>
      simp only [List.take_succ_cons, List.take_zero] at h
      cases h with
      | cons h1 h2 =>
        rename_i t ts
        have := moreVals_ok (vals := a :: b :: c :: d :: e :: r) (ks := [1, 2, 3, 4]) (.cons rfl (.cons rfl (.cons rfl (.cons rfl .nil)))) h2
        refine ⟨?_, by simp⟩
        show Res.bind (at0 (a :: b :: c :: d :: e :: r) 0) _ = _
        have ha : at0 (a :: b :: c :: d :: e :: r) 0 = .ok a := rfl
        rw [ha, Res.bind, h1.1, Res.bind_ok, this, Res.bind_ok, joined_cons, Res.pure_eq]
  · simp only [if_neg hc] at hn ⊢
    unfold shown at h
    rw [if_neg hc] at h
    match vals, hn, h with
    | a :: r, _, h =>
      simp only [List.take_succ_cons, List.take_zero] at h
      cases h with
      | cons h1 h2 =>
        cases h2
        refine ⟨?_, by simp⟩
        show Res.bind (at0 (a :: r) 0) _ = _
        have ha : at0 (a :: r) 0 = .ok a := rfl
        rw [ha, Res.bind, h1.1, Res.bind_ok, Res.pure_eq]
        rfl

/-! ### lines -/

/-- the text of a set element, empty if it has none -/
def SetText (g : Gx) (vals : List Dbl) (t : Str) : Prop :=
  ∃ v r, vals = v :: r ∧ ((v.fv = .fin 0 ∧ t = []) ∨ (v.fv ≠ .fin 0 ∧ ∃ n b k, Diff.roundInt v = .ok n ∧ getElemText g n = (b, t, k) ∧ Printable t))

/-- the fields that belong to a record: labels and texts of the values, or labels and explanatory text -/
def RowIs (o : Opt) (g : Gx) (typ : Nat) (r : RecOut Int) (xs : List Str) : Prop :=
  ∃ ls ts, xs = ls ++ ts ∧ List.Forall₂ (LabelIs g) r.key ls ∧
    if typ ≠ dtSet ∧ typ ≠ dtAlias then
      (if (typ = dtVar ∨ typ = dtEqu) ∧ o.allFields = true then 5 ≤ r.vals.length else 1 ≤ r.vals.length) ∧ List.Forall₂ (Texts o g) (shown o typ r.vals) ts
    else if o.setText = true then ∃ t, ts = [t] ∧ SetText g r.vals t else ts = []

theorem View.texts_of {g0 g : Gx} (h : View g0 g) {o : Opt} {vs : List Dbl} {ts : List Str} (ht : List.Forall₂ (Texts o g0) vs ts) : List.Forall₂ (Texts o g) vs ts :=
  ht.imp fun _ _ hh => ⟨by rw [h.wrVal]; exact hh.1, hh.2⟩

theorem View.row {g0 g : Gx} (h : View g0 g) {o : Opt} {typ : Nat} {r : RecOut Int} {xs : List Str} (hr : RowIs o g0 typ r xs) : RowIs o g typ r xs := by
  obtain ⟨ls, ts, h1, h2, h3⟩ := hr
  refine ⟨ls, ts, h1, h2.imp fun _ _ hh => h.label hh, ?_⟩
  by_cases hc : typ ≠ dtSet ∧ typ ≠ dtAlias
  · rw [if_pos hc] at h3 ⊢
    exact ⟨h3.1, h.texts_of h3.2⟩
  · rw [if_neg hc] at h3 ⊢
    by_cases hs : o.setText = true
    · rw [if_pos hs] at h3 ⊢
      obtain ⟨t, t1, v, r', t2, t3⟩ := h3
      refine ⟨t, t1, v, r', t2, t3.imp id ?_⟩
      rintro ⟨q, n, b, k, q1, q2, q3⟩
      exact ⟨q, n, b, k, q1, by rw [h.text]; exact q2, q3⟩
    · rw [if_neg hs] at h3 ⊢
      exact h3

theorem line_of {d : UInt8} (h1 : d ≠ 34) (h2 : d ≠ 10) {ts xs : List Str} (h : List.Forall₂ (IsField d) ts xs) (h0 : ts ≠ []) : IsLine d (joined d ts ++ [10]) xs := by
  intro ls
  have := (joined_line h1 h2 ts xs h h0 ls []).1
  simpa using this

theorem joined_append (d : UInt8) {a b : List Str} (ha : a ≠ []) (hb : b ≠ []) : joined d (a ++ b) = joined d a ++ [d] ++ joined d b := by
  cases a with
  | nil => exact absurd rfl ha
  | cons s a =>
    cases b with
    | nil => exact absurd rfl hb
    | cons t b => simp [joined_cons]

theorem forall₂_append {α β : Type} {R : α → β → Prop} {a c : List α} {b d : List β} (h1 : List.Forall₂ R a b) (h2 : List.Forall₂ R c d) :
    List.Forall₂ R (a ++ c) (b ++ d) := by
  induction h1 with
  | nil => exact h2
  | cons h _ ih => exact .cons h ih

/-- the line of a record is read as its fields -/
theorem csvRow_ok {o : Opt} {g : Gx} {dim typ : Nat} {r : RecOut Int} {xs : List Str} (h1 : o.delim ≠ 34) (h2 : o.delim ≠ 10) (hk : r.key.length = dim)
    (hd : dim = 0 → typ ≠ dtSet ∧ typ ≠ dtAlias) (h : RowIs o g typ r xs) : ∃ s, csvRow o g dim typ r = .ok (s, 0) ∧ IsLine o.delim s xs := by
  obtain ⟨ls, ts, rfl, hl, h⟩ := h
  have hll : ls.length = dim := by rw [← hl.length_eq, hk]
  unfold csvRow
  by_cases h0 : dim = 0
  · rw [if_pos h0]
    rw [if_pos (hd h0)] at h
    obtain ⟨e1, e2⟩ := csvVals_ok h.1 h.2
    have : ls = [] := List.length_eq_zero_iff.mp (by omega)
    subst this
    rw [e1]
    exact ⟨_, rfl, line_of h1 h2 (by
      have := h.2
      generalize shown o typ r.vals = vs at this
      clear e1 e2 h
      induction this with
      | nil => exact .nil
      | cons q _ ih => exact .cons (bare_field q.2) ih) e2⟩
  · have hne : ls.map (qqcsv o.delim) ≠ [] := by
      intro hc
      rw [List.map_eq_nil_iff] at hc
      rw [hc] at hll
      exact h0 hll.symm
    have hf := labels_fields (d := o.delim) hl
    rw [if_neg h0, csvKeys_ok hl, Res.bind_ok]
    by_cases hc : typ ≠ dtSet ∧ typ ≠ dtAlias
    · simp only [if_pos hc] at h ⊢
      obtain ⟨e1, e2⟩ := csvVals_ok h.1 h.2
      rw [e1]
      refine ⟨_, rfl, ?_⟩
      rw [← joined_append _ hne e2]
      refine line_of h1 h2 (forall₂_append hf ?_) (by simp [e2])
      have := h.2
      generalize shown o typ r.vals = vs at this
      clear e1 e2 h
      induction this with
      | nil => exact .nil
      | cons q _ ih => exact .cons (bare_field q.2) ih
    · simp only [if_neg hc] at h ⊢
      by_cases hs : o.setText = true
      · simp only [if_pos hs] at h ⊢
        obtain ⟨t, rfl, v, r', hv, h⟩ := h
        have hat : at0 r.vals 0 = .ok v := by
          rw [hv]
          rfl
        rw [hat, Res.bind_ok]
        rcases h with ⟨q1, rfl⟩ | ⟨q1, n, b, k, q2, q3, q4⟩
        · rw [if_pos q1]
          refine ⟨_, rfl, ?_⟩
          have := line_of h1 h2 (forall₂_append hf (.cons (bare_field (d := o.delim) (t := []) (by intro c hc; cases hc)) .nil)) (by simp)
          rw [joined_append _ hne (by simp)] at this
          simpa [joined] using this
        · rw [if_neg q1, q2, Res.bind_ok, q3]
          refine ⟨_, rfl, ?_⟩
          have := line_of h1 h2 (forall₂_append hf (.cons (field_of (d := o.delim) q4) .nil)) (by simp)
          rw [joined_append _ hne (by simp)] at this
          simpa [joined] using this
      · simp only [if_neg hs] at h ⊢
        subst h
        refine ⟨_, rfl, ?_⟩
        rw [List.append_nil]
        exact line_of h1 h2 hf hne

/-- the records of a symbol -/
theorem csvRows_ok {o : Opt} {g0 : Gx} {dim typ : Nat} (h1 : o.delim ≠ 34) (h2 : o.delim ≠ 10) (hd : dim = 0 → typ ≠ dtSet ∧ typ ≠ dtAlias) :
    ∀ {g gE : Gx} {outs : List (RecOut Int)} {xss : List (List Str)} {f : Nat}, DeliversRaw g outs gE → g.fixed = g0.fixed → g.nextAuto ≤ 0 → g.nrMapped = 0 →
      (∀ r ∈ outs, r.key.length = dim) → List.Forall₂ (RowIs o g0 typ) outs xss → outs.length < f →
      ∃ ts, csvRows o dim typ f g = .ok (gE, ts.flatten, 0) ∧ List.Forall₂ (IsLine o.delim) ts xss
  | g, gE, _, _, 0, _, _, _, _, _, _, hf => by omega
  | g, gE, _, _, f + 1, .done h, _, _, _, _, .nil, _ => by
    refine ⟨[], ?_, .nil⟩
    unfold csvRows
    rw [h]
    rfl
  | g, gE, _, _, f + 1, .next (g1 := g1) (r := r) (rs := rs) h hr, hfix, ha, hn, hk, .cons hx hxs, hf => by
    have fx := dataReadRaw_fix ha hn h
    have hfix' : g1.fixed = g0.fixed := fx.fix.trans hfix
    obtain ⟨s, s1, s2⟩ := csvRow_ok h1 h2 (hk r (by simp)) hd ((View.of_fixed hfix').row hx)
    obtain ⟨ts, t1, t2⟩ := csvRows_ok h1 h2 hd (f := f) hr hfix' (by rw [RFix.auto fx.fix]; exact ha) ((congrArg Fixed.nrm fx.fix).trans hn) (fun r hr => hk r (by simp [hr])) hxs
      (by simp at hf; omega)
    refine ⟨s :: ts, ?_, .cons s2 t2⟩
    unfold csvRows
    rw [h]
    simp only [Res.bind_ok, s1, t1, Res.pure_eq, List.flatten_cons]

end Gdx.Dump
