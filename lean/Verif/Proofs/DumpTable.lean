import Verif.Proofs.DumpCsv
import Verif.Spec.Reading
import Mathlib.Data.List.Chain
import Mathlib.Data.List.TakeWhile

/-!
gdxdump with CDim: the last index as columns.
-/

namespace Gdx.Dump
open Gdx Gdx.Spec

/-- the last index of a record -/
abbrev lastOf (dim : Nat) (r : RecOut Int) : Option Int := r.key[dim - 1]?

theorem at0_nat {α : Type} {l : List α} {k : Nat} {x : α} (h : l[k]? = some x) : at0 l (k : Int) = .ok x := by
  unfold at0
  rw [if_pos (by omega), Int.toNat_natCast, h]

theorem at0_last {dim : Nat} (hd : 1 ≤ dim) {r : RecOut Int} {x : Int} (h : lastOf dim r = some x) : at0 r.key ((dim : Int) - 1) = .ok x := by
  have : ((dim : Int) - 1) = ((dim - 1 : Nat) : Int) := by omega
  rw [this]
  exact at0_nat h

theorem delivers_fixed {g gE : Gx} {outs : List (RecOut Int)} (h : DeliversRaw g outs gE) (ha : g.nextAuto ≤ 0) (hn : g.nrMapped = 0) : gE.fixed = g.fixed := by
  induction h with
  | done h => exact (dataReadRaw_fix ha hn h).fix
  | next h _ ih =>
    have fx := dataReadRaw_fix ha hn h
    exact (ih (by rw [RFix.auto fx.fix]; exact ha) ((congrArg Fixed.nrm fx.fix).trans hn)).trans fx.fix

/-! ### the columns -/

/-- the marks: indices marked so far are below `high` -/
structure Marked (ms : List Bool) (high : Int) : Prop where
  pos : 0 ≤ high
  le : ∀ i : Nat, ms[i]? = some true → (i : Int) + 1 ≤ high

theorem colScan_ok {dim : Nat} (hd : 1 ≤ dim) {g gE : Gx} {outs : List (RecOut Int)} (h : DeliversRaw g outs gE) : ∀ {f : Nat} {ms : List Bool} {cnt high : Int}, outs.length < f →
    (∀ r ∈ outs, ∃ x, lastOf dim r = some x ∧ 1 ≤ x ∧ x ≤ ms.length) → Marked ms high →
    ∃ ms' cnt' high', colScan dim f g ms cnt high = .ok (gE, ms', cnt', high') ∧ Marked ms' high' ∧
      ∀ i : Nat, ms'[i]? = some true ↔ ms[i]? = some true ∨ ∃ r ∈ outs, lastOf dim r = some ((i : Int) + 1) := by
  induction h with
  | done h =>
    intro f ms cnt high hf _ hm
    cases f with
    | zero => simp at hf
    | succ f =>
      refine ⟨ms, cnt, high, ?_, hm, by simp⟩
      unfold colScan
      rw [h]
      rfl
  | next h hr ih =>
    rename_i g g1 g' r rs
    intro f ms cnt high hf hx hm
    cases f with
    | zero => simp at hf
    | succ f =>
      obtain ⟨x, x1, x2, x3⟩ := hx r (by simp)
      have hlt : (x - 1).toNat < ms.length := by omega
      have hrest : ∀ r ∈ rs, ∃ x, lastOf dim r = some x ∧ 1 ≤ x ∧ x ≤ ms.length := fun r hr => hx r (by simp [hr])
      unfold colScan
      rw [h]
      simp only [Res.bind_ok]
      have e1 := at0_last hd x1
      have e2 := at0_nat (List.getElem?_eq_getElem hlt)
      rw [e1]
      simp only [Res.bind_ok]
      rw [if_neg (by omega), e2]
      simp only [Res.bind_ok]
      by_cases hb : ms[(x - 1).toNat] = false
      · rw [if_pos hb]
        obtain ⟨ms', cnt', high', q1, q2, q3⟩ := ih (f := f) (ms := ms.set (x - 1).toNat true) (cnt := cnt + 1) (high := max high x) (by simp at hf; omega)
          (by simpa using hrest) ⟨by have := hm.pos; omega, by
            intro i hi
            rw [List.getElem?_set] at hi
            split at hi
            · omega
            · have := hm.le i hi
              omega⟩
        refine ⟨ms', cnt', high', q1, q2, ?_⟩
        intro i
        rw [q3]
        have hset : (ms.set (x - 1).toNat true)[i]? = some true ↔ ms[i]? = some true ∨ x = (i : Int) + 1 := by
          rw [List.getElem?_set]
          by_cases hi : (x - 1).toNat = i
          · rw [if_pos hi, if_pos (by omega)]
            simp
            right
            omega
          · rw [if_neg hi]
            constructor
            · exact Or.inl
            · rintro (h | h)
              · exact h
              · omega
        rw [hset, List.exists_mem_cons_iff, x1, Option.some.injEq, or_assoc]
      · rw [if_neg hb]
        obtain ⟨ms', cnt', high', q1, q2, q3⟩ := ih (f := f) (ms := ms) (cnt := cnt) (high := high) (by simp at hf; omega) hrest hm
        refine ⟨ms', cnt', high', q1, q2, ?_⟩
        intro i
        rw [q3, List.exists_mem_cons_iff, x1, Option.some.injEq, ← or_assoc]
        have : x = (i : Int) + 1 → ms[i]? = some true := by
          intro hi
          have : (x - 1).toNat = i := by omega
          rw [← this, List.getElem?_eq_getElem hlt]
          cases hc : ms[(x - 1).toNat] with
          | true => rfl
          | false => exact absurd hc hb
        constructor
        · rintro (h | h)
          · exact Or.inl (Or.inl h)
          · exact Or.inr h
        · rintro ((h | h) | h)
          · exact Or.inl h
          · exact Or.inl (this h)
          · exact Or.inr h

theorem colUels_spec {ms : List Bool} {high : Int} (h : Marked ms high) : (colUels ms high).Pairwise (· < ·) ∧
    ∀ u, u ∈ colUels ms high ↔ ∃ i : Nat, u = (i : Int) + 1 ∧ ms[i]? = some true := by
  constructor
  · unfold colUels
    rw [List.pairwise_map]
    exact ((List.pairwise_lt_range (n := high.toNat)).filter _).imp fun {a b} hab => by omega
  · intro u
    unfold colUels
    rw [List.mem_map]
    constructor
    · rintro ⟨i, hi, rfl⟩
      rw [List.mem_filter] at hi
      exact ⟨i, rfl, by simpa using hi.2⟩
    · rintro ⟨i, rfl, hi⟩
      refine ⟨i, ?_, rfl⟩
      rw [List.mem_filter, List.mem_range]
      have := h.le i hi
      exact ⟨by omega, by simpa using hi⟩

/-! ### the cells of a line -/

theorem colFind_ok {d : UInt8} {us : List Int} {x : Int} {post : List Int} : ∀ (sk : List Int) (c f : Nat), us.drop c = sk ++ x :: post → (∀ u ∈ sk, u < x) → sk.length < f →
    colFind d us x f ((c : Int) - 1) = .ok ((c : Int) + sk.length, List.replicate sk.length d)
  | _, _, 0, _, _, hf => by omega
  | [], c, f + 1, hd, _, _ => by
    have : us[c]? = some x := by
      have := congrArg (·[0]?) hd
      simpa using this
    unfold colFind
    rw [show ((c : Int) - 1 + 1).toNat = c by omega, this]
    simp only [ge_iff_le, le_refl, if_true]
    simp
  | u :: sk, c, f + 1, hd, hs, hf => by
    have hu : us[c]? = some u := by
      have := congrArg (·[0]?) hd
      simpa using this
    have hd' : us.drop (c + 1) = sk ++ x :: post := by
      rw [← List.tail_drop, hd]
      rfl
    have ih := colFind_ok (d := d) sk (c + 1) f hd' (fun v hv => hs v (by simp [hv])) (by simp at hf; omega)
    have hux := hs u (by simp)
    unfold colFind
    rw [show ((c : Int) - 1 + 1).toNat = c by omega, hu]
    simp only
    rw [if_neg (by omega), show (c : Int) - 1 + 1 = ((c + 1 : Nat) : Int) - 1 by omega, ih, Res.bind_ok, Res.pure_eq]
    congr 2
    simp only [List.length_cons]
    push_cast
    omega

/-- the text in the cell of a record -/
def CellIs (o : Opt) (g : Gx) (typ : Nat) (r : RecOut Int) (t : Str) : Prop :=
  if typ = dtSet ∨ typ = dtAlias then t = [89] else ∃ v vs, r.vals = v :: vs ∧ Texts o g v t

theorem cell_ok {o : Opt} {g0 g : Gx} (hv : View g0 g) {typ : Nat} {r : RecOut Int} {t : Str} (h : CellIs o g0 typ r t) : cell o g typ r.vals = .ok ([o.delim] ++ t) := by
  unfold CellIs at h
  unfold cell
  split at h
  · rename_i hc
    rw [if_pos hc, h]
    rfl
  · rename_i hc
    obtain ⟨v, vs, h1, h2, _⟩ := h
    have : at0 r.vals 0 = .ok v := by rw [h1]; rfl
    rw [if_neg hc, this, Res.bind_ok, hv.wrVal, h2]
    rfl

/-- the cell in column `u` of the line of the records `grp`: empty if there is none -/
def CellAt (o : Opt) (g : Gx) (typ dim : Nat) (grp : List (RecOut Int)) (u : Int) (t : Str) : Prop :=
  (∃ r ∈ grp, lastOf dim r = some u ∧ CellIs o g typ r t) ∨ ((∀ r ∈ grp, lastOf dim r ≠ some u) ∧ t = [])

/-- what follows when the line is finished -/
def Follows (g : Gx) (rest : List (RecOut Int)) (gE : Gx) (n : Option (RecOut Int)) : Prop :=
  match rest with
  | [] => n = none ∧ g = gE
  | r :: rest => n = some r ∧ DeliversRaw g rest gE

theorem forall₂_mem_imp {α β : Type} {R S : α → β → Prop} {l : List α} {m : List β} (h : List.Forall₂ R l m) (hi : ∀ x ∈ l, ∀ y, R x y → S x y) : List.Forall₂ S l m := by
  induction h with
  | nil => exact .nil
  | cons h _ ih => exact .cons (hi _ (by simp) _ h) (ih fun x hx => hi x (by simp [hx]))

theorem forall₂_replicate {α : Type} {R : α → Str → Prop} {l : List α} (h : ∀ x ∈ l, R x []) : List.Forall₂ R l (List.replicate l.length []) := by
  induction l with
  | nil => exact .nil
  | cons x l ih => exact .cons (h x (by simp)) (ih fun y hy => h y (by simp [hy]))

theorem flat_empty (d : UInt8) (n : Nat) : ((List.replicate n ([] : Str)).map fun t => [d] ++ t).flatten = List.replicate n d := by
  induction n with
  | zero => rfl
  | succ n ih => rw [List.replicate_succ, List.map_cons, List.flatten_cons, ih]; rfl

theorem colCells_ok {o : Opt} {g0 gE : Gx} {dim typ : Nat} (hd : 1 ≤ dim) {us : List Int} (hus : us.Pairwise (· < ·)) {rest : List (RecOut Int)} (hrest : ∀ r ∈ rest.head?, r.frst < dim) :
    ∀ (grp : List (RecOut Int)) (r : RecOut Int) (x : Int) (g : Gx) (c f : Nat), DeliversRaw g (grp ++ rest) gE → g.fixed = g0.fixed → g.nextAuto ≤ 0 → g.nrMapped = 0 →
      lastOf dim r = some x → x ∈ us.drop c → (∀ r' ∈ grp, ¬ r'.frst < dim ∧ ∃ y, lastOf dim r' = some y ∧ y ∈ us.drop c) →
      (r :: grp).Pairwise (fun a b => ∀ x y, lastOf dim a = some x → lastOf dim b = some y → x < y) → (∀ r' ∈ r :: grp, ∃ t, CellIs o g0 typ r' t) → grp.length < f →
      ∃ g' n ts, colCells o dim typ us f g r ((c : Int) - 1) = .ok (g', n, (ts.map fun t => [o.delim] ++ t).flatten) ∧ List.Forall₂ (CellAt o g0 typ dim (r :: grp)) (us.drop c) ts ∧
        Follows g' rest gE n ∧ g'.fixed = g0.fixed := by
  intro grp
  induction grp with
  | nil =>
    intro r x g c f hdel hfix ha hn hx hmem _ _ hcell hf
    cases f with
    | zero => simp at hf
    | succ f =>
      obtain ⟨sk, post, hsp⟩ := List.append_of_mem hmem
      have hp : (sk ++ x :: post).Pairwise (· < ·) := hsp ▸ hus.sublist (List.drop_sublist c us)
      rw [List.pairwise_append] at hp
      obtain ⟨p1, p2, p3⟩ := hp
      rw [List.pairwise_cons] at p2
      have hsk : ∀ u ∈ sk, u < x := fun u hu => p3 u hu x (by simp)
      have hlen : us.length = c + (sk.length + 1 + post.length) := by
        have h1 := congrArg List.length hsp
        have h2 : c ≤ us.length := by
          by_contra hc
          rw [List.drop_eq_nil_of_le (by omega)] at hmem
          cases hmem
        simp at h1
        omega
      obtain ⟨t, ht⟩ := hcell r (by simp)
      have e1 := at0_last hd hx
      have e2 := colFind_ok (d := o.delim) sk c (us.length + 2) hsp hsk (by omega)
      have e3 : at0 us (((c : Int) + sk.length).toNat : Int) = .ok x := by
        rw [show ((c : Int) + sk.length).toNat = c + sk.length by omega]
        apply at0_nat
        rw [← List.getElem?_drop, hsp, List.getElem?_append_right (by omega)]
        simp
      have e4 := cell_ok (View.of_fixed hfix) ht
      have hcells : List.Forall₂ (CellAt o g0 typ dim [r]) (us.drop c) (List.replicate sk.length [] ++ t :: List.replicate post.length []) := by
        rw [hsp]
        refine forall₂_append (forall₂_replicate fun u hu => Or.inr ⟨?_, rfl⟩) (.cons (Or.inl ⟨r, by simp, hx, ht⟩) (forall₂_replicate fun u hu => Or.inr ⟨?_, rfl⟩))
        · intro r' hr'
          rw [List.mem_singleton.mp hr', hx]
          have := hsk u hu
          intro hc
          cases hc
          omega
        · intro r' hr'
          rw [List.mem_singleton.mp hr', hx]
          have := p2.1 u hu
          intro hc
          cases hc
          omega
      have htext : ((List.replicate sk.length [] ++ t :: List.replicate post.length []).map fun t => [o.delim] ++ t).flatten =
          List.replicate sk.length o.delim ++ ([o.delim] ++ t) ++ List.replicate ((us.length : Int) - 1 - ((c : Int) + sk.length)).toNat o.delim := by
        rw [List.map_append, List.flatten_append, flat_empty, List.map_cons, List.flatten_cons, flat_empty, show ((us.length : Int) - 1 - ((c : Int) + sk.length)).toNat = post.length by omega]
        simp
      unfold colCells
      rw [e1]
      simp only [Res.bind_ok]
      rw [e2]
      simp only [Res.bind_ok]
      rw [e3]
      simp only [Res.bind_ok, if_true]
      rw [e4]
      simp only [Res.bind_ok]
      rw [List.nil_append] at hdel
      cases hdel with
      | done h =>
        have fx := dataReadRaw_fix ha hn h
        rw [h]
        simp only [Res.bind_ok]
        exact ⟨gE, none, _, by rw [htext]; rfl, hcells, ⟨rfl, rfl⟩, fx.fix.trans hfix⟩
      | next h hr =>
        rename_i g1 r1 rs
        have fx := dataReadRaw_fix ha hn h
        have hlt := hrest r1 (by simp)
        rw [h]
        simp only [Res.bind_ok]
        rw [if_pos hlt]
        exact ⟨g1, some r1, _, by rw [htext]; rfl, hcells, ⟨rfl, hr⟩, fx.fix.trans hfix⟩
  | cons r2 grp ih =>
    intro r x g c f hdel hfix ha hn hx hmem hgrp hpw hcell hf
    cases f with
    | zero => simp at hf
    | succ f =>
      obtain ⟨sk, post, hsp⟩ := List.append_of_mem hmem
      have hp : (sk ++ x :: post).Pairwise (· < ·) := hsp ▸ hus.sublist (List.drop_sublist c us)
      rw [List.pairwise_append] at hp
      obtain ⟨p1, p2, p3⟩ := hp
      rw [List.pairwise_cons] at p2
      have hsk : ∀ u ∈ sk, u < x := fun u hu => p3 u hu x (by simp)
      have hlen : us.length = c + (sk.length + 1 + post.length) := by
        have h1 := congrArg List.length hsp
        have h2 : c ≤ us.length := by
          by_contra hc
          rw [List.drop_eq_nil_of_le (by omega)] at hmem
          cases hmem
        simp at h1
        omega
      obtain ⟨t, ht⟩ := hcell r (by simp)
      have e1 := at0_last hd hx
      have e2 := colFind_ok (d := o.delim) sk c (us.length + 2) hsp hsk (by omega)
      have e3 : at0 us (((c : Int) + sk.length).toNat : Int) = .ok x := by
        rw [show ((c : Int) + sk.length).toNat = c + sk.length by omega]
        apply at0_nat
        rw [← List.getElem?_drop, hsp, List.getElem?_append_right (by omega)]
        simp
      have e4 := cell_ok (View.of_fixed hfix) ht
      have hpost : us.drop (c + sk.length + 1) = post := by
        rw [Nat.add_assoc, ← List.drop_drop, hsp]
        rw [← List.drop_drop]
        simp
      rw [List.pairwise_cons] at hpw
      have hgt : ∀ r' ∈ r2 :: grp, ∀ y, lastOf dim r' = some y → x < y := fun r' hr' y hy => hpw.1 r' hr' x y hx hy
      have hin : ∀ r' ∈ r2 :: grp, ∃ y, lastOf dim r' = some y ∧ y ∈ us.drop (c + sk.length + 1) := by
        intro r' hr'
        obtain ⟨_, y, y1, y2⟩ := hgrp r' hr'
        refine ⟨y, y1, ?_⟩
        have hlt := hgt r' hr' y y1
        rw [hpost]
        rw [hsp] at y2
        rcases List.mem_append.mp y2 with y2 | y2
        · have := hsk y y2
          omega
        · rcases List.mem_cons.mp y2 with y2 | y2
          · omega
          · exact y2
      obtain ⟨x2, x21, x22⟩ := hin r2 (by simp)
      rw [List.cons_append] at hdel
      cases hdel with
      | next h hr =>
        rename_i g1
        have fx := dataReadRaw_fix ha hn h
        have hfix1 : g1.fixed = g0.fixed := fx.fix.trans hfix
        obtain ⟨g', n, ts, i1, i2, i3, i4⟩ := ih r2 x2 g1 (c + sk.length + 1) f hr hfix1 (by rw [RFix.auto fx.fix]; exact ha) ((congrArg Fixed.nrm fx.fix).trans hn) x21 x22
          (fun r' hr' => ⟨(hgrp r' (by simp [hr'])).1, hin r' (by simp [hr'])⟩) hpw.2 (fun r' hr' => hcell r' (by simp [hr'])) (by simp at hf; omega)
        refine ⟨g', n, List.replicate sk.length [] ++ t :: ts, ?_, ?_, i3, i4⟩
        · unfold colCells
          rw [e1]
          simp only [Res.bind_ok]
          rw [e2]
          simp only [Res.bind_ok]
          rw [e3]
          simp only [Res.bind_ok, if_true]
          rw [e4]
          simp only [Res.bind_ok]
          rw [h]
          simp only [Res.bind_ok]
          rw [if_neg (hgrp r2 (by simp)).1, show (c : Int) + (sk.length : Int) = ((c + sk.length + 1 : Nat) : Int) - 1 by push_cast; omega, i1]
          simp only [Res.bind_ok, Res.pure_eq, List.map_append, List.flatten_append, flat_empty, List.map_cons, List.flatten_cons]
          simp
        · rw [hsp]
          rw [hpost] at i2
          refine forall₂_append (forall₂_replicate fun u hu => Or.inr ⟨?_, rfl⟩) (.cons (Or.inl ⟨r, by simp, hx, ht⟩) ?_)
          · intro r' hr' hc
            have hux := hsk u hu
            rcases List.mem_cons.mp hr' with rfl | hr'
            · rw [hx] at hc
              cases hc
              omega
            · have := hgt r' hr' u hc
              omega
          · refine forall₂_mem_imp i2 ?_
            rintro u hu t (⟨r', h1, h2⟩ | ⟨h1, h2⟩)
            · exact Or.inl ⟨r', by simp [List.mem_cons.mp h1], h2⟩
            · refine Or.inr ⟨?_, h2⟩
              intro r' hr' hc
              rcases List.mem_cons.mp hr' with rfl | hr'
              · rw [hx] at hc
                cases hc
                have := p2.1 _ hu
                omega
              · exact h1 r' hr' hc

/-! ### the lines -/

theorem first_lead {dim : Nat} {p k : List Int} {i : Nat} (hp : p.length = dim) (hk : k.length = dim) (h : FirstDiff p k i) :
    i < dim ↔ p.take (dim - 1) ≠ k.take (dim - 1) := by
  obtain ⟨h1, ⟨a, b, ha, hb, hab⟩, h3⟩ := h
  have hi := (List.getElem?_eq_some_iff.mp ha).1
  constructor
  · intro hlt hc
    have := congrArg (·[i - 1]?) hc
    rw [List.getElem?_take_of_lt (by omega), List.getElem?_take_of_lt (by omega), ha, hb] at this
    exact hab (Option.some.inj this)
  · intro hne
    by_contra hlt
    apply hne
    apply List.ext_getElem?
    intro j
    by_cases hj : j < dim - 1
    · rw [List.getElem?_take_of_lt hj, List.getElem?_take_of_lt hj]
      exact h3 (j + 1) (by omega) (by omega)
    · rw [List.getElem?_eq_none (by simp; omega), List.getElem?_eq_none (by simp; omega)]

/-- a smaller key has a smaller beginning, or the same and a smaller last index -/
theorem lead_lt : ∀ (m : Nat) (a b : List Int), a.length = m + 1 → b.length = m + 1 → a < b →
    a.take m < b.take m ∨ (a.take m = b.take m ∧ ∀ x y, a[m]? = some x → b[m]? = some y → x < y)
  | 0, [x], [y], _, _, h => by
    refine Or.inr ⟨rfl, ?_⟩
    intro x' y' hx hy
    simp at hx hy
    subst hx hy
    rcases List.cons_lt_cons_iff.mp h with h | ⟨_, h⟩
    · exact h
    · exact absurd h (List.not_lt_nil _)
  | m + 1, x :: a, y :: b, ha, hb, h => by
    rcases List.cons_lt_cons_iff.mp h with h' | ⟨rfl, h'⟩
    · exact Or.inl (List.cons_lt_cons_iff.mpr (Or.inl h'))
    · rcases lead_lt m a b (by simpa using ha) (by simpa using hb) h' with h | ⟨h1, h2⟩
      · exact Or.inl (List.cons_lt_cons_iff.mpr (Or.inr ⟨rfl, h⟩))
      · exact Or.inr ⟨by simp [h1], by simpa using h2⟩

/-- the beginning of the key: what the line of the record is called -/
abbrev leadOf (dim : Nat) (r : RecOut Int) : List Int := r.key.take (dim - 1)

/-- records in the order of their keys with the first changed positions -/
structure InOrder (dim : Nat) (outs : List (RecOut Int)) : Prop where
  len : ∀ r ∈ outs, r.key.length = dim
  sorted : outs.Pairwise fun a b => a.key < b.key
  first : outs.IsChain fun a b => FirstDiff a.key b.key b.frst

theorem InOrder.tail {dim : Nat} {r : RecOut Int} {rs : List (RecOut Int)} (h : InOrder dim (r :: rs)) : InOrder dim rs :=
  ⟨fun r hr => h.len r (by simp [hr]), (List.pairwise_cons.mp h.sorted).2, h.first.tail⟩

theorem InOrder.drop {dim : Nat} {a b : List (RecOut Int)} (h : InOrder dim (a ++ b)) : InOrder dim b := by
  induction a with
  | nil => exact h
  | cons r a ih => exact ih (InOrder.tail h)

theorem InOrder.lt {dim : Nat} (hd : 1 ≤ dim) {outs : List (RecOut Int)} (h : InOrder dim outs) : outs.Pairwise fun a b =>
    leadOf dim a < leadOf dim b ∨ (leadOf dim a = leadOf dim b ∧ ∀ x y, lastOf dim a = some x → lastOf dim b = some y → x < y) := by
  refine h.sorted.imp_of_mem fun {a b} ha hb hab => ?_
  exact lead_lt (dim - 1) _ _ (by rw [h.len a ha]; omega) (by rw [h.len b hb]; omega) hab

/-- the records of the line that begins with `r`: the rest belongs to later lines -/
theorem group {dim : Nat} (hd : 1 ≤ dim) : ∀ {rs : List (RecOut Int)} {r : RecOut Int}, InOrder dim (r :: rs) → ∃ grp rest, rs = grp ++ rest ∧ (∀ r' ∈ rest.head?, r'.frst < dim) ∧
    (∀ r' ∈ grp, ¬ r'.frst < dim ∧ leadOf dim r' = leadOf dim r) ∧ ∀ r' ∈ rest, leadOf dim r < leadOf dim r'
  | [], r, _ => ⟨[], [], rfl, by simp, by simp, by simp⟩
  | r2 :: rs, r, h => by
    have hfd : FirstDiff r.key r2.key r2.frst := by
      have := h.first
      rw [List.isChain_cons_cons] at this
      exact this.1
    have hff := first_lead (h.len r (by simp)) (h.len r2 (by simp)) hfd
    have hlt := h.lt hd
    rw [List.pairwise_cons] at hlt
    by_cases hc : r2.frst < dim
    · refine ⟨[], r2 :: rs, rfl, by simpa using hc, by simp, ?_⟩
      have h2 : leadOf dim r < leadOf dim r2 := by
        rcases hlt.1 r2 (by simp) with hh | hh
        · exact hh
        · exact absurd hh.1 (hff.mp hc)
      intro r' hr'
      rcases List.mem_cons.mp hr' with rfl | hr'
      · exact h2
      · rcases (List.pairwise_cons.mp hlt.2).1 r' hr' with hh | hh
        · exact lt_trans h2 hh
        · rw [← hh.1]
          exact h2
    · have he : leadOf dim r2 = leadOf dim r := by
        by_contra hne
        exact hc (hff.mpr fun hh => hne hh.symm)
      obtain ⟨grp, rest, g1, g2, g3, g4⟩ := group hd h.tail
      refine ⟨r2 :: grp, rest, by rw [g1]; rfl, g2, ?_, by rw [← he]; exact g4⟩
      intro r' hr'
      rcases List.mem_cons.mp hr' with rfl | hr'
      · exact ⟨hc, he⟩
      · exact ⟨(g3 r' hr').1, (g3 r' hr').2.trans he⟩

/-- the cell of row `l` and column `u`: the text of the record with this key, or empty; `C` says which text belongs to a record -/
def CellOf (C : RecOut Int → Str → Prop) (outs : List (RecOut Int)) (l : List Int) (u : Int) (t : Str) : Prop :=
  (∃ r ∈ outs, r.key = l ++ [u] ∧ C r t) ∨ ((∀ r ∈ outs, r.key ≠ l ++ [u]) ∧ t = [])

/-- The table of a symbol: a row for every beginning of a key, in their order; its fields are the labels of the beginning and the cells. -/
structure IsTable (C : RecOut Int → Str → Prop) (g : Gx) (dim : Nat) (us : List Int) (outs : List (RecOut Int)) (leads : List (List Int)) (rows : List (List Str)) : Prop where
  sorted : leads.Pairwise (· < ·)
  mem : ∀ l, l ∈ leads ↔ ∃ r ∈ outs, r.key.take (dim - 1) = l
  rows : List.Forall₂ (fun l row => ∃ ls ts, row = ls ++ ts ∧ List.Forall₂ (LabelIs g) l ls ∧ List.Forall₂ (CellOf C outs l) us ts) leads rows

theorem key_split {dim : Nat} (hd : 1 ≤ dim) {r : RecOut Int} (hl : r.key.length = dim) {l : List Int} {u : Int} : r.key = l ++ [u] ↔ leadOf dim r = l ∧ lastOf dim r = some u := by
  constructor
  · intro h
    have : l.length = dim - 1 := by
      rw [h] at hl
      simp at hl
      omega
    unfold leadOf lastOf
    rw [h, ← this]
    simp
  · rintro ⟨rfl, h2⟩
    have hlt := (List.getElem?_eq_some_iff.mp h2)
    have h3 := List.take_append_getElem (l := r.key) (i := dim - 1) hlt.1
    rw [hlt.2, show dim - 1 + 1 = dim by omega, ← hl, List.take_length] at h3
    unfold leadOf
    rw [← hl]
    exact h3.symm

theorem joined_more {d : UInt8} {ks ts : List Str} (h : ks ≠ []) : joined d ks ++ (ts.map fun t => [d] ++ t).flatten = joined d (ks ++ ts) := by
  cases ks with
  | nil => exact absurd rfl h
  | cons k ks => simp [joined_cons]

theorem CellIs.bare {o : Opt} {g : Gx} {typ : Nat} {r : RecOut Int} {t : Str} (hY : o.delim ≠ 89) (h : CellIs o g typ r t) : Bare o.delim t := by
  unfold CellIs at h
  split at h
  · rw [h]
    intro c hc
    rw [List.mem_singleton.mp hc]
    exact ⟨hY.symm, by decide, fun hc => absurd hc.1 (by decide)⟩
  · obtain ⟨_, _, _, h⟩ := h
    exact h.2

theorem bare_fields {α : Type} {R : α → Str → Prop} {d : UInt8} {us : List α} {ts : List Str} (h : List.Forall₂ R us ts) (hb : ∀ u t, R u t → Bare d t) :
    List.Forall₂ (IsField d) ts ts := by
  induction h with
  | nil => exact .nil
  | cons q _ ih => exact .cons (bare_field (hb _ _ q)) ih

theorem colLines_ok {o : Opt} {g0 gE : Gx} {dim typ : Nat} (h1 : o.delim ≠ 34) (h2 : o.delim ≠ 10) (h3 : o.delim ≠ 89) (hd : 2 ≤ dim) {us : List Int} (hus : us.Pairwise (· < ·)) {fc : Nat} :
    ∀ (N : Nat) (rs : List (RecOut Int)) (r : RecOut Int) (g : Gx) (f : Nat), rs.length < N → DeliversRaw g rs gE → g.fixed = g0.fixed → g0.nextAuto ≤ 0 → g0.nrMapped = 0 →
      InOrder dim (r :: rs) → (∀ r' ∈ r :: rs, (∃ y, lastOf dim r' = some y ∧ y ∈ us) ∧ (∃ t, CellIs o g0 typ r' t) ∧ ∃ ls, List.Forall₂ (LabelIs g0) (leadOf dim r') ls) →
      rs.length < f → rs.length < fc →
      ∃ leads lines rows, colLines o dim typ us fc f g (some r) = .ok (gE, lines.flatten, 0) ∧ List.Forall₂ (IsLine o.delim) lines rows ∧
        IsTable (CellIs o g0 typ) g0 dim us (r :: rs) leads rows := by
  intro N
  induction N with
  | zero => intro rs r g f hN; omega
  | succ N ih =>
    intro rs r g f hN hdel hfix ha hn hord hall hf hfc
    have hd1 : 1 ≤ dim := by omega
    obtain ⟨grp, rest, hrs, hr1, hr2, hr3⟩ := group hd1 hord
    obtain ⟨⟨x, x1, x2⟩, _, ls, hls⟩ := hall r (by simp)
    have hmem : ∀ r' ∈ r :: grp, r' ∈ r :: rs := by
      intro r' hr'
      rw [hrs]
      rcases List.mem_cons.mp hr' with rfl | hr'
      · simp
      · simp [hr']
    have hleadeq : ∀ r' ∈ r :: grp, leadOf dim r' = leadOf dim r := by
      intro r' hr'
      rcases List.mem_cons.mp hr' with rfl | hr'
      · rfl
      · exact (hr2 r' hr').2
    have hpw : (r :: grp).Pairwise (fun a b => ∀ x y, lastOf dim a = some x → lastOf dim b = some y → x < y) := by
      have hlt := (hord.lt hd1)
      rw [hrs, ← List.cons_append, List.pairwise_append] at hlt
      refine hlt.1.imp_of_mem fun {a b} ha hb hab => ?_
      rcases hab with hab | hab
      · rw [hleadeq a ha, hleadeq b hb] at hab
        exact absurd hab (lt_irrefl _)
      · exact hab.2
    cases f with
    | zero => omega
    | succ f =>
      obtain ⟨g', n, ts, c1, c2, c3, c4⟩ := colCells_ok (o := o) (g0 := g0) (typ := typ) hd1 hus hr1 grp r x g 0 fc (hrs ▸ hdel) hfix
        (by rw [show g.nextAuto = g0.nextAuto from RFix.auto hfix]; exact ha) ((congrArg Fixed.nrm hfix).trans hn) x1 (by simpa using x2)
        (fun r' hr' => ⟨(hr2 r' hr').1, by simpa using (hall r' (hmem r' (by simp [hr']))).1⟩) hpw (fun r' hr' => (hall r' (hmem r' hr')).2.1) (by rw [hrs] at hfc; simp at hfc; omega)
      rw [List.drop_zero] at c2
      have hkeys := csvKeys_ok (o := o) (hls.imp fun _ _ hh => (View.of_fixed hfix).label hh)
      have hlsne : ls.map (qqcsv o.delim) ≠ [] := by
        intro hc
        rw [List.map_eq_nil_iff] at hc
        have := hls.length_eq
        rw [hc, List.length_take, hord.len r (by simp)] at this
        simp at this
        omega
      have hline : IsLine o.delim (joined o.delim (ls.map (qqcsv o.delim)) ++ (ts.map fun t => [o.delim] ++ t).flatten ++ [10]) (ls ++ ts) := by
        rw [joined_more hlsne]
        refine line_of h1 h2 (forall₂_append (labels_fields hls) ?_) (by simp [hlsne])
        refine bare_fields c2 ?_
        rintro u t (⟨_, _, _, q⟩ | ⟨_, rfl⟩)
        · exact q.bare h3
        · intro c hc
          cases hc
      have hcellrow : ∀ (later : List (RecOut Int)), (∀ r' ∈ later, leadOf dim r < leadOf dim r' ∧ r'.key.length = dim) → ∀ u t, CellAt o g0 typ dim (r :: grp) u t →
          CellOf (CellIs o g0 typ) (r :: grp ++ later) (leadOf dim r) u t := by
        intro later hl u t hc
        rcases hc with ⟨r', q1, q2, q3⟩ | ⟨q1, q2⟩
        · exact Or.inl ⟨r', List.mem_append_left _ q1, (key_split hd1 (hord.len r' (hmem r' q1))).mpr ⟨hleadeq r' q1, q2⟩, q3⟩
        · refine Or.inr ⟨?_, q2⟩
          intro r' hr' hk
          rcases List.mem_append.mp hr' with hr' | hr'
          · exact q1 r' hr' ((key_split hd1 (hord.len r' (hmem r' hr'))).mp hk).2
          · have := ((key_split hd1 (hl r' hr').2).mp hk).1
            have h5 := (hl r' hr').1
            rw [this] at h5
            exact lt_irrefl _ h5
      cases rest with
      | nil =>
        obtain ⟨rfl, rfl⟩ := c3
        rw [List.append_nil] at hrs
        subst hrs
        refine ⟨[leadOf dim r], [_], [ls ++ ts], ?_, .cons hline .nil, ⟨by simp, ?_, .cons ⟨ls, ts, rfl, hls, c2.imp fun _ _ hh => ?_⟩ .nil⟩⟩
        · unfold colLines
          rw [hkeys, Res.bind_ok]
          have c1' : colCells o dim typ us fc g r (-1) = _ := c1
          simp only [c1', Res.bind_ok]
          unfold colLines
          simp [Res.pure_eq]
        · intro l
          rw [List.mem_singleton]
          constructor
          · rintro rfl
            exact ⟨r, by simp, rfl⟩
          · rintro ⟨r', hr', rfl⟩
            exact hleadeq r' hr'
        · have := hcellrow [] (by simp) _ _ hh
          simpa using this
      | cons r2 rest =>
        obtain ⟨rfl, hdel2⟩ := c3
        have hord2 : InOrder dim (r2 :: rest) := by
          have := hord
          rw [hrs, ← List.cons_append] at this
          exact this.drop
        have hsub : ∀ r' ∈ r2 :: rest, r' ∈ r :: rs := by
          intro r' hr'
          rw [hrs]
          exact List.mem_cons_of_mem _ (List.mem_append_right _ hr')
        have hlen : rs.length = grp.length + (rest.length + 1) := by rw [hrs]; simp
        obtain ⟨leads, lines, rows, i1, i2, i3⟩ := ih rest r2 g' f (by omega) hdel2 c4 ha hn hord2 (fun r' hr' => hall r' (hsub r' hr')) (by omega) (by omega)
        refine ⟨leadOf dim r :: leads, _ :: lines, (ls ++ ts) :: rows, ?_, .cons hline i2, ⟨?_, ?_, .cons ⟨ls, ts, rfl, hls, c2.imp fun _ _ hh => ?_⟩ ?_⟩⟩
        · unfold colLines
          rw [hkeys, Res.bind_ok]
          have c1' : colCells o dim typ us fc g r (-1) = _ := c1
          simp only [c1', Res.bind_ok, i1, Res.pure_eq, List.flatten_cons]
        · rw [List.pairwise_cons]
          refine ⟨fun l hl => ?_, i3.sorted⟩
          obtain ⟨r', q1, rfl⟩ := (i3.mem l).mp hl
          exact hr3 r' q1
        · intro l
          rw [List.mem_cons, i3.mem, hrs]
          constructor
          · rintro (rfl | ⟨r', q1, q2⟩)
            · exact ⟨r, by simp, rfl⟩
            · exact ⟨r', List.mem_cons_of_mem _ (List.mem_append_right _ q1), q2⟩
          · rintro ⟨r', q1, rfl⟩
            rw [← List.cons_append] at q1
            rcases List.mem_append.mp q1 with q1 | q1
            · exact Or.inl (hleadeq r' q1)
            · exact Or.inr ⟨r', q1, rfl⟩
        · have := hcellrow (r2 :: rest) (fun r' hr' => ⟨hr3 r' hr', hord.len r' (hsub r' hr')⟩) _ _ hh
          rw [hrs]
          exact this
        · refine forall₂_mem_imp i3.rows ?_
          rintro l hl row ⟨ls', ts', q1, q2, q3⟩
          refine ⟨ls', ts', q1, q2, q3.imp fun u t hh => ?_⟩
          obtain ⟨rl, rl1, rl2⟩ := (i3.mem l).mp hl
          have hlt : leadOf dim r < l := by
            rw [← rl2]
            exact hr3 rl rl1
          rw [hrs]
          rcases hh with ⟨r', w1, w2⟩ | ⟨w1, w2⟩
          · exact Or.inl ⟨r', List.mem_cons_of_mem _ (List.mem_append_right _ w1), w2⟩
          · refine Or.inr ⟨?_, w2⟩
            intro r' hr' hk
            rw [← List.cons_append] at hr'
            rcases List.mem_append.mp hr' with hr' | hr'
            · have := ((key_split hd1 (hord.len r' (hmem r' hr'))).mp hk).1
              rw [hleadeq r' hr'] at this
              rw [this] at hlt
              exact lt_irrefl _ hlt
            · exact w1 r' hr' hk

end Gdx.Dump
