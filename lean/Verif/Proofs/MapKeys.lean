import Verif.Proofs.StatInv
import Verif.Proofs.MapRead

/-! Facts about the translation of records that do not depend on the reader: nothing is invented, different keys stay different, first
    changed positions. -/

namespace Gdx
open Gdx.Spec Gdx.Props

/-- Without expanding positions the numbers do not change, and the admitted records are delivered. -/
theorem mapAll_noGrow {α : Type} {us : Users} {acts : List Act} (h : Act.grow ∉ acts) : ∀ (rs : List (List Int × α)),
    mapAll acts us rs = (us, (rs.filter fun x => allAdmit us acts x.1).map fun x => (mapKeys us acts x.1, x.2))
  | [] => rfl
  | (k, x) :: rs => by
    unfold mapAll
    have ih := mapAll_noGrow (us := us) h rs
    rw [giveAll_notGrow h]
    by_cases hb : allAdmit us acts k = true
    · rw [if_pos hb]
      simp [hb, ih]
    · rw [if_neg hb]
      simp [hb, ih]

theorem allAdmit_free {us : Users} : ∀ {acts : List Act} {key : List Int}, (∀ a ∈ acts, a = .keep ∨ a = .grow) → allAdmit us acts key = true
  | [], _, _ => by unfold allAdmit; rfl
  | a :: acts, [], _ => by unfold allAdmit; rfl
  | a :: acts, e :: key, h => by
    unfold allAdmit
    rw [allAdmit_free fun b hb => h b (by simp [hb]), Bool.and_true]
    rcases h a (by simp) with rfl | rfl <;> rfl

/-- Without strict and filtered positions every record is delivered. -/
theorem mapAll_free {α : Type} {acts : List Act} (h : ∀ a ∈ acts, a = .keep ∨ a = .grow) : ∀ (rs : List (List Int × α)) (us : Users), 0 ≤ us.hi →
    (∀ x ∈ rs, x.1.length = acts.length) →
    (mapAll acts us rs).2 = rs.map (fun x => (mapKeys (mapAll acts us rs).1 acts x.1, x.2)) := by
  intro rs us h0 hl
  have hok : ∀ a ∈ acts, ActOk a := by
    intro a ha
    rcases h a ha with rfl | rfl
    · rintro p ⟨⟩
    · rintro p ⟨⟩
  obtain ⟨sub, p1, p2, _⟩ := mapAll_final hok rs us h0 hl
  have hlen : ∀ (rs : List (List Int × α)) (us : Users), (mapAll acts us rs).2.length = rs.length := by
    intro rs
    induction rs with
    | nil => intro us; rfl
    | cons x rs ih =>
      intro us
      obtain ⟨k, x⟩ := x
      unfold mapAll
      rw [if_pos (allAdmit_free h)]
      simp [ih]
  have : sub.length = rs.length := by
    have := hlen rs us
    rwa [p2, List.length_map] at this
  rw [p2, p1.eq_of_length this]

/-- numbers are not shared -/
def NumInj (us : Users) : Prop := ∀ e e', 0 ≤ us.num e → us.num e = us.num e' → e = e'

theorem NumInj.give {us : Users} (h : NumInj us) (hn : ∀ e, us.num e ≤ us.hi) (e : Int) : NumInj (us.give e) ∧ ∀ x, (us.give e).num x ≤ (us.give e).hi := by
  unfold Users.give
  split
  · constructor
    · intro a b h0 hab
      simp only at h0 hab
      have ha := hn a
      have hb := hn b
      split at hab <;> split at hab
      · rename_i h1 h2; rw [h1, h2]
      · omega
      · omega
      · rename_i h1 h2
        rw [if_neg h1] at h0
        exact h a b h0 hab
    · intro x
      simp only
      have := hn x
      split <;> omega
  · exact ⟨h, hn⟩

theorem NumInj.giveAll : ∀ {acts : List Act} {key : List Int} {us : Users}, NumInj us → (∀ e, us.num e ≤ us.hi) →
    NumInj (giveAll acts key us) ∧ ∀ x, (Spec.giveAll acts key us).num x ≤ (Spec.giveAll acts key us).hi
  | [], key, us, h, hn => by cases key <;> exact ⟨h, hn⟩
  | a :: acts, [], us, h, hn => by cases a <;> exact ⟨h, hn⟩
  | a :: acts, e :: key, us, h, hn => by
    cases a with
    | grow => exact NumInj.giveAll (acts := acts) (key := key) (h.give hn e).1 (h.give hn e).2
    | keep => exact NumInj.giveAll (acts := acts) (key := key) h hn
    | only p => exact NumInj.giveAll (acts := acts) (key := key) h hn
    | mapped => exact NumInj.giveAll (acts := acts) (key := key) h hn

theorem NumInj.mapAll {α : Type} {acts : List Act} : ∀ (rs : List (List Int × α)) {us : Users}, NumInj us → (∀ e, us.num e ≤ us.hi) →
    NumInj (mapAll acts us rs).1
  | [], us, h, _ => h
  | (k, x) :: rs, us, h, hn => by
    unfold Spec.mapAll
    split
    · exact NumInj.mapAll rs (h.giveAll hn).1 (h.giveAll hn).2
    · exact NumInj.mapAll rs h hn

theorem goodPos_inj {us : Users} (h : NumInj us) {a : Act} (ha : ActOk a) {e e' : Int} (h1 : GoodPos us a e) (hk : a.key us e = a.key us e') : e = e' := by
  cases a with
  | keep => exact hk
  | only p => exact h e e' (ha p rfl _ h1.1) hk
  | mapped => exact h e e' (of_decide_eq_true h1.1) hk
  | grow => exact h e e' (h1.2 rfl) hk

theorem mapKeys_inj {us : Users} (h : NumInj us) : ∀ {acts : List Act} {k k' : List Int}, (∀ a ∈ acts, ActOk a) → AllGood us acts k → AllGood us acts k' →
    mapKeys us acts k = mapKeys us acts k' → k = k'
  | [], _, _, _, .nil, .nil, _ => rfl
  | a :: acts, e :: k, e' :: k', ha, .cons h1 h2, .cons h3 h4, he => by
    simp only [mapKeys, List.zipWith_cons_cons, List.cons.injEq] at he
    rw [goodPos_inj h (ha a (by simp)) h1 he.1, mapKeys_inj h (fun b hb => ha b (by simp [hb])) h2 h4 he.2]

/-- Different keys stay different. -/
theorem mapAll_nodup {α : Type} {acts : List Act} (ha : ∀ a ∈ acts, ActOk a) {rs : List (List Int × α)} {us : Users} (h0 : 0 ≤ us.hi)
    (hi : NumInj us) (hn : ∀ e, us.num e ≤ us.hi) (hl : ∀ x ∈ rs, x.1.length = acts.length) (hs : (rs.map Prod.fst).Nodup) :
    ((mapAll acts us rs).2.map Prod.fst).Nodup := by
  obtain ⟨sub, p1, p2, p3⟩ := mapAll_final ha rs us h0 hl
  have hj := hi.mapAll (acts := acts) rs hn
  have hsub : (sub.map Prod.fst).Nodup := hs.sublist (p1.map Prod.fst)
  rw [p2, List.map_map]
  unfold List.Nodup at hsub ⊢
  rw [List.pairwise_map] at hsub ⊢
  refine hsub.imp_of_mem ?_
  intro x y hx hy hxy he
  exact hxy (mapKeys_inj hj ha (p3 x hx) (p3 y hy) he)

theorem mapKeys_pos {us : Users} : ∀ {acts : List Act} {k : List Int}, (∀ a ∈ acts, ActOk a) → AllGood us acts k → (∀ e ∈ k, 1 ≤ e) →
    ∀ v ∈ mapKeys us acts k, 0 ≤ v
  | [], _, _, .nil, _, v, hv => by simp [mapKeys] at hv
  | a :: acts, e :: k, ha, .cons h1 h2, hp, v, hv => by
    simp only [mapKeys, List.zipWith_cons_cons, List.mem_cons] at hv
    rcases hv with rfl | hv
    · cases a with
      | keep => have := hp e (by simp); show 0 ≤ e; omega
      | only p => exact ha _ (by simp) p rfl _ h1.1
      | mapped => exact of_decide_eq_true h1.1
      | grow => exact h1.2 rfl
    · exact mapKeys_pos (fun b hb => ha b (by simp [hb])) h2 (fun x hx => hp x (by simp [hx])) v hv

/-- Delivered keys have the right length and no negative entries. -/
theorem mapAll_keys {α : Type} {acts : List Act} (ha : ∀ a ∈ acts, ActOk a) {rs : List (List Int × α)} {us : Users} (h0 : 0 ≤ us.hi)
    (hl : ∀ x ∈ rs, x.1.length = acts.length) (hp : ∀ x ∈ rs, ∀ e ∈ x.1, 1 ≤ e) :
    ∀ x ∈ (mapAll acts us rs).2, x.1.length = acts.length ∧ ∀ v ∈ x.1, 0 ≤ v := by
  obtain ⟨sub, p1, p2, p3⟩ := mapAll_final ha rs us h0 hl
  intro x hx
  rw [p2] at hx
  obtain ⟨y, hy, rfl⟩ := List.mem_map.mp hx
  have hy' := p1.subset hy
  refine ⟨?_, mapKeys_pos ha (p3 y hy) (hp y hy')⟩
  simp [mapKeys, hl y hy']

theorem frstDiff_spec {p k : List Int} (hl : k.length ≤ p.length) (hne : p.take k.length ≠ k) : FirstDiff p k (frstDiff p k) := by
  induction k generalizing p with
  | nil => exact absurd rfl hne
  | cons b k ih =>
    cases p with
    | nil => simp at hl
    | cons a p =>
      unfold frstDiff
      by_cases hab : a = b
      · subst hab
        have hne' : p.take k.length ≠ k := fun h => hne (by simp [h])
        obtain ⟨c1, ⟨x, y, c2, c3, c4⟩, c5⟩ := ih (by simpa using hl) hne'
        simp only [List.zip_cons_cons, List.findIdx?_cons, bne_self_eq_false, Bool.false_eq_true, if_false]
        unfold frstDiff at c1 c2 c3 c5
        cases hf : (List.zip p k).findIdx? fun p => p.1 != p.2 with
        | none => rw [hf] at c1; simp at c1
        | some d =>
          rw [hf] at c1 c2 c3 c5
          simp only [Option.map_some]
          refine ⟨by omega, ⟨x, y, ?_, ?_, c4⟩, ?_⟩
          · simpa using c2
          · simpa using c3
          · intro j j1 j2
            cases j with
            | zero => omega
            | succ j =>
              cases j with
              | zero => simp
              | succ j =>
                have := c5 (j + 1) (by omega) (by simpa using j2)
                simpa using this
      · have : (a != b) = true := by simpa using hab
        simp only [List.zip_cons_cons, List.findIdx?_cons, this, if_true]
        exact ⟨Nat.le_refl _, ⟨a, b, rfl, rfl, hab⟩, by intro j j1 j2; omega⟩

/-- first changed positions after a record -/
theorem mapOuts_next {d : Nat} : ∀ (out : List (List Int × List Dbl)) (p : List Int), p.length = d → (∀ x ∈ out, x.1.length = d) →
    (p :: out.map Prod.fst).Pairwise (· ≠ ·) → ∀ (i : Nat) (k : List Int) (f : Nat), (keysOf (mapOuts p out))[i]? = some (k, f) →
      ∃ q, (p :: out.map Prod.fst : List (List Int))[i]? = some q ∧ FirstDiff q k f
  | [], _, _, _, _, i, k, f, h => by simp [mapOuts, keysOf] at h
  | (a, v) :: out, p, hp, hl, hd, i, k, f, h => by
    have ha : a.length = d := hl (a, v) (by simp)
    obtain ⟨hd1, hd2⟩ := List.pairwise_cons.mp hd
    cases i with
    | zero =>
      simp only [mapOuts, keysOf, List.map_cons, List.getElem?_cons_zero, Option.some.injEq, Prod.mk.injEq] at h
      obtain ⟨rfl, rfl⟩ := h
      refine ⟨p, rfl, frstDiff_spec (by omega) ?_⟩
      rw [List.take_of_length_le (by omega)]
      exact hd1 a (by simp)
    | succ i =>
      simp only [mapOuts, keysOf, List.map_cons, List.getElem?_cons_succ] at h
      obtain ⟨q, q1, q2⟩ := mapOuts_next out a ha (fun x hx => hl x (by simp [hx])) hd2 i k f h
      exact ⟨q, q1, q2⟩

theorem frstDiff_first {d : Nat} (hd : d ≠ 0) (rest : List Int) {k : List Int} (hl : k.length = d) (hp : ∀ v ∈ k, 0 ≤ v) :
    frstDiff (List.replicate d (-1) ++ rest) k = 1 := by
  cases k with
  | nil => exact absurd hl.symm hd
  | cons b k =>
    cases d with
    | zero => exact absurd rfl hd
    | succ d =>
      have hb := hp b (by simp)
      have : ((-1 : Int) != b) = true := by simp; omega
      unfold frstDiff
      simp [List.replicate_succ, List.findIdx?_cons, this]

theorem frstDiff_nil (p : List Int) : frstDiff p [] = 0 := by
  unfold frstDiff
  simp

theorem mapOuts_pairs : ∀ (out : List (List Int × List Dbl)) (p : List Int), recPairs (mapOuts p out) = out
  | [], _ => rfl
  | (k, v) :: out, p => by
    have := mapOuts_pairs out k
    unfold recPairs at this ⊢
    simp [mapOuts, this]

theorem mapOuts_scalar : ∀ (out : List (List Int × List Dbl)) (p : List Int), (∀ x ∈ out, x.1 = []) → ∀ o ∈ mapOuts p out, o.frst = 0
  | [], _, _, o, h => by cases h
  | (k, v) :: out, p, hl, o, h => by
    have hk : k = [] := hl (k, v) (by simp)
    subst hk
    rcases List.mem_cons.mp h with rfl | h
    · exact frstDiff_nil p
    · exact mapOuts_scalar out [] (fun x hx => hl x (by simp [hx])) o h

/-- The first changed positions of the mapped reader are the right ones. -/
theorem mapOuts_firsts {d : Nat} (rest : List Int) (out : List (List Int × List Dbl)) (hl : ∀ x ∈ out, x.1.length = d ∧ ∀ v ∈ x.1, 0 ≤ v)
    (hs : d ≠ 0 → (out.map Prod.fst).Pairwise (· ≠ ·)) : FirstsOk d (keysOf (mapOuts (List.replicate d (-1) ++ rest) out)) := by
  intro i k f h
  by_cases hd : d = 0
  · rw [if_pos hd]
    unfold keysOf at h
    rw [List.getElem?_map, Option.map_eq_some_iff] at h
    obtain ⟨o, h1, h2⟩ := h
    have := mapOuts_scalar out _ (fun x hx => List.length_eq_zero_iff.mp (by rw [(hl x hx).1, hd])) o (List.mem_of_getElem? h1)
    cases h2
    exact this
  · rw [if_neg hd]
    cases out with
    | nil => simp [mapOuts, keysOf] at h
    | cons x out =>
      obtain ⟨a, v⟩ := x
      have ha := hl (a, v) (by simp)
      cases i with
      | zero =>
        simp only [mapOuts, keysOf, List.map_cons, List.getElem?_cons_zero, Option.some.injEq, Prod.mk.injEq] at h
        obtain ⟨rfl, rfl⟩ := h
        exact frstDiff_first hd rest ha.1 ha.2
      | succ i =>
        simp only [mapOuts, keysOf, List.map_cons, List.getElem?_cons_succ] at h
        obtain ⟨q, q1, q2⟩ := mapOuts_next out a ha.1 (fun x hx => (hl x (by simp [hx])).1) (by simpa using hs hd) i k f h
        simp only [keysOf, mapOuts, List.map_cons]
        have hk : ∀ (out : List (List Int × List Dbl)) (p : List Int), (mapOuts p out).map RecOut.key = out.map Prod.fst := by
          intro out
          induction out with
          | nil => intro p; rfl
          | cons y out ih => intro p; obtain ⟨y1, y2⟩ := y; simp [mapOuts, ih]
        cases i with
        | zero =>
          refine ⟨_, rfl, ?_⟩
          cases q1
          exact q2
        | succ i =>
          rw [List.getElem?_cons_succ, ← hk out a, List.getElem?_map, Option.map_eq_some_iff] at q1
          obtain ⟨o, o1, rfl⟩ := q1
          refine ⟨(o.key, o.frst), ?_, q2⟩
          rw [List.getElem?_cons_succ, List.getElem?_map, o1]
          rfl

/-- sorting what is in order already changes nothing -/
theorem stableSorted_self {α : Type} {key : α → List Int} {l : List α} (h : (l.map key).Pairwise (· < ·)) : StableSorted key l l := by
  refine ⟨?_, fun _ => rfl⟩
  rw [List.pairwise_map] at h
  exact h.imp fun hab hba => lt_asymm hab hba

theorem stableSorted_strict {α : Type} {key : α → List Int} {a b : List α} (h : StableSorted key a b) (hn : (a.map key).Nodup) :
    (b.map key).Pairwise (· < ·) := by
  classical
  have hlen : ∀ k, (b.filter fun x => key x = k).length ≤ 1 := by
    intro k
    rw [h.stable k]
    have : ((a.filter fun x => key x = k).map key).Nodup := hn.sublist (List.Sublist.map key List.filter_sublist)
    have hall : ∀ y ∈ (a.filter fun x => key x = k).map key, y = k := by
      intro y hy
      obtain ⟨x, hx, rfl⟩ := List.mem_map.mp hy
      simpa using (List.mem_filter.mp hx).2
    match hq : (a.filter fun x => key x = k), this, hall with
    | [], _, _ => simp
    | [_], _, _ => simp
    | x :: y :: r, hnd, hall =>
      simp only [List.map_cons, List.nodup_cons, List.mem_cons, not_or] at hnd
      exact absurd ((hall (key x) (by simp)).trans (hall (key y) (by simp)).symm) hnd.1.1
  have hsort := h.sorted
  rw [List.pairwise_map]
  clear h hn
  induction b with
  | nil => exact .nil
  | cons x b ih =>
    obtain ⟨s1, s2⟩ := List.pairwise_cons.mp hsort
    refine List.Pairwise.cons ?_ (ih (fun k => ?_) s2)
    · intro y hy
      rcases lt_trichotomy (key x) (key y) with h1 | h1 | h1
      · exact h1
      · have := hlen (key x)
        simp only [List.filter_cons, decide_true, if_true, List.length_cons] at this
        have hmem : y ∈ b.filter fun z => key z = key x := List.mem_filter.mpr ⟨hy, by simp [h1]⟩
        have := List.length_pos_of_mem hmem
        omega
      · exact absurd h1 (s1 y hy)
    · have := hlen k
      simp only [List.filter_cons] at this
      split at this
      · simp only [List.length_cons] at this
        omega
      · exact this

end Gdx
