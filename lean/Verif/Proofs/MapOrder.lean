import Verif.Proofs.MapStart

/-! When the streaming reader delivers the records in order. -/

namespace Gdx
open Gdx.Spec

/-! ### increasing numbers -/

/-- the numbers increase with the elements -/
def Mono (us : Users) : Prop := ∀ e e', e < e' → 0 ≤ us.num e → 0 ≤ us.num e' → us.num e < us.num e'

/-- an element that can be delivered in a position -/
def GoodPos (us : Users) (a : Act) (e : Int) : Prop := a.admits us e = true ∧ (a = .grow → 0 ≤ us.num e)

def AllGood (us : Users) (acts : List Act) (key : List Int) : Prop := List.Forall₂ (GoodPos us) acts key

def PosMono (us : Users) (a : Act) : Prop := ∀ e e', e < e' → GoodPos us a e → GoodPos us a e' → a.key us e < a.key us e'

theorem mapKeys_lt {us : Users} : ∀ {acts : List Act} {k k' : List Int}, (∀ a ∈ acts, PosMono us a) → AllGood us acts k → AllGood us acts k' → k < k' →
    mapKeys us acts k < mapKeys us acts k'
  | [], _, _, _, .nil, .nil, h => by cases h
  | a :: acts, e :: k, e' :: k', hp, .cons h1 h2, .cons h3 h4, h => by
    simp only [mapKeys, List.zipWith_cons_cons]
    rw [List.cons_lt_cons_iff] at h ⊢
    rcases h with h | ⟨rfl, h⟩
    · exact Or.inl (hp a (by simp) e e' h h1 h3)
    · exact Or.inr ⟨rfl, mapKeys_lt (fun b hb => hp b (by simp [hb])) h2 h4 h⟩

theorem posMono_keep (us : Users) : PosMono us .keep := fun _ _ h _ _ => h

theorem posMono_mono {us : Users} (h : Mono us) {a : Act} (ha : ActOk a) : PosMono us a := by
  intro e e' hlt h1 h2
  cases a with
  | keep => exact hlt
  | only p => exact h e e' hlt (ha p rfl _ h1.1) (ha p rfl _ h2.1)
  | mapped => exact h e e' hlt (by simpa [Act.admits] using h1.1) (by simpa [Act.admits] using h2.1)
  | grow => exact h e e' hlt (h1.2 rfl) (h2.2 rfl)

/-! ### the final numbers -/

theorem giveAll_good {us : Users} (h0 : 0 ≤ us.hi) : ∀ {acts : List Act} {key : List Int}, acts.length = key.length → (∀ a ∈ acts, ActOk a) →
    allAdmit us acts key = true → AllGood (giveAll acts key us) acts key := by
  intro acts
  induction acts generalizing us with
  | nil =>
    intro key hl _ _
    cases key with
    | nil => exact .nil
    | cons => cases hl
  | cons a acts ih =>
    intro key hl ha hadm
    cases key with
    | nil => cases hl
    | cons e key =>
      simp only [allAdmit, Bool.and_eq_true] at hadm
      have hl' : acts.length = key.length := by simpa using hl
      have ha' : ∀ b ∈ acts, ActOk b := fun b hb => ha b (by simp [hb])
      by_cases hg : a = .grow
      · subst hg
        simp only [giveAll]
        have hle := give_le us e
        have h1 := allAdmit_le hle ha' hadm.2
        have hh : 0 ≤ (us.give e).hi := Int.le_trans h0 hle.hi
        refine .cons ⟨rfl, fun _ => ?_⟩ (ih hh hl' ha' h1)
        have h2 := giveAll_le acts key (us.give e)
        have h3 : 0 ≤ (us.give e).num e := by
          unfold Users.give
          split
          · show 0 ≤ (if e = e then us.hi + 1 else us.num e)
            rw [if_pos rfl]
            omega
          · omega
        rw [h2.keep e h3]
        exact h3
      · have : giveAll (a :: acts) (e :: key) us = giveAll acts key us := by cases a <;> first | rfl | exact absurd rfl hg
        rw [this]
        refine .cons ⟨admits_le (giveAll_le acts key us) (ha a (by simp)) hadm.1, fun h => absurd h hg⟩ (ih h0 hl' ha' hadm.2)

theorem goodPos_le {us us' : Users} (h : ULe us us') {a : Act} (ha : ActOk a) {e : Int} (hg : GoodPos us a e) : GoodPos us' a e ∧ a.key us' e = a.key us e := by
  cases a with
  | keep => exact ⟨⟨rfl, fun h => by cases h⟩, rfl⟩
  | only p =>
    have h1 := h.keep e (ha p rfl _ hg.1)
    exact ⟨⟨by show p (us'.num e) = true; rw [h1]; exact hg.1, fun h => by cases h⟩, h1⟩
  | mapped =>
    have h1 := h.keep e (by simpa [Act.admits] using hg.1)
    exact ⟨⟨by show decide (0 ≤ us'.num e) = true; rw [h1]; exact hg.1, fun h => by cases h⟩, h1⟩
  | grow =>
    have h1 := h.keep e (hg.2 rfl)
    exact ⟨⟨rfl, fun _ => by rw [h1]; exact hg.2 rfl⟩, h1⟩

theorem allGood_le {us us' : Users} (h : ULe us us') : ∀ {acts : List Act} {key : List Int}, (∀ a ∈ acts, ActOk a) → AllGood us acts key →
    AllGood us' acts key ∧ mapKeys us' acts key = mapKeys us acts key
  | [], _, _, .nil => ⟨.nil, rfl⟩
  | a :: acts, e :: key, ha, .cons h1 h2 => by
    obtain ⟨p1, p2⟩ := goodPos_le h (ha a (by simp)) h1
    obtain ⟨p3, p4⟩ := allGood_le h (fun b hb => ha b (by simp [hb])) h2
    refine ⟨.cons p1 p3, ?_⟩
    unfold mapKeys at *
    rw [List.zipWith_cons_cons, List.zipWith_cons_cons, p2, p4]

theorem mapAll_le {α : Type} (acts : List Act) : ∀ (rs : List (List Int × α)) (us : Users), ULe us (mapAll acts us rs).1
  | [], us => ULe.refl us
  | (k, x) :: rs, us => by
    unfold mapAll
    split
    · exact (giveAll_le acts k us).trans (mapAll_le acts rs _)
    · exact mapAll_le acts rs us

/-- What is delivered can be told from the final numbers: some of the records, each translated by them. -/
theorem mapAll_final {α : Type} {acts : List Act} (ha : ∀ a ∈ acts, ActOk a) : ∀ (rs : List (List Int × α)) (us : Users), 0 ≤ us.hi →
    (∀ x ∈ rs, x.1.length = acts.length) →
    ∃ sub : List (List Int × α), sub.Sublist rs ∧ (mapAll acts us rs).2 = sub.map (fun x => (mapKeys (mapAll acts us rs).1 acts x.1, x.2)) ∧
      ∀ x ∈ sub, AllGood (mapAll acts us rs).1 acts x.1
  | [], us, _, _ => ⟨[], List.Sublist.refl _, rfl, by simp⟩
  | (k, x) :: rs, us, h0, hl => by
    have hl' : ∀ x ∈ rs, x.1.length = acts.length := fun y hy => hl y (by simp [hy])
    unfold mapAll
    split
    · rename_i hadm
      have hle := giveAll_le acts k us
      obtain ⟨sub, p1, p2, p3⟩ := mapAll_final ha rs (giveAll acts k us) (Int.le_trans h0 hle.hi) hl'
      obtain ⟨q1, q2⟩ := allGood_le (mapAll_le acts rs (giveAll acts k us)) ha (giveAll_good h0 (hl (k, x) (by simp)).symm ha hadm)
      refine ⟨(k, x) :: sub, p1.cons_cons _, ?_, ?_⟩
      · simp only [List.map_cons]
        rw [q2, ← p2]
      · intro y hy
        rcases List.mem_cons.mp hy with rfl | hy
        · exact q1
        · exact p3 y hy
    · obtain ⟨sub, p1, p2, p3⟩ := mapAll_final ha rs us h0 hl'
      exact ⟨sub, p1.cons _, p2, p3⟩

/-- the delivered keys increase -/
theorem mapAll_sorted {α : Type} {acts : List Act} (ha : ∀ a ∈ acts, ActOk a) {rs : List (List Int × α)} {us : Users} (h0 : 0 ≤ us.hi)
    (hl : ∀ x ∈ rs, x.1.length = acts.length) (hs : (rs.map Prod.fst).Pairwise (· < ·)) (hp : ∀ a ∈ acts, PosMono (mapAll acts us rs).1 a) :
    ((mapAll acts us rs).2.map Prod.fst).Pairwise (· < ·) := by
  obtain ⟨sub, p1, p2, p3⟩ := mapAll_final ha rs us h0 hl
  rw [p2, List.map_map, List.pairwise_map]
  have h1 := hs.sublist (p1.map Prod.fst)
  rw [List.pairwise_map] at h1
  refine h1.imp_of_mem ?_
  intro a b hm hm' hab
  exact mapKeys_lt hp (p3 a hm) (p3 b hm') hab

/-! ### no new numbers -/

theorem giveAll_same {us : Users} : ∀ {acts : List Act} {key : List Int}, (∀ e ∈ key, Act.grow ∈ acts → 0 ≤ us.num e) → giveAll acts key us = us
  | [], key, _ => by cases key <;> rfl
  | a :: acts, [], _ => by cases a <;> rfl
  | a :: acts, e :: key, h => by
    have ih : giveAll acts key us = us := giveAll_same fun x hx hg => h x (by simp [hx]) (by simp [hg])
    cases a with
    | grow =>
      have := h e (by simp) (by simp)
      simp only [giveAll]
      rw [show us.give e = us by unfold Users.give; rw [if_neg (by omega)], ih]
    | _ => exact ih

theorem mapAll_same {α : Type} {us : Users} {acts : List Act} : ∀ {rs : List (List Int × α)}, (∀ x ∈ rs, ∀ e ∈ x.1, Act.grow ∈ acts → 0 ≤ us.num e) →
    (mapAll acts us rs).1 = us
  | [], _ => rfl
  | (k, x) :: rs, h => by
    unfold mapAll
    have ih := mapAll_same (us := us) (acts := acts) (rs := rs) fun y hy => h y (by simp [hy])
    split
    · rw [giveAll_same (h (k, x) (by simp))]
      exact ih
    · exact ih

/-! ### new numbers in the first position -/

/-- state of the numbers while the records are read, `b` = the element in the first position of the record before -/
structure Growing (us0 us : Users) (b : Int) : Prop where
  mono : Mono us
  hi : ∀ e, us.num e ≤ us.hi
  new : ∀ e, 0 ≤ us.num e → 0 ≤ us0.num e ∨ e ≤ b

theorem Growing.le {us0 us : Users} {b b' : Int} (h : Growing us0 us b) (hb : b ≤ b') : Growing us0 us b' :=
  ⟨h.mono, h.hi, fun e he => (h.new e he).imp_right fun h => Int.le_trans h hb⟩

theorem Growing.give {us0 us : Users} {b e : Int} (h : Growing us0 us b) (h0 : 0 ≤ us.hi) (hle : ULe us0 us)
    (hp : ∀ x y, x < y → 0 ≤ us0.num y → 1 ≤ x → 0 ≤ us0.num x) (he : 1 ≤ e) (hb : b ≤ e) : Growing us0 (us.give e) e := by
  unfold Users.give
  split
  · rename_i hn
    have hlast : ∀ x, 0 ≤ us.num x → x < e := by
      intro x hx
      rcases h.new x hx with h1 | h1
      · by_contra hlt
        rcases Int.lt_or_eq_of_le (Int.not_lt.mp hlt) with h2 | h2
        · have := hp e x h2 h1 he
          have := hle.keep e this
          omega
        · subst h2
          omega
      · rcases Int.lt_or_eq_of_le (Int.le_trans h1 hb) with h2 | h2
        · exact h2
        · subst h2
          omega
    refine ⟨?_, ?_, ?_⟩
    · intro x y hxy h1 h2
      show (if x = e then us.hi + 1 else us.num x) < (if y = e then us.hi + 1 else us.num y)
      have h1 : 0 ≤ (if x = e then us.hi + 1 else us.num x) := h1
      have h2 : 0 ≤ (if y = e then us.hi + 1 else us.num y) := h2
      by_cases hx : x = e
      · rw [if_pos hx] at *
        rw [if_neg (by omega)] at h2
        have := hlast y h2
        omega
      · rw [if_neg hx] at *
        by_cases hy : y = e
        · rw [if_pos hy]
          have := h.hi x
          omega
        · rw [if_neg hy] at *
          exact h.mono x y hxy h1 h2
    · intro x
      show (if x = e then us.hi + 1 else us.num x) ≤ us.hi + 1
      have := h.hi x
      split <;> omega
    · intro x hx
      have hx : 0 ≤ (if x = e then us.hi + 1 else us.num x) := hx
      by_cases hxe : x = e
      · exact Or.inr (by omega)
      · rw [if_neg hxe] at hx
        have := hlast x hx
        exact Or.inr (by omega)
  · exact h.le hb

theorem giveAll_notGrow {us : Users} {acts : List Act} {key : List Int} (h : Act.grow ∉ acts) : giveAll acts key us = us :=
  giveAll_same fun _ _ hg => absurd hg h

theorem mapAll_grow {α : Type} {us0 : Users} {acts : List Act} (hn : Act.grow ∉ acts) (hp : ∀ x y, x < y → 0 ≤ us0.num y → 1 ≤ x → 0 ≤ us0.num x) :
    ∀ (rs : List (List Int × α)) {us : Users} {b : Int}, Growing us0 us b → ULe us0 us → 0 ≤ us.hi → (∀ x ∈ rs, ∃ e k, x.1 = e :: k ∧ 1 ≤ e ∧ b ≤ e) →
    (rs.map Prod.fst).Pairwise (· < ·) → ∃ b', Growing us0 (mapAll (.grow :: acts) us rs).1 b'
  | [], us, b, h, _, _, _, _ => ⟨b, h⟩
  | (k, v) :: rs, us, b, h, hle, h0, hx, hs => by
    obtain ⟨e, k', hk, he, hb⟩ := hx (k, v) (by simp)
    simp only at hk
    subst hk
    rw [List.map_cons, List.pairwise_cons] at hs
    have hx' : ∀ x ∈ rs, ∃ e' k, x.1 = e' :: k ∧ 1 ≤ e' ∧ e ≤ e' := by
      intro x hm
      obtain ⟨e', k2, h1, h2, _⟩ := hx x (by simp [hm])
      have h3 := hs.1 x.1 (List.mem_map_of_mem hm)
      rw [h1, List.cons_lt_cons_iff] at h3
      refine ⟨e', k2, h1, h2, ?_⟩
      rcases h3 with h3 | h3
      · omega
      · omega
    unfold mapAll
    split
    · have hge : giveAll (.grow :: acts) (e :: k') us = us.give e := by
        simp only [giveAll]
        exact giveAll_notGrow hn
      rw [hge]
      exact mapAll_grow hn hp rs (h.give h0 hle hp he hb) (hle.trans (give_le us e)) (Int.le_trans h0 (give_le us e).hi) hx' hs.2
    · exact mapAll_grow hn hp rs (h.le hb) hle h0 hx' hs.2

end Gdx
