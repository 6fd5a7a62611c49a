import Verif.Proofs.MapOrder

/-! What the status of the user map says, and that records which are streamed come in order. -/

namespace Gdx
open Gdx.Spec

theorem statLoop_inc : ∀ (vs : List Int) (lv : Int) (c : Bool) (st : MapStat), (Uel.statLoop vs lv c st).1 ≠ .unsorted →
    vs.Pairwise (fun a b => 0 ≤ a → 0 ≤ b → a < b) ∧ ∀ v ∈ vs, 0 ≤ v → lv < v
  | [], _, _, _, _ => ⟨.nil, by simp⟩
  | v :: vs, lv, c, st, h => by
    unfold Uel.statLoop at h
    by_cases hv : v < 0
    · rw [if_pos hv] at h
      obtain ⟨p1, p2⟩ := statLoop_inc vs lv false st h
      refine ⟨.cons (fun b _ h0 => by omega) p1, ?_⟩
      intro x hx h0
      rcases List.mem_cons.mp hx with rfl | hx
      · omega
      · exact p2 x hx h0
    · rw [if_neg hv] at h
      by_cases hl : v > lv
      · rw [if_pos hl] at h
        obtain ⟨p1, p2⟩ := statLoop_inc vs v c _ h
        refine ⟨.cons (fun b hb _ h0 => p2 b hb h0) p1, ?_⟩
        intro x hx h0
        rcases List.mem_cons.mp hx with rfl | hx
        · exact hl
        · have := p2 x hx h0
          omega
      · rw [if_neg hl] at h
        exact absurd rfl h

theorem statLoop_sorted : ∀ (vs : List Int) (lv : Int) (c : Bool) (st : MapStat), st ≠ .sortgrow → (Uel.statLoop vs lv c st).1 ≠ .sortgrow
  | [], _, _, _, h => h
  | v :: vs, lv, c, st, h => by
    unfold Uel.statLoop
    split
    · exact statLoop_sorted vs lv false st h
    · split
      · refine statLoop_sorted vs v c _ ?_
        split
        · exact h
        · decide
      · exact MapStat.noConfusion

theorem statLoop_full : ∀ (vs : List Int) (lv : Int) (c : Bool) (st : MapStat), st ≠ .sortfull → (Uel.statLoop vs lv c st).1 ≠ .sortfull
  | [], _, _, _, h => h
  | v :: vs, lv, c, st, h => by
    unfold Uel.statLoop
    split
    · exact statLoop_full vs lv false st h
    · split
      · refine statLoop_full vs v c _ ?_
        split
        · exact h
        · decide
      · exact MapStat.noConfusion

theorem statLoop_false : ∀ (vs : List Int) (lv : Int) (st : MapStat), (Uel.statLoop vs lv false st).1 = .sortgrow → ∀ v ∈ vs, v < 0
  | [], _, _, _ => by simp
  | v :: vs, lv, st, h => by
    unfold Uel.statLoop at h
    by_cases hv : v < 0
    · rw [if_pos hv] at h
      intro x hx
      rcases List.mem_cons.mp hx with rfl | hx
      · exact hv
      · exact statLoop_false vs lv st h x hx
    · rw [if_neg hv] at h
      exfalso
      by_cases hl : v > lv
      · rw [if_pos hl, if_neg (by decide)] at h
        exact statLoop_sorted vs v false .sorted (by decide) h
      · rw [if_neg hl] at h
        cases h

/-- the elements with a number come first -/
theorem statLoop_grow : ∀ (vs : List Int) (lv : Int) (st : MapStat), (Uel.statLoop vs lv true st).1 = .sortgrow →
    vs.Pairwise (fun a b => 0 ≤ b → 0 ≤ a)
  | [], _, _, _ => .nil
  | v :: vs, lv, st, h => by
    unfold Uel.statLoop at h
    by_cases hv : v < 0
    · rw [if_pos hv] at h
      have := statLoop_false vs lv st h
      refine .cons (fun b hb h0 => by have := this b hb; omega) ?_
      exact List.Pairwise.imp_of_mem (R := fun _ _ => True) (fun {a b} _ hb _ h0 => by have := this b hb; omega) (List.pairwise_of_forall fun _ _ => trivial)
    · rw [if_neg hv] at h
      by_cases hl : v > lv
      · rw [if_pos hl, if_pos rfl] at h
        exact .cons (fun b _ _ => by omega) (statLoop_grow vs v st h)
      · rw [if_neg hl] at h
        cases h

theorem statLoop_all : ∀ (vs : List Int) (lv : Int) (c : Bool) (st : MapStat), (Uel.statLoop vs lv c st).1 ≠ .unsorted → (Uel.statLoop vs lv c st).2 = true →
    c = true ∧ ∀ v ∈ vs, 0 ≤ v
  | [], _, _, _, _, h => ⟨h, by simp⟩
  | v :: vs, lv, c, st, h0, h => by
    unfold Uel.statLoop at h h0
    by_cases hv : v < 0
    · rw [if_pos hv] at h h0
      have := (statLoop_all vs lv false st h0 h).1
      cases this
    · rw [if_neg hv] at h h0
      by_cases hl : v > lv
      · rw [if_pos hl] at h h0
        obtain ⟨p1, p2⟩ := statLoop_all vs v c _ h0 h
        refine ⟨p1, ?_⟩
        intro x hx
        rcases List.mem_cons.mp hx with rfl | hx
        · omega
        · exact p2 x hx
      · rw [if_neg hl] at h0
        exact absurd rfl h0

/-- What the status says about the numbers `vs` in the order of the elements -/
theorem calcStat_spec (u : Uel) : (u.calcStat ≠ .unsorted → (u.ents.map Prod.snd).Pairwise (fun a b => 0 ≤ a → 0 ≤ b → a < b)) ∧
    (u.calcStat = .sortgrow ∨ u.calcStat = .sortfull → (u.ents.map Prod.snd).Pairwise (fun a b => 0 ≤ b → 0 ≤ a)) ∧
    (u.calcStat = .sortfull → ∀ v ∈ u.ents.map Prod.snd, 0 ≤ v) := by
  have h1 := statLoop_inc (u.ents.map Prod.snd) (-1) true .sortgrow
  have h2 := statLoop_grow (u.ents.map Prod.snd) (-1) .sortgrow
  have h3 := statLoop_all (u.ents.map Prod.snd) (-1) true .sortgrow
  have h4 := statLoop_full (u.ents.map Prod.snd) (-1) true .sortgrow (by decide)
  unfold Uel.calcStat
  generalize Uel.statLoop (u.ents.map Prod.snd) (-1) true .sortgrow = r at h1 h2 h3 h4
  obtain ⟨st, c⟩ := r
  simp only at h1 h2 h3 h4
  cases st with
  | sortfull => exact absurd rfl h4
  | unsorted => exact ⟨fun h => absurd rfl h, (fun h => by rcases h with h | h <;> cases h), fun h => by cases h⟩
  | sorted => exact ⟨fun _ => (h1 (by decide)).1, (fun h => by rcases h with h | h <;> cases h), fun h => by cases h⟩
  | sortgrow =>
    cases c with
    | true => exact ⟨fun _ => (h1 (by decide)).1, fun _ => h2 rfl, fun _ => (h3 (by decide) rfl).2⟩
    | false => exact ⟨fun _ => (h1 (by decide)).1, fun _ => h2 rfl, fun h => by cases h⟩

/-! ### in terms of elements -/

theorem num_at {u : Uel} {e : Int} (h : 0 ≤ u.users.num e) : ∃ (hlt : (e - 1).toNat < (u.ents.map Prod.snd).length), 1 ≤ e ∧
    u.users.num e = (u.ents.map Prod.snd)[(e - 1).toNat] := by
  unfold Uel.users at h ⊢
  simp only at h ⊢
  by_cases h1 : 1 ≤ e
  · rw [if_pos h1] at h ⊢
    by_cases hlt : (e - 1).toNat < (u.ents.map Prod.snd).length
    · refine ⟨hlt, h1, ?_⟩
      rw [List.getElem?_eq_getElem hlt]
      rfl
    · rw [List.getElem?_eq_none (by omega)] at h
      simp at h
  · rw [if_neg h1] at h
    omega

theorem num_of {u : Uel} {e : Int} (h1 : 1 ≤ e) (h2 : e ≤ u.size) : ∃ (hlt : (e - 1).toNat < (u.ents.map Prod.snd).length),
    u.users.num e = (u.ents.map Prod.snd)[(e - 1).toNat] := by
  unfold Uel.size at h2
  have hlt : (e - 1).toNat < (u.ents.map Prod.snd).length := by rw [List.length_map]; omega
  refine ⟨hlt, ?_⟩
  unfold Uel.users
  simp only
  rw [if_pos h1, List.getElem?_eq_getElem hlt]
  rfl

theorem pair_num {u : Uel} {R : Int → Int → Prop} (h : (u.ents.map Prod.snd).Pairwise R) {e e' : Int} (hlt : e < e') (h0 : 1 ≤ e) (h1 : 0 ≤ u.users.num e') :
    R (u.users.num e) (u.users.num e') := by
  obtain ⟨q1, q2, q3⟩ := num_at h1
  have hs : e ≤ u.size := by unfold Uel.size; rw [List.length_map] at q1; omega
  obtain ⟨p1, p2⟩ := num_of h0 hs
  rw [p2, q3]
  exact List.pairwise_iff_getElem.mp h _ _ p1 q1 (by omega)

theorem stat_mono {u : Uel} (h : u.calcStat ≠ .unsorted) : Mono u.users := by
  intro e e' hlt h1 h2
  exact pair_num ((calcStat_spec u).1 h) hlt (num_at h1).2.1 h2 h1 h2

theorem stat_prefix {u : Uel} (h : u.calcStat = .sortgrow ∨ u.calcStat = .sortfull) : ∀ x y, x < y → 0 ≤ u.users.num y → 1 ≤ x → 0 ≤ u.users.num x :=
  fun _ _ hlt h1 h2 => pair_num ((calcStat_spec u).2.1 h) hlt h2 h1 h1

theorem stat_all {u : Uel} (h : u.calcStat = .sortfull) : ∀ e, 1 ≤ e → e ≤ u.size → 0 ≤ u.users.num e := by
  intro e h1 h2
  obtain ⟨p1, p2⟩ := num_of h1 h2
  rw [p2]
  exact (calcStat_spec u).2.2 h _ (List.getElem_mem p1)

/-- the numbers of a filter increase with the elements if the filter is marked as sorted -/
def FiltUp (us : Users) (f : Filt) : Prop :=
  f.sorted = true → ∀ e e', e < e' → f.mem (us.num e) = true → f.mem (us.num e') = true → us.num e < us.num e'

/-- a cached status is the right one -/
def StatRight (u : Uel) : Prop := ∀ st, u.stat = some st → st = u.calcStat

theorem StatRight.mapStat {u : Uel} (h : StatRight u) : u.mapStat.2 = u.calcStat := by
  unfold Uel.mapStat
  cases hs : u.stat with
  | none => rfl
  | some st => exact h st hs

theorem willBeSorted_mem {st : MapStat} : ∀ {das : List DAct} {d : Nat}, willBeSorted st d das = true → ∀ a ∈ das,
    (a = .strict → st ≠ .unsorted) ∧ (∀ f, a = .filter f → st ≠ .unsorted ∨ f.sorted = true) ∧ (a = .expand → st = .sortgrow ∨ st = .sortfull) ∧
    (0 < d → a = .expand → st = .sortfull)
  | [], _, _ => by simp
  | b :: das, d, h => by
    unfold willBeSorted at h
    rw [Bool.and_eq_true] at h
    intro a ha
    rcases List.mem_cons.mp ha with rfl | ha
    · have h1 := h.1
      cases a with
      | unmapped => exact ⟨(fun h => by cases h), (fun f h => by cases h), (fun h => by cases h), fun _ h => by cases h⟩
      | strict => exact ⟨fun _ => by simpa using h1, (fun f h => by cases h), (fun h => by cases h), fun _ h => by cases h⟩
      | filter f => exact ⟨(fun h => by cases h), (fun f h => by cases h; simpa using h1), (fun h => by cases h), fun _ h => by cases h⟩
      | expand =>
        refine ⟨(fun h => by cases h), (fun f h => by cases h), ?_, ?_⟩
        · intro _
          simp only [] at h1
          split at h1
          · simpa using h1
          · exact Or.inr (by simpa using h1)
        · intro hd _
          simp only [] at h1
          rw [if_neg (by omega)] at h1
          simpa using h1
    · obtain ⟨p1, p2, p3, p4⟩ := willBeSorted_mem h.2 a ha
      exact ⟨p1, p2, p3, fun _ => p4 (by omega)⟩

theorem act_grow {a : DAct} : a.act = .grow ↔ a = .expand := by
  cases a <;> simp [DAct.act]

/-- Records in strictly increasing order that are streamed are delivered in strictly increasing order. -/
theorem streams_sorted {α : Type} {u : Uel} (hu : MapOk u) (hst : StatRight u) {das : List DAct} (hf : ∀ f, DAct.filter f ∈ das → FiltUp u.users f)
    {rs : List (List Int × α)} (hl : ∀ x ∈ rs, x.1.length = das.length) (hin : ∀ x ∈ rs, ∀ e ∈ x.1, 1 ≤ e ∧ e ≤ u.size)
    (hs : (rs.map Prod.fst).Pairwise (· < ·)) (h : streams u das = true) :
    ((mapAll (das.map DAct.act) u.users rs).2.map Prod.fst).Pairwise (· < ·) := by
  have hok : ∀ a ∈ das.map DAct.act, ActOk a := by
    intro a ha
    obtain ⟨b, _, rfl⟩ := List.mem_map.mp ha
    exact b.ok
  have hl' : ∀ x ∈ rs, x.1.length = (das.map DAct.act).length := fun x hx => by rw [hl x hx, List.length_map]
  refine mapAll_sorted hok hu.hi hl' hs ?_
  unfold streams readStat at h
  by_cases hany : das.any (· ≠ DAct.unmapped) = true
  · rw [if_pos hany, hst.mapStat] at h
    have hall := willBeSorted_mem h
    -- no number is given: the numbers are those before
    have key : (∀ x ∈ rs, ∀ e ∈ x.1, Act.grow ∈ das.map DAct.act → 0 ≤ u.users.num e) → ∀ a ∈ das.map DAct.act, PosMono (mapAll (das.map DAct.act) u.users rs).1 a := by
      intro hg
      rw [mapAll_same hg]
      intro a ha
      by_cases hun : u.calcStat = .unsorted
      · obtain ⟨b, hb, rfl⟩ := List.mem_map.mp ha
        obtain ⟨p1, p2, p3, _⟩ := hall b hb
        cases b with
        | unmapped => exact posMono_keep _
        | strict => exact absurd hun (p1 rfl)
        | expand => rcases p3 rfl with h | h <;> rw [hun] at h <;> cases h
        | filter f =>
          have hso := (p2 f rfl).resolve_left (fun h => h hun)
          intro e e' hlt h1 h2
          exact hf f hb hso e e' hlt h1.1 h2.1
      · exact posMono_mono (stat_mono hun) (hok a ha)
    by_cases hgr : Act.grow ∈ das.map DAct.act
    · obtain ⟨b, hb, hbe⟩ := List.mem_map.mp hgr
      rw [act_grow] at hbe
      subst hbe
      have hsg := (hall _ hb).2.2.1 rfl
      by_cases hfull : u.calcStat = .sortfull
      · exact key fun x hx e he _ => stat_all hfull e (hin x hx e he).1 (hin x hx e he).2
      · -- the first position only
        cases das with
        | nil => cases hb
        | cons a das =>
          unfold willBeSorted at h
          rw [Bool.and_eq_true] at h
          have hrest := willBeSorted_mem h.2
          have hno : DAct.expand ∉ das := fun hm => hfull ((hrest _ hm).2.2.2 (by omega) rfl)
          have ha : a = .expand := by
            rcases List.mem_cons.mp hb with h | h
            · exact h.symm
            · exact absurd h hno
          subst ha
          have hn : Act.grow ∉ das.map DAct.act := by
            intro hm
            obtain ⟨c, hc, hce⟩ := List.mem_map.mp hm
            rw [act_grow] at hce
            exact hno (hce ▸ hc)
          have hmono : Mono u.users := stat_mono (by rcases hsg with h | h <;> rw [h] <;> decide)
          obtain ⟨b', hb'⟩ := mapAll_grow hn (stat_prefix hsg) rs (us := u.users) (b := 1)
            ⟨hmono, hu.num, fun e he => Or.inl he⟩ (ULe.refl _) hu.hi (by
              intro x hx
              have hlx := hl x hx
              cases hk : x.1 with
              | nil => rw [hk] at hlx; cases hlx
              | cons e k =>
                have := hin x hx e (by rw [hk]; simp)
                exact ⟨e, k, rfl, this.1, this.1⟩) hs
          intro a' ha'
          exact posMono_mono hb'.mono (hok a' ha')
    · exact key fun _ _ _ _ hg => absurd hg hgr
  · intro a ha
    obtain ⟨b, hb, rfl⟩ := List.mem_map.mp ha
    have : b = .unmapped := by
      by_contra hne
      exact hany (List.any_eq_true.mpr ⟨b, hb, by simpa using hne⟩)
    subst this
    exact posMono_keep _

/-! ### filters -/

theorem filtGrows_spec {f : Filt} : ∀ {vs : List Int} {lv : Int}, filtGrows f vs lv = true →
    vs.Pairwise (fun a b => f.mem a = true → f.mem b = true → a < b) ∧ ∀ v ∈ vs, f.mem v = true → lv < v
  | [], _, _ => ⟨.nil, by simp⟩
  | v :: vs, lv, h => by
    unfold filtGrows at h
    by_cases hm : f.mem v = true
    · rw [if_pos hm] at h
      by_cases hl : v ≤ lv
      · rw [if_pos hl] at h
        cases h
      · rw [if_neg hl] at h
        obtain ⟨p1, p2⟩ := filtGrows_spec h
        refine ⟨.cons (fun b hb _ h2 => p2 b hb h2) p1, ?_⟩
        intro x hx hx2
        rcases List.mem_cons.mp hx with rfl | hx
        · omega
        · have := p2 x hx hx2
          omega
    · rw [if_neg hm] at h
      obtain ⟨p1, p2⟩ := filtGrows_spec h
      refine ⟨.cons (fun b _ h1 => absurd h1 hm) p1, ?_⟩
      intro x hx hx2
      rcases List.mem_cons.mp hx with rfl | hx
      · exact absurd hx2 hm
      · exact p2 x hx hx2

theorem mem_nonneg {f : Filt} {v : Int} (h : f.mem v = true) : 0 ≤ v := by
  unfold Filt.mem at h
  simp only [Bool.and_eq_true, decide_eq_true_eq] at h
  exact h.1.1

/-- the mark set when a filter is complete is right -/
theorem filtUp_of {u : Uel} {f : Filt} (h : f.sorted = true → u.calcStat ≠ .unsorted ∨ filtGrows f (u.ents.map Prod.snd) (-1) = true) : FiltUp u.users f := by
  intro hs e e' hlt h1 h2
  have n1 := mem_nonneg h1
  have n2 := mem_nonneg h2
  rcases h hs with h | h
  · exact stat_mono h e e' hlt n1 n2
  · exact pair_num (filtGrows_spec h).1 hlt (num_at n1).2.1 n2 h1 h2

end Gdx
