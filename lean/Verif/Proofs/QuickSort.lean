import Verif.Model.StrList

/-!
TQuickSortClass: the partition and the sort stay in their range and sort.
-/

namespace Gdx.StrList

variable {α : Type}

/-- `cmp` is a total preorder -/
structure Cmp (cmp : α → α → Int) (le : α → α → Prop) : Prop where
  lt : ∀ a b, cmp a b < 0 ↔ ¬ le b a
  gt : ∀ a b, cmp a b > 0 ↔ ¬ le a b
  total : ∀ a b, le a b ∨ le b a
  trans : ∀ a b c, le a b → le b c → le a c

theorem Cmp.refl {cmp : α → α → Int} {le : α → α → Prop} (h : Cmp cmp le) (a : α) : le a a := (h.total a a).elim id id

/-! ### elements -/

theorem nth_some {a : List α} {k : Int} : (∃ x, nth a k = some x) ↔ 0 ≤ k ∧ k < a.length := by
  unfold nth
  split
  · rename_i h
    constructor
    · rintro ⟨x, hx⟩
      have := (List.getElem?_eq_some_iff.mp hx).1
      omega
    · intro hk
      have : k.toNat < a.length := by omega
      exact ⟨a[k.toNat], List.getElem?_eq_getElem this⟩
  · constructor
    · rintro ⟨x, hx⟩; cases hx
    · intro; omega

theorem at0_ok {a : List α} {k : Int} {x : α} (h : nth a k = some x) : at0 a k = .ok x := by
  unfold at0
  rw [h]

theorem exch_ok {a : List α} {i j : Int} {x y : α} (hi : nth a i = some x) (hj : nth a j = some y) (hij : i ≠ j) :
    ∃ a', exch a i j = .ok a' ∧ a'.Perm a ∧ nth a' i = some y ∧ nth a' j = some x ∧ ∀ k, k ≠ i → k ≠ j → nth a' k = nth a k := by
  have h1 := nth_some.mp ⟨x, hi⟩
  have h2 := nth_some.mp ⟨y, hj⟩
  have hi' : a[i.toNat]? = some x := by unfold nth at hi; rw [if_pos h1.1] at hi; exact hi
  have hj' : a[j.toNat]? = some y := by unfold nth at hj; rw [if_pos h2.1] at hj; exact hj
  have hne : i.toNat ≠ j.toNat := by omega
  refine ⟨(a.set i.toNat y).set j.toNat x, by unfold exch; rw [at0_ok hi, at0_ok hj]; rfl, ?_, ?_, ?_, ?_⟩
  · obtain ⟨l1, e1⟩ := List.getElem?_eq_some_iff.mp hi'
    obtain ⟨l2, e2⟩ := List.getElem?_eq_some_iff.mp hj'
    rw [← e1, ← e2]
    exact List.set_set_perm l1 l2
  · unfold nth
    rw [if_pos h1.1, List.getElem?_set_ne (by omega), List.getElem?_set_self (by omega)]
  · unfold nth
    rw [if_pos h2.1, List.getElem?_set_self (by rw [List.length_set]; omega)]
  · intro k k1 k2
    unfold nth
    split
    · rw [List.getElem?_set_ne (by omega), List.getElem?_set_ne (by omega)]
    · rfl

/-! ### the loops -/

section
variable {cmp : α → α → Int} {le : α → α → Prop}

theorem scanUp_ok (hc : Cmp cmp le) {a : List α} {p : Int} {v : α} (hp : nth a p = some v) {e : Int} {w : α} (he : nth a e = some w) (hw : le v w) :
    ∀ (n : Nat) (i : Int), 0 ≤ i → i ≤ e → e - i < n → ∃ i' x, scanUp cmp a p n i = .ok i' ∧ i ≤ i' ∧ i' ≤ e ∧ nth a i' = some x ∧ le v x ∧
      ∀ k, i ≤ k → k < i' → ∀ y, nth a k = some y → le y v
  | 0, i, _, _, _ => by omega
  | n + 1, i, h0, h1, h2 => by
    have hlen := nth_some.mp ⟨w, he⟩
    obtain ⟨x, hx⟩ := nth_some.mpr (show 0 ≤ i ∧ i < a.length by omega)
    unfold scanUp
    rw [at0_ok hx, at0_ok hp]
    simp only [Res.bind_ok]
    by_cases hlt : cmp x v < 0
    · rw [if_pos hlt]
      have hne : i ≠ e := by
        rintro rfl
        rw [he] at hx
        cases hx
        exact (hc.lt _ _).mp hlt hw
      obtain ⟨i', y, r1, r2, r3, r4, r5, r6⟩ := scanUp_ok hc hp he hw n (i + 1) (by omega) (by omega) (by omega)
      refine ⟨i', y, r1, by omega, r3, r4, r5, ?_⟩
      intro k k1 k2 z hz
      by_cases hk : k = i
      · subst hk
        rw [hx] at hz
        cases hz
        exact (hc.total x v).elim id fun h => absurd h ((hc.lt _ _).mp hlt)
      · exact r6 k (by omega) k2 z hz
    · rw [if_neg hlt]
      refine ⟨i, x, rfl, by omega, h1, hx, ?_, fun k k1 k2 => by omega⟩
      by_contra hn
      exact hlt ((hc.lt _ _).mpr hn)

theorem scanDown_ok (hc : Cmp cmp le) {a : List α} {p : Int} {v : α} (hp : nth a p = some v) {e : Int} {w : α} (he : nth a e = some w) (hw : le w v) :
    ∀ (n : Nat) (j : Int), j < a.length → e ≤ j → j - e < n → ∃ j' x, scanDown cmp a p n j = .ok j' ∧ j' ≤ j ∧ e ≤ j' ∧ nth a j' = some x ∧ le x v ∧
      ∀ k, j' < k → k ≤ j → ∀ y, nth a k = some y → le v y
  | 0, j, _, _, _ => by omega
  | n + 1, j, h0, h1, h2 => by
    have hlen := nth_some.mp ⟨w, he⟩
    obtain ⟨x, hx⟩ := nth_some.mpr (show 0 ≤ j ∧ j < a.length by omega)
    unfold scanDown
    rw [at0_ok hx, at0_ok hp]
    simp only [Res.bind_ok]
    by_cases hlt : cmp x v > 0
    · rw [if_pos hlt]
      have hne : j ≠ e := by
        rintro rfl
        rw [he] at hx
        cases hx
        exact (hc.gt _ _).mp hlt hw
      obtain ⟨j', y, r1, r2, r3, r4, r5, r6⟩ := scanDown_ok hc hp he hw n (j - 1) (by omega) (by omega) (by omega)
      refine ⟨j', y, r1, by omega, r3, r4, r5, ?_⟩
      intro k k1 k2 z hz
      by_cases hk : k = j
      · subst hk
        rw [hx] at hz
        cases hz
        exact (hc.total v x).elim id fun h => absurd h ((hc.gt _ _).mp hlt)
      · exact r6 k k1 (by omega) z hz
    · rw [if_neg hlt]
      refine ⟨j, x, rfl, by omega, h1, hx, ?_, fun k k1 k2 => by omega⟩
      by_contra hn
      exact hlt ((hc.gt _ _).mpr hn)

/-- `a'` has the elements of `a`, moved within [L, R] only -/
structure Within (L R : Int) (a a' : List α) : Prop where
  perm : a'.Perm a
  same : ∀ k, k < L ∨ R < k → nth a' k = nth a k
  from' : ∀ k, L ≤ k → k ≤ R → ∃ k', L ≤ k' ∧ k' ≤ R ∧ nth a' k = nth a k'

theorem Within.refl (L R : Int) (a : List α) : Within L R a a := ⟨.refl _, fun _ _ => rfl, fun k h1 h2 => ⟨k, h1, h2, rfl⟩⟩

theorem Within.trans {L R : Int} {a b c : List α} (h : Within L R a b) (h' : Within L R b c) : Within L R a c := by
  refine ⟨h'.perm.trans h.perm, fun k hk => (h'.same k hk).trans (h.same k hk), fun k h1 h2 => ?_⟩
  obtain ⟨k', k1, k2, k3⟩ := h'.from' k h1 h2
  obtain ⟨k'', q1, q2, q3⟩ := h.from' k' k1 k2
  exact ⟨k'', q1, q2, k3.trans q3⟩

theorem Within.wider {L R L' R' : Int} {a b : List α} (h : Within L R a b) (h1 : L' ≤ L) (h2 : R ≤ R') : Within L' R' a b := by
  refine ⟨h.perm, fun k hk => h.same k (by omega), fun k k1 k2 => ?_⟩
  by_cases hk : k < L ∨ R < k
  · exact ⟨k, k1, k2, h.same k hk⟩
  · obtain ⟨k', q1, q2, q3⟩ := h.from' k (by omega) (by omega)
    exact ⟨k', by omega, by omega, q3⟩

/-- the invariant of the do loop -/
structure Parting (le : α → α → Prop) (v : α) (L R : Int) (a : List α) (i j p : Int) : Prop where
  bounds : 0 ≤ L ∧ R < a.length ∧ L ≤ i ∧ j ≤ R ∧ L ≤ p ∧ p ≤ R
  low : ∀ k, L ≤ k → k < i → ∀ y, nth a k = some y → le y v
  high : ∀ k, j < k → k ≤ R → ∀ y, nth a k = some y → le v y
  piv : nth a p = some v
  guard : (i ≤ p ∧ p ≤ j) ∨ (L < i ∧ j < R)

theorem part_ok (hc : Cmp cmp le) {v : α} {L R : Int} : ∀ (n : Nat) (a : List α) (i j p : Int), Parting le v L R a i j p → i ≤ j → j - i < 2 * (n : Int) - 1 →
    ∃ a' i' j', part cmp n a i j p = .ok (a', i', j') ∧ Within L R a a' ∧ L < i' ∧ j' < R ∧ j' < i' ∧ i' ≤ R + 1 ∧ L - 1 ≤ j' ∧
      (∀ k, L ≤ k → k < i' → ∀ y, nth a' k = some y → le y v) ∧ (∀ k, j' < k → k ≤ R → ∀ y, nth a' k = some y → le v y)
  | 0, a, i, j, p, _, _, _ => by omega
  | n + 1, a, i, j, p, h, hij, hn => by
    obtain ⟨b1, b2, b3, b4, b5, b6⟩ := h.bounds
    have hup : ∃ e w, nth a e = some w ∧ le v w ∧ i ≤ e ∧ e ≤ R ∧ ((i ≤ p ∧ p ≤ j) → e = p) ∧ e ≤ j + 1 := by
      rcases h.guard with g | g
      · exact ⟨p, v, h.piv, hc.refl v, g.1, b6, fun _ => rfl, by omega⟩
      · by_cases hp : i ≤ p ∧ p ≤ j
        · exact ⟨p, v, h.piv, hc.refl v, hp.1, b6, fun _ => rfl, by omega⟩
        · obtain ⟨w, hw⟩ := nth_some.mpr (show 0 ≤ j + 1 ∧ j + 1 < a.length by omega)
          exact ⟨j + 1, w, hw, h.high (j + 1) (by omega) (by omega) w hw, by omega, by omega, fun hh => absurd hh hp, by omega⟩
    obtain ⟨e, w, e1, e2, e3, e4, e5, e5'⟩ := hup
    obtain ⟨i1, x, u1, u2, u3, u4, u5, u6⟩ := scanUp_ok hc h.piv e1 e2 (a.length + 1) i (by omega) e3 (by omega)
    have hdn : ∃ e w, nth a e = some w ∧ le w v ∧ e ≤ j ∧ L ≤ e ∧ ((i ≤ p ∧ p ≤ j) → e = p) ∧ i - 1 ≤ e := by
      rcases h.guard with g | g
      · exact ⟨p, v, h.piv, hc.refl v, g.2, b5, fun _ => rfl, by omega⟩
      · by_cases hp : i ≤ p ∧ p ≤ j
        · exact ⟨p, v, h.piv, hc.refl v, hp.2, b5, fun _ => rfl, by omega⟩
        · obtain ⟨w, hw⟩ := nth_some.mpr (show 0 ≤ i - 1 ∧ i - 1 < a.length by omega)
          exact ⟨i - 1, w, hw, h.low (i - 1) (by omega) (by omega) w hw, by omega, by omega, fun hh => absurd hh hp, by omega⟩
    obtain ⟨f, w', f1, f2, f3, f4, f5, f5'⟩ := hdn
    obtain ⟨j1, y, d1, d2, d3, d4, d5, d6⟩ := scanDown_ok hc h.piv f1 f2 (a.length + 1) j (by omega) f3 (by omega)
    have low1 : ∀ k, L ≤ k → k < i1 → ∀ y, nth a k = some y → le y v := by
      intro k k1 k2 z hz
      by_cases hk : k < i
      · exact h.low k k1 hk z hz
      · exact u6 k (by omega) k2 z hz
    have high1 : ∀ k, j1 < k → k ≤ R → ∀ y, nth a k = some y → le v y := by
      intro k k1 k2 z hz
      by_cases hk : j < k
      · exact h.high k hk k2 z hz
      · exact d6 k k1 (by omega) z hz
    have hfirst : i1 > j1 → L < i ∧ j < R := by
      intro hgt
      rcases h.guard with g | g
      · have := e5 g
        have := f5 g
        omega
      · exact g
    unfold part
    rw [u1, d1]
    simp only [Res.bind_ok]
    unfold swapStep
    by_cases h1 : i1 < j1
    · rw [if_pos h1]
      obtain ⟨a', x1, x2, x3, x4, x5⟩ := exch_ok u4 d4 (by omega)
      have hw1 : Within L R a a' := by
        refine ⟨x2, fun k hk => x5 k (by omega) (by omega), fun k k1 k2 => ?_⟩
        by_cases hk : k = i1
        · exact ⟨j1, by omega, by omega, by rw [hk, x3, d4]⟩
        · by_cases hk' : k = j1
          · exact ⟨i1, by omega, by omega, by rw [hk', x4, u4]⟩
          · exact ⟨k, k1, k2, x5 k hk hk'⟩
      rw [x1]
      simp only [Res.bind_ok, Res.pure_eq]
      have hlow : ∀ k, L ≤ k → k < i1 + 1 → ∀ y, nth a' k = some y → le y v := by
        intro k k1 k2 z hz
        by_cases hk : k = i1
        · rw [hk, x3] at hz
          cases hz
          exact d5
        · rw [x5 k hk (by omega)] at hz
          exact low1 k k1 (by omega) z hz
      have hhigh : ∀ k, j1 - 1 < k → k ≤ R → ∀ y, nth a' k = some y → le v y := by
        intro k k1 k2 z hz
        by_cases hk : k = j1
        · rw [hk, x4] at hz
          cases hz
          exact u5
        · rw [x5 k (by omega) hk] at hz
          exact high1 k (by omega) k2 z hz
      by_cases hle : i1 + 1 ≤ j1 - 1
      · rw [if_pos hle]
        have hpart : Parting le v L R a' (i1 + 1) (j1 - 1) (if p = i1 then j1 else if p = j1 then i1 else p) := by
          refine ⟨⟨b1, by rw [x2.length_eq]; exact b2, by omega, by omega, by split <;> (try split) <;> omega, by split <;> (try split) <;> omega⟩, hlow, hhigh, ?_, Or.inr ⟨by omega, by omega⟩⟩
          have hpv := h.piv
          split
          · rename_i hp
            rw [x4, ← u4, ← hp]
            exact hpv
          · split
            · rename_i hp
              rw [x3, ← d4, ← hp]
              exact hpv
            · rename_i p1 p2
              rw [x5 p p1 p2]
              exact hpv
        obtain ⟨a'', i', j', r1, r2, r3⟩ := part_ok hc n a' _ _ _ hpart hle (by omega)
        exact ⟨a'', i', j', r1, hw1.trans r2, r3⟩
      · rw [if_neg hle]
        exact ⟨a', i1 + 1, j1 - 1, rfl, hw1, by omega, by omega, by omega, by omega, by omega, hlow, hhigh⟩
    · rw [if_neg h1]
      by_cases h2 : i1 = j1
      · subst h2
        rw [if_pos rfl]
        simp only [Res.bind_ok]
        rw [if_neg (by omega)]
        refine ⟨a, i1 + 1, i1 - 1, rfl, .refl _ _ _, by omega, by omega, by omega, by omega, by omega, ?_, ?_⟩
        · intro k k1 k2 z hz
          by_cases hk : k = i1
          · rw [hk, d4] at hz
            cases hz
            exact d5
          · exact low1 k k1 (by omega) z hz
        · intro k k1 k2 z hz
          by_cases hk : k = i1
          · rw [hk, u4] at hz
            cases hz
            exact u5
          · exact high1 k (by omega) k2 z hz
      · rw [if_neg h2]
        simp only [Res.bind_ok]
        rw [if_neg (by omega)]
        have := hfirst (by omega)
        exact ⟨a, i1, j1, rfl, .refl _ _ _, by omega, by omega, by omega, by omega, by omega, low1, high1⟩

/-- [L, R] is sorted -/
def SortedOn (le : α → α → Prop) (a : List α) (L R : Int) : Prop := ∀ k m x y, L ≤ k → k ≤ m → m ≤ R → nth a k = some x → nth a m = some y → le x y

theorem quick_ok (hc : Cmp cmp le) : ∀ (n : Nat) (a : List α) (L R : Int), 0 ≤ L → R < a.length → 2 * (a.length : Int) ≤ 2147483648 → R - L + 1 < n →
    0 < n → ∃ a', quick cmp n a L R = .ok a' ∧ Within L R a a' ∧ SortedOn le a' L R
  | 0, _, _, _, _, _, _, _, h => by omega
  | n + 1, a, L, R, h0, h1, h2, h3, _ => by
    unfold quick
    by_cases hlt : L < R
    · rw [if_pos hlt, if_neg (by omega)]
      obtain ⟨v, hv⟩ := nth_some.mpr (show 0 ≤ (L + R) / 2 ∧ (L + R) / 2 < a.length by omega)
      have hp : Parting le v L R a L R ((L + R) / 2) :=
        ⟨⟨h0, h1, by omega, by omega, by omega, by omega⟩, fun k k1 k2 => by omega, fun k k1 k2 => by omega, hv, Or.inl ⟨by omega, by omega⟩⟩
      obtain ⟨a1, i, j, p1, p2, p3, p4, p5, p6, p7, plow, phigh⟩ := part_ok hc (a.length + 1) a L R _ hp (by omega) (by omega)
      rw [p1]
      simp only [Res.bind_ok]
      have hl1 : a1.length = a.length := p2.perm.length_eq
      -- both parts
      have join : ∀ a2 a3, (Within i R a1 a2 ∧ SortedOn le a2 i R ∧ Within L j a2 a3 ∧ SortedOn le a3 L j) ∨
          (Within L j a1 a2 ∧ SortedOn le a2 L j ∧ Within i R a2 a3 ∧ SortedOn le a3 i R) → Within L R a a3 ∧ SortedOn le a3 L R := by
        intro a2 a3 h
        have hwl : ∃ b, (∀ k, L ≤ k → k ≤ j → ∃ k', L ≤ k' ∧ k' ≤ j ∧ nth a3 k = nth a1 k') ∧ (∀ k, i ≤ k → k ≤ R → ∃ k', i ≤ k' ∧ k' ≤ R ∧ nth a3 k = nth a1 k') ∧
            (∀ k, j < k → k < i → nth a3 k = nth a1 k) ∧ SortedOn le a3 L j ∧ SortedOn le a3 i R ∧ Within L R a1 a3 ∧ b = () := by
          refine ⟨(), ?_⟩
          rcases h with ⟨w1, s1, w2, s2⟩ | ⟨w1, s1, w2, s2⟩
          · refine ⟨?_, ?_, ?_, s2, ?_, (w1.wider (by omega) (by omega)).trans (w2.wider (by omega) (by omega)), rfl⟩
            · intro k k1 k2
              obtain ⟨k', q1, q2, q3⟩ := w2.from' k k1 k2
              exact ⟨k', q1, q2, by rw [q3, w1.same k' (by omega)]⟩
            · intro k k1 k2
              obtain ⟨k', q1, q2, q3⟩ := w1.from' k k1 k2
              exact ⟨k', q1, q2, by rw [w2.same k (by omega), q3]⟩
            · intro k k1 k2
              rw [w2.same k (by omega), w1.same k (by omega)]
            · intro k m x y k1 k2 k3 hx hy
              rw [w2.same k (by omega)] at hx
              rw [w2.same m (by omega)] at hy
              exact s1 k m x y k1 k2 k3 hx hy
          · refine ⟨?_, ?_, ?_, ?_, s2, (w1.wider (by omega) (by omega)).trans (w2.wider (by omega) (by omega)), rfl⟩
            · intro k k1 k2
              obtain ⟨k', q1, q2, q3⟩ := w1.from' k k1 k2
              exact ⟨k', q1, q2, by rw [w2.same k (by omega), q3]⟩
            · intro k k1 k2
              obtain ⟨k', q1, q2, q3⟩ := w2.from' k k1 k2
              exact ⟨k', q1, q2, by rw [q3, w1.same k' (by omega)]⟩
            · intro k k1 k2
              rw [w2.same k (by omega), w1.same k (by omega)]
            · intro k m x y k1 k2 k3 hx hy
              rw [w2.same k (by omega)] at hx
              rw [w2.same m (by omega)] at hy
              exact s1 k m x y k1 k2 k3 hx hy
        obtain ⟨_, w1, w2, w3, w4, w5, w6, _⟩ := hwl
        refine ⟨p2.trans w6, ?_⟩
        intro k m x y k1 k2 k3 hx hy
        -- below i everything is at most v, above j at least v
        have hlow : k < i → le x v := by
          intro hk
          by_cases hkj : k ≤ j
          · obtain ⟨k', q1, q2, q3⟩ := w1 k k1 hkj
            rw [q3] at hx
            exact plow k' q1 (by omega) x hx
          · rw [w3 k (by omega) hk] at hx
            exact plow k k1 hk x hx
        have hhigh : j < m → le v y := by
          intro hm
          by_cases hmi : i ≤ m
          · obtain ⟨k', q1, q2, q3⟩ := w2 m hmi k3
            rw [q3] at hy
            exact phigh k' (by omega) q2 y hy
          · rw [w3 m hm (by omega)] at hy
            exact phigh m hm k3 y hy
        by_cases hki : k < i
        · by_cases hmj : j < m
          · exact hc.trans _ _ _ (hlow hki) (hhigh hmj)
          · exact w4 k m x y k1 k2 (by omega) hx hy
        · exact w5 k m x y (by omega) k2 k3 hx hy
      have triv : ∀ (a : List α) (L R : Int), ¬ L < R → SortedOn le a L R := by
        intro a L R hn k m x y k1 k2 k3 hx hy
        have : k = m := by omega
        subst this
        rw [hx] at hy
        cases hy
        exact hc.refl _
      by_cases hb : j - L > R - i
      · rw [if_pos hb]
        have hA : ∃ a2, (if i < R then quick cmp n a1 i R else pure a1) = .ok a2 ∧ Within i R a1 a2 ∧ SortedOn le a2 i R := by
          by_cases hiR : i < R
          · rw [if_pos hiR]
            exact quick_ok hc n a1 i R (by omega) (by omega) (by omega) (by omega) (by omega)
          · rw [if_neg hiR]
            exact ⟨a1, rfl, .refl _ _ _, triv _ _ _ hiR⟩
        obtain ⟨a2, q1, q2, q3⟩ := hA
        rw [q1, Res.bind_ok]
        have hl2 : a2.length = a1.length := q2.perm.length_eq
        obtain ⟨a3, r1, r2, r3⟩ := quick_ok hc n a2 L j (by omega) (by omega) (by omega) (by omega) (by omega)
        exact ⟨a3, r1, join a2 a3 (Or.inl ⟨q2, q3, r2, r3⟩)⟩
      · rw [if_neg hb]
        have hA : ∃ a2, (if L < j then quick cmp n a1 L j else pure a1) = .ok a2 ∧ Within L j a1 a2 ∧ SortedOn le a2 L j := by
          by_cases hiR : L < j
          · rw [if_pos hiR]
            exact quick_ok hc n a1 L j (by omega) (by omega) (by omega) (by omega) (by omega)
          · rw [if_neg hiR]
            exact ⟨a1, rfl, .refl _ _ _, triv _ _ _ hiR⟩
        obtain ⟨a2, q1, q2, q3⟩ := hA
        rw [q1, Res.bind_ok]
        have hl2 : a2.length = a1.length := q2.perm.length_eq
        obtain ⟨a3, r1, r2, r3⟩ := quick_ok hc n a2 i R (by omega) (by omega) (by omega) (by omega) (by omega)
        exact ⟨a3, r1, join a2 a3 (Or.inr ⟨q2, q3, r2, r3⟩)⟩
    · rw [if_neg hlt]
      refine ⟨a, rfl, .refl _ _ _, ?_⟩
      intro k m x y k1 k2 k3 hx hy
      have : k = m := by omega
      subst this
      rw [hx] at hy
      cases hy
      exact hc.refl _

/-- SortN sorts the list -/
theorem sortN_ok (hc : Cmp cmp le) {a : List α} (h : 2 * (a.length : Int) ≤ 2147483648) : ∃ a', sortN cmp a = .ok a' ∧ a'.Perm a ∧ a'.Pairwise le := by
  unfold sortN
  split
  · rename_i h1
    obtain ⟨a', r1, r2, r3⟩ := quick_ok hc (a.length + 1) a 0 ((a.length : Int) - 1) (by omega) (by omega) h (by omega) (by omega)
    refine ⟨a', r1, r2.perm, ?_⟩
    rw [List.pairwise_iff_getElem]
    intro i j hi hj hij
    have hl := r2.perm.length_eq
    refine r3 i j _ _ (by omega) (by omega) (by omega) ?_ ?_
    · unfold nth
      rw [if_pos (by omega), Int.toNat_natCast, List.getElem?_eq_getElem hi]
    · unfold nth
      rw [if_pos (by omega), Int.toNat_natCast, List.getElem?_eq_getElem hj]
  · rename_i h1
    refine ⟨a, rfl, .refl _, ?_⟩
    clear h
    rw [List.pairwise_iff_getElem]
    intro i j _ _ _
    omega

end

end Gdx.StrList
