import Verif.Proofs.QuickSort
import Verif.Spec.Names
import Mathlib.Data.List.Lex
import Mathlib.Data.List.Sort

/-!
C63: TXHashedStringList and TXStrPool number strings as a linear search would. C64: TQuickSortClass sorts; TXSortedStringList is sorted
outside of updates and finds what is in it.
-/

namespace Gdx.Props

open Gdx.StrList

/-! ### C63 -/

/-- the numbering of strings: the place of the first equal one, or a new one at the end -/
def number (l : List Str) (s : Str) : List Str × Nat :=
  match l.findIdx? (· == s) with
  | some n => (l, n)
  | none => (l ++ [s], l.length)

/-- what a history should do -/
def numberOp (l : List Str) : NOp → List Str × Option Nat
  | .add s => ((number l s).1, some (number l s).2)
  | .clear => ([], none)

def numberRun (l : List Str) : List NOp → List Str × List (Option Nat)
  | [] => (l, [])
  | o :: os => ((numberRun (numberOp l o).1 os).1, (numberOp l o).2 :: (numberRun (numberOp l o).1 os).2)

/-- all lists on the way have room for one more -/
def Room (l : List Str) : List NOp → Prop
  | [] => True
  | o :: os => l.length < 2147483647 ∧ Room (numberOp l o).1 os

theorem scHashSize_eq (n : Nat) : scHashSize n = if 10007 ≤ n / 6 then 77317 else 10007 := by
  unfold scHashSize scSizes
  simp only [List.foldl_cons, List.foldl_nil, ge_iff_le]
  simp only [List.getD_cons_succ, List.getD_cons_zero]
  split
  · rfl
  · repeat rw [if_neg (by omega)]

/-- the chains of the table hold exactly the places of the strings -/
structure TabOk (ents : List Str) (t : NTable) : Prop where
  size : t.hashCount = 10007 ∨ t.hashCount = 77317
  trig : t.trigger = t.hashCount * 13
  mem : ∀ h n, n ∈ t.chain h ↔ ∃ e, ents[n]? = some e ∧ hashValue t.hashCount 0 e = h

theorem TabOk.push {ents : List Str} {t : NTable} (h : TabOk ents t) (s : Str) : TabOk (ents ++ [s]) (t.push (hashValue t.hashCount 0 s) ents.length) := by
  refine ⟨h.size, h.trig, ?_⟩
  intro k n
  show n ∈ (if k = hashValue t.hashCount 0 s then ents.length :: t.chain k else t.chain k) ↔ ∃ e, (ents ++ [s])[n]? = some e ∧ hashValue t.hashCount 0 e = k
  by_cases hn : n < ents.length
  · rw [List.getElem?_append_left hn, ← h.mem k n]
    split
    · rw [List.mem_cons]
      exact ⟨fun hh => hh.elim (fun he => absurd he (by omega)) id, Or.inr⟩
    · rfl
  · have hno : n ∉ t.chain k := by
      intro hm
      obtain ⟨e, h1, _⟩ := (h.mem k n).mp hm
      exact hn (List.getElem?_eq_some_iff.mp h1).1
    by_cases he : n = ents.length
    · subst he
      rw [List.getElem?_append_right (by omega), Nat.sub_self]
      split
      · rename_i hk
        simp [hk]
      · rename_i hk
        constructor
        · intro hm; exact absurd hm hno
        · rintro ⟨e, e1, e2⟩
          cases e1
          exact absurd e2.symm hk
    · rw [List.getElem?_eq_none (by simp; omega)]
      constructor
      · intro hm
        split at hm
        · rcases List.mem_cons.mp hm with h | h
          · exact absurd h he
          · exact absurd h hno
        · exact absurd hm hno
      · rintro ⟨e, h, _⟩; cases h

theorem build_ok (sz : Nat) (hs : sz = 10007 ∨ sz = 77317) : ∀ (pre rest : List Str) (t : NTable), TabOk pre t → t.hashCount = sz →
    TabOk (pre ++ rest) ((rest.zipIdx pre.length).foldl (fun t e => t.push (hashValue t.hashCount 0 e.1) e.2) t)
  | pre, [], t, h, _ => by simpa using h
  | pre, s :: rest, t, h, hc => by
    have := build_ok sz hs (pre ++ [s]) rest _ (h.push s) hc
    rw [List.append_assoc, List.length_append] at this
    exact this

theorem setHashSize_ok {l : NList} (h : ∀ t, l.tab = some t → TabOk l.ents t ∧ t.trigger ≤ l.ents.length) :
    ∃ t, setHashSize l = .ok ⟨l.ents, some t⟩ ∧ TabOk l.ents t := by
  have hnew : (if (l.ents.length : Int) ≥ (l.tab.map NTable.trigger).getD (-1) then scHashSize l.ents.length else 0) = scHashSize l.ents.length := by
    cases ht : l.tab with
    | none => rw [Option.map_none, Option.getD_none, if_pos (by omega)]
    | some t => rw [Option.map_some, Option.getD_some, if_pos (h t ht).2]
  have hsz : scHashSize l.ents.length = 10007 ∨ scHashSize l.ents.length = 77317 := by
    rw [scHashSize_eq]
    split <;> simp
  unfold setHashSize
  simp only [hnew]
  split
  · rename_i heq
    cases ht : l.tab with
    | none => rw [ht] at heq; simp at heq; omega
    | some t => exact ⟨t, by rw [← ht], (h t ht).1⟩
  · rw [if_neg (by omega), if_neg (by omega)]
    refine ⟨_, rfl, ?_⟩
    have := build_ok (scHashSize l.ents.length) hsz [] l.ents ⟨scHashSize l.ents.length, scHashSize l.ents.length * 13, fun _ => []⟩
      ⟨hsz, by simp, by intro h n; simp⟩ rfl
    exact this

theorem walk_ok {ents : List Str} {s : Str} : ∀ {c : List Nat}, (∀ n ∈ c, n < ents.length) →
    ∃ r, walk ents s c = .ok r ∧ (∀ n, r = some n → n ∈ c ∧ ents[n]? = some s) ∧ (r = none → ∀ n ∈ c, ents[n]? ≠ some s)
  | [], _ => ⟨none, rfl, by simp, by simp⟩
  | n :: c, h => by
    have hn := h n (by simp)
    obtain ⟨r, r1, r2, r3⟩ := walk_ok (s := s) (c := c) fun m hm => h m (by simp [hm])
    unfold walk
    rw [List.getElem?_eq_getElem hn]
    simp only
    by_cases he : s = ents[n]
    · rw [if_pos he]
      exact ⟨some n, rfl, fun m hm => by cases hm; exact ⟨by simp, by rw [List.getElem?_eq_getElem hn, ← he]⟩, by simp⟩
    · rw [if_neg he]
      refine ⟨r, r1, fun m hm => ⟨by simp [(r2 m hm).1], (r2 m hm).2⟩, fun hr m hm => ?_⟩
      rcases List.mem_cons.mp hm with rfl | hm
      · rw [List.getElem?_eq_getElem hn]
        simpa using fun h => he h.symm
      · exact r3 hr m hm

/-- the invariant of the list: the strings are different, the table belongs to them -/
structure HOk (l : NList) : Prop where
  nodup : l.ents.Nodup
  tab : ∀ t, l.tab = some t → TabOk l.ents t

theorem add_ok {l : NList} (h : HOk l) (s : Str) (hl : l.ents.length < 2147483647) :
    ∃ l', l.add s = .ok (l', (number l.ents s).2) ∧ l'.ents = (number l.ents s).1 ∧ HOk l' := by
  have hset : ∃ t, l.ready = .ok ⟨l.ents, some t⟩ ∧ TabOk l.ents t := by
    unfold NList.ready
    cases ht : l.tab with
    | none => exact setHashSize_ok (by rw [ht]; intro t h; cases h)
    | some t =>
      simp only
      split
      · rename_i hgt
        exact setHashSize_ok fun t' ht' => by rw [ht] at ht'; cases ht'; exact ⟨h.tab t ht, by omega⟩
      · exact ⟨t, by rw [← ht], h.tab t ht⟩
  obtain ⟨t, ht, hok⟩ := hset
  unfold NList.add
  rw [ht]
  simp only [Res.bind_ok]
  rw [if_neg (by rcases hok.size with h | h <;> omega)]
  have hlt : ∀ n ∈ t.chain (hashValue t.hashCount 0 s), n < l.ents.length := by
    intro n hn
    obtain ⟨e, e1, _⟩ := (hok.mem _ n).mp hn
    exact (List.getElem?_eq_some_iff.mp e1).1
  obtain ⟨r, r1, r2, r3⟩ := walk_ok (s := s) hlt
  rw [r1]
  simp only [Res.bind_ok]
  unfold number
  cases r with
  | some n =>
    obtain ⟨_, hn⟩ := r2 n rfl
    have hfind : l.ents.findIdx? (· == s) = some n := by
      obtain ⟨l1, l2⟩ := List.getElem?_eq_some_iff.mp hn
      rw [List.findIdx?_eq_some_iff_getElem]
      refine ⟨l1, by simp [l2], ?_⟩
      intro j hj hjs
      have he : l.ents[j] = l.ents[n] := by
        rw [l2]
        simpa using hjs
      have := (List.Nodup.getElem_inj_iff h.nodup).mp he
      omega
    rw [hfind]
    exact ⟨_, rfl, rfl, h.nodup, fun t' ht' => by cases ht'; exact hok⟩
  | none =>
    have hno : s ∉ l.ents := by
      intro hm
      obtain ⟨n, hn⟩ := List.mem_iff_getElem?.mp hm
      exact r3 rfl n ((hok.mem _ n).mpr ⟨s, hn, rfl⟩) hn
    have hfind : l.ents.findIdx? (· == s) = none := by
      rw [List.findIdx?_eq_none_iff]
      intro x hx
      simp only [beq_eq_false_iff_ne, ne_eq]
      rintro rfl
      exact hno hx
    rw [hfind]
    simp only
    rw [if_neg (by omega)]
    refine ⟨_, rfl, rfl, ?_, fun t' ht' => by cases ht'; exact hok.push s⟩
    rw [List.nodup_append]
    refine ⟨h.nodup, by simp, ?_⟩
    intro a ha b hb
    rw [List.mem_singleton.mp hb]
    rintro rfl
    exact hno ha

theorem run_ok : ∀ (os : List NOp) (l : NList), HOk l → Room l.ents os →
    ∃ l', l.run os = .ok (l', (numberRun l.ents os).2) ∧ l'.ents = (numberRun l.ents os).1
  | [], l, _, _ => ⟨l, rfl, rfl⟩
  | o :: os, l, h, hr => by
    obtain ⟨hr1, hr2⟩ := hr
    have hstep : ∃ l', l.step o = .ok (l', (numberOp l.ents o).2) ∧ l'.ents = (numberOp l.ents o).1 ∧ HOk l' := by
      cases o with
      | add s =>
        obtain ⟨l', a1, a2, a3⟩ := add_ok h s hr1
        exact ⟨l', by unfold NList.step; simp only; rw [a1]; rfl, a2, a3⟩
      | clear => exact ⟨.empty, rfl, rfl, List.nodup_nil, fun t ht => by cases ht⟩
    obtain ⟨l', a1, a2, a3⟩ := hstep
    rw [← a2] at hr2
    obtain ⟨l'', b1, b2⟩ := run_ok os l' a3 hr2
    unfold NList.run
    rw [a1, Res.bind_ok]
    simp only
    rw [b1, Res.bind_ok, a2]
    exact ⟨l'', rfl, by rw [b2, a2]; rfl⟩

/-- C63: whatever was added before, the list numbers the strings as a linear search would, and nothing in it is undefined. -/
theorem C63_number (os : List NOp) (h : Room [] os) :
    ∃ l, NList.empty.run os = .ok (l, (numberRun [] os).2) ∧ l.ents = (numberRun [] os).1 :=
  run_ok os .empty ⟨List.nodup_nil, fun t ht => by cases ht⟩ h

/-- The table never has more than 77317 chains, so that searching a list of n strings takes time n: the loop in getSCHashSize goes
    downwards and the last assignment counts. -/
theorem C63_size (n : Nat) : scHashSize n ≤ 77317 := by
  rw [scHashSize_eq]
  split <;> omega

/-- although a table of 598363 chains is meant for a million strings -/
example : scHashSize 1000000 = 77317 ∧ scSizes[2]? = some 598363 ∧ 1000000 / 6 ≥ 77317 := by decide

/-- two strings that differ in case are two strings, though they are in one chain; the numbers after adding them again -/
example : (NList.empty.run [.add [97], .add [65], .add [97], .clear, .add [65]]).bind (fun r => .ok (r.1.ents, r.2)) =
    .ok ([[65]], [some 0, some 1, some 0, none, some 0]) ∧ hashValue 10007 0 [97] = hashValue 10007 0 [65] := by decide +kernel

/-! ### C64 -/

/-- the string in upper case as numbers -/
def keyU (s : Str) : List Int := s.map fun c => sgn (upC c)

/-- the order of the list: lexicographic, case ignored -/
def LeU (s t : Str) : Prop := keyU s ≤ keyU t

theorem strUCmp_lt : ∀ s t : Str, (strUCmp s t < 0 ↔ keyU s < keyU t) ∧ (strUCmp s t > 0 ↔ keyU t < keyU s)
  | [], [] => by simp [strUCmp, keyU]
  | [], d :: t => by
    simp only [strUCmp, keyU, List.map_nil, List.map_cons, List.length_cons]
    refine ⟨⟨fun _ => List.nil_lt_cons _ _, fun _ => by omega⟩, ⟨fun h => by omega, fun h => absurd h (by simp)⟩⟩
  | c :: s, [] => by
    simp only [strUCmp, keyU, List.map_nil, List.map_cons, List.length_cons]
    refine ⟨⟨fun h => by omega, fun h => absurd h (by simp)⟩, ⟨fun _ => List.nil_lt_cons _ _, fun _ => by omega⟩⟩
  | c :: s, d :: t => by
    have ih := strUCmp_lt s t
    unfold keyU at ih
    simp only [strUCmp, keyU, List.map_cons, List.cons_lt_cons_iff]
    by_cases h : sgn (upC c) = sgn (upC d)
    · rw [if_neg (by omega)]
      simp only [h, lt_irrefl, true_and, false_or]
      exact ih
    · rw [if_pos (by omega)]
      constructor
      · constructor
        · intro hl; left; omega
        · rintro (hl | hl)
          · omega
          · exact absurd hl.1 h
      · constructor
        · intro hl; left; omega
        · rintro (hl | hl)
          · omega
          · exact absurd hl.1.symm h

theorem pStrUCmp_eq (s t : Str) : (pStrUCmp s t < 0 ↔ strUCmp s t < 0) ∧ (pStrUCmp s t > 0 ↔ strUCmp s t > 0) := by
  unfold pStrUCmp
  cases s with
  | nil => cases t with
    | nil => simp [strUCmp]
    | cons d t => simp [strUCmp]; omega
  | cons c s => cases t with
    | nil => simp [strUCmp]; omega
    | cons d t => simp

theorem cmpU : Cmp pStrUCmp LeU where
  lt a b := by
    rw [(pStrUCmp_eq a b).1, (strUCmp_lt a b).1]
    exact not_le.symm
  gt a b := by
    rw [(pStrUCmp_eq a b).2, (strUCmp_lt a b).2]
    exact not_le.symm
  total a b := le_total _ _
  trans _ _ _ := le_trans

/-- C64: SortN turns every list of up to 2^30 strings into a sorted one with the same strings. -/
theorem C64_sort {l : List Str} (h : 2 * (l.length : Int) ≤ 2147483648) : ∃ l', sortN pStrUCmp l = .ok l' ∧ l'.Perm l ∧ l'.Pairwise LeU :=
  sortN_ok cmpU h

/-- the same for everything that is compared by a total preorder -/
theorem C64_sort_any {α : Type} {cmp : α → α → Int} {le : α → α → Prop} (hc : Cmp cmp le) {l : List α} (h : 2 * (l.length : Int) ≤ 2147483648) :
    ∃ l', sortN cmp l = .ok l' ∧ l'.Perm l ∧ l'.Pairwise le := sortN_ok hc h

example : sortN pStrUCmp [[99], [66], [97], [], [98, 99]] = .ok [[], [97], [66], [98, 99], [99]] := by decide +kernel

theorem findLoop_ok {a : List Str} {s : Str} (ha : a.Pairwise LeU) (hl : 2 * (a.length : Int) ≤ 2147483648) : ∀ (n : Nat) (L H : Int), 0 ≤ L → H < a.length → L ≤ H + 1 →
    H - L + 1 < n → (∀ k x, k < L → nth a k = some x → keyU x < keyU s) → (∀ k x, H < k → nth a k = some x → keyU s < keyU x) →
    ∃ b k, findLoop a s n false L H = .ok (b, k) ∧ 0 ≤ k ∧ k ≤ a.length ∧ (∀ m x, m < k → nth a m = some x → LeU x s) ∧
      (∀ m x, k ≤ m → nth a m = some x → LeU s x) ∧ (if b then ∃ x, nth a k = some x ∧ keyU x = keyU s else ∀ x ∈ a, keyU x ≠ keyU s)
  | 0, L, H, _, _, _, h, _, _ => by omega
  | n + 1, L, H, h0, h1, h2, h3, hlo, hhi => by
    unfold findLoop
    by_cases hle : L ≤ H
    · rw [if_pos hle, if_neg (by omega)]
      obtain ⟨x, hx⟩ := nth_some.mpr (show 0 ≤ (L + H) / 2 ∧ (L + H) / 2 < a.length by omega)
      have hsort : ∀ k m x y, k ≤ m → nth a k = some x → nth a m = some y → LeU x y := by
        intro k m x y hkm hk hm
        have k1 := nth_some.mp ⟨x, hk⟩
        have m1 := nth_some.mp ⟨y, hm⟩
        unfold nth at hk hm
        rw [if_pos k1.1] at hk
        rw [if_pos m1.1] at hm
        obtain ⟨k2, k3⟩ := List.getElem?_eq_some_iff.mp hk
        obtain ⟨m2, m3⟩ := List.getElem?_eq_some_iff.mp hm
        rcases Nat.lt_or_ge k.toNat m.toNat with hlt | hge
        · rw [← k3, ← m3]
          exact List.pairwise_iff_getElem.mp ha _ _ k2 m2 hlt
        · have : k.toNat = m.toNat := by omega
          simp only [this] at k3
          rw [← k3, ← m3]
          exact le_refl (keyU _)
      simp only
      rw [at0_ok hx]
      simp only [Res.bind_ok]
      by_cases hgt : pStrUCmp s x > 0
      · rw [if_pos hgt]
        have hxs : keyU x < keyU s := ((strUCmp_lt s x).2).mp (((pStrUCmp_eq s x).2).mp hgt)
        refine findLoop_ok ha hl n _ H (by omega) h1 (by omega) (by omega) ?_ hhi
        intro k y hk hy
        exact lt_of_le_of_lt (hsort k ((L + H) / 2) y x (by omega) hy hx) hxs
      · rw [if_neg hgt]
        by_cases heq : pStrUCmp s x = 0
        · rw [if_pos heq]
          have hkey : keyU s = keyU x := by
            have h1 : keyU s < keyU x → False := fun h => absurd (((pStrUCmp_eq s x).1).mpr (((strUCmp_lt s x).1).mpr h)) (by omega)
            have h2 : keyU x < keyU s → False := fun h => absurd (((pStrUCmp_eq s x).2).mpr (((strUCmp_lt s x).2).mpr h)) (by omega)
            rcases lt_trichotomy (keyU s) (keyU x) with h | h | h
            · exact (h1 h).elim
            · exact h
            · exact (h2 h).elim
          have hend : findLoop a s n true ((L + H) / 2) ((L + H) / 2 - 1) = .ok (true, (L + H) / 2) := by
            cases n with
            | zero => omega
            | succ n =>
              unfold findLoop
              rw [if_neg (by omega)]
          refine ⟨true, (L + H) / 2, hend, by omega, by omega, ?_, ?_, ?_⟩
          · intro m y hm hy
            unfold LeU
            rw [hkey]
            exact hsort m _ y x (by omega) hy hx
          · intro m y hm hy
            unfold LeU
            rw [hkey]
            exact hsort _ m x y hm hx hy
          · simp only [if_true]
            exact ⟨x, hx, hkey.symm⟩
        · rw [if_neg heq]
          have hxs : keyU s < keyU x := ((strUCmp_lt s x).1).mp (((pStrUCmp_eq s x).1).mp (by omega))
          refine findLoop_ok ha hl n L _ h0 (by omega) (by omega) (by omega) hlo ?_
          intro k y hk hy
          exact lt_of_lt_of_le hxs (hsort ((L + H) / 2) k x y (by omega) hx hy)
    · rw [if_neg hle]
      have hLH : H = L - 1 := by omega
      refine ⟨false, L, rfl, h0, by omega, fun m x hm hx => le_of_lt (hlo m x hm hx), fun m x hm hx => le_of_lt (hhi m x (by omega) hx), ?_⟩
      simp only [Bool.false_eq_true, if_false]
      intro x hx heq
      obtain ⟨k, hk⟩ := List.mem_iff_getElem?.mp hx
      have hk' : nth a (k : Int) = some x := by
        unfold nth
        rw [if_pos (by omega), Int.toNat_natCast]
        exact hk
      by_cases hlt : (k : Int) < L
      · exact absurd (heq ▸ hlo k x hlt hk') (lt_irrefl _)
      · exact absurd (heq ▸ hhi k x (by omega) hk') (lt_irrefl _)

/-- C64: in a sorted list of up to 2^30 strings Find tells whether the string is there and where it is or belongs. -/
theorem C64_find {l : SList} (ha : l.ents.Pairwise LeU) (hl : 2 * (l.ents.length : Int) ≤ 2147483648) (s : Str) :
    ∃ b k, l.find s = .ok (b, k) ∧ 0 ≤ k ∧ k ≤ l.ents.length ∧ (∀ m x, m < k → nth l.ents m = some x → LeU x s) ∧
      (∀ m x, k ≤ m → nth l.ents m = some x → LeU s x) ∧ (if b then ∃ x, nth l.ents k = some x ∧ keyU x = keyU s else ∀ x ∈ l.ents, keyU x ≠ keyU s) := by
  unfold SList.find
  refine findLoop_ok ha hl (l.ents.length + 1) 0 _ (by omega) (by omega) (by omega) (by omega) ?_ ?_
  · intro k x hk hx
    have := nth_some.mp ⟨x, hx⟩
    omega
  · intro k x hk hx
    have := nth_some.mp ⟨x, hx⟩
    omega

/-- what can be called: updates end only after they began, elements that exist are deleted -/
def Legal (l : SList) : SOp → Prop
  | .add _ => 2 * (l.ents.length : Int) ≤ 2147483648
  | .delete k => 0 ≤ k ∧ k < l.ents.length
  | .beginUpdate => l.upd < 2147483647
  | .endUpdate => 0 < l.upd ∧ 2 * (l.ents.length : Int) ≤ 2147483648
  | .setSorted _ => 2 * (l.ents.length : Int) ≤ 2147483648

/-- what becomes of the strings -/
def Does (l l' : List Str) : SOp → Prop
  | .add s => l'.Perm (s :: l)
  | .delete k => l' = l.eraseIdx k.toNat
  | _ => l'.Perm l

/-- the lists that can come about -/
inductive Reach : SList → Prop where
  | empty : Reach .empty
  | step {l l' : SList} (o : SOp) : Reach l → Legal l o → l.step o = .ok l' → Reach l'

structure SOk (l : SList) : Prop where
  upd : 0 ≤ l.upd
  idle : l.upd = 0 → l.ents.Pairwise LeU
  flag : l.sorted = true → l.ents.Pairwise LeU

theorem setSorted_ok {l : SList} (h : SOk l) (hl : 2 * (l.ents.length : Int) ≤ 2147483648) (v : Bool) :
    ∃ l', l.setSorted v = .ok l' ∧ l'.ents.Perm l.ents ∧ l'.upd = l.upd ∧ SOk l' ∧ (v = true → l'.ents.Pairwise LeU) := by
  unfold SList.setSorted
  by_cases hv : l.sorted ≠ v
  · rw [if_pos hv]
    cases v with
    | true =>
      obtain ⟨a, a1, a2, a3⟩ := C64_sort hl
      simp only [if_true]
      rw [a1, Res.bind_ok]
      exact ⟨_, rfl, a2, rfl, ⟨h.upd, fun _ => a3, fun _ => a3⟩, fun _ => a3⟩
    | false =>
      simp only [Bool.false_eq_true, if_false, Res.pure_eq, Res.bind_ok]
      exact ⟨_, rfl, .refl _, rfl, ⟨h.upd, h.idle, fun hh => by cases hh⟩, fun hh => by cases hh⟩
  · rw [if_neg hv]
    simp only [ne_eq, not_not] at hv
    exact ⟨l, rfl, .refl _, rfl, h, fun hh => h.flag (hv.trans hh)⟩

theorem step_ok {l : SList} (h : SOk l) {o : SOp} (hg : Legal l o) : ∃ l', l.step o = .ok l' ∧ Does l.ents l'.ents o ∧ SOk l' := by
  cases o with
  | add s =>
    have hg : 2 * (l.ents.length : Int) ≤ 2147483648 := hg
    unfold SList.step SList.add
    simp only
    by_cases hc : l.upd ≠ 0 ∨ l.ents = []
    · rw [if_pos hc]
      unfold insertItem
      rw [if_neg (by omega), if_pos (by omega), Int.toNat_natCast, List.take_length, List.drop_length]
      simp only [Res.bind_ok, Res.pure_eq]
      refine ⟨_, rfl, ?_, h.upd, ?_, fun hh => by cases hh⟩
      · exact List.perm_append_singleton s l.ents
      · intro hu
        rcases hc with hc | hc
        · exact absurd hu hc
        · simp only [hc, List.nil_append]
          exact List.pairwise_singleton _ _
    · rw [if_neg hc]
      simp only [not_or, not_not] at hc
      have hs := h.idle hc.1
      obtain ⟨b, k, f1, f2, f3, f4, f5, _⟩ := C64_find hs hg s
      rw [f1, Res.bind_ok]
      simp only
      unfold insertItem
      rw [if_neg (by omega), if_pos ⟨f2, f3⟩]
      simp only [Res.bind_ok, Res.pure_eq]
      have hsort : (l.ents.take k.toNat ++ s :: l.ents.drop k.toNat).Pairwise LeU := by
        rw [List.pairwise_append, List.pairwise_cons]
        have hlow : ∀ x ∈ l.ents.take k.toNat, LeU x s := by
          intro x hx
          obtain ⟨m, hm⟩ := List.mem_iff_getElem?.mp hx
          have hlt := (List.getElem?_eq_some_iff.mp hm).1
          rw [List.length_take] at hlt
          rw [List.getElem?_take_of_lt (by omega)] at hm
          refine f4 m x (by omega) ?_
          unfold nth
          rw [if_pos (by omega), Int.toNat_natCast]
          exact hm
        have hhigh : ∀ x ∈ l.ents.drop k.toNat, LeU s x := by
          intro x hx
          obtain ⟨m, hm⟩ := List.mem_iff_getElem?.mp hx
          rw [List.getElem?_drop] at hm
          refine f5 ((k.toNat + m : Nat) : Int) x (by omega) ?_
          unfold nth
          rw [if_pos (by omega), Int.toNat_natCast]
          exact hm
        refine ⟨hs.sublist (List.take_sublist _ _), ⟨hhigh, hs.sublist (List.drop_sublist _ _)⟩, ?_⟩
        intro x hx y hy
        rcases List.mem_cons.mp hy with rfl | hy
        · exact hlow x hx
        · exact le_trans (hlow x hx) (hhigh y hy)
      refine ⟨_, rfl, ?_, h.upd, fun _ => hsort, fun _ => hsort⟩
      show (l.ents.take k.toNat ++ s :: l.ents.drop k.toNat).Perm (s :: l.ents)
      have := List.perm_middle (a := s) (l₁ := l.ents.take k.toNat) (l₂ := l.ents.drop k.toNat)
      rwa [List.take_append_drop] at this
  | delete k =>
    have hg : 0 ≤ k ∧ k < l.ents.length := hg
    unfold SList.step SList.delete
    simp only
    rw [if_pos hg]
    have hsub := List.eraseIdx_sublist l.ents k.toNat
    exact ⟨_, rfl, rfl, h.upd, fun hu => (h.idle hu).sublist hsub, fun hu => (h.flag hu).sublist hsub⟩
  | beginUpdate =>
    have hg : l.upd < 2147483647 := hg
    unfold SList.step SList.beginUpdate
    simp only
    rw [if_neg (by omega)]
    have := h.upd
    exact ⟨_, rfl, List.Perm.refl _, by simp only; omega, fun hu => by simp only at hu; omega, h.flag⟩
  | endUpdate =>
    obtain ⟨hg, hl⟩ := hg
    unfold SList.step SList.endUpdate
    simp only
    rw [if_neg (by omega)]
    by_cases h0 : l.upd - 1 = 0
    · rw [if_pos h0]
      unfold SList.setSorted
      simp only
      by_cases hv : l.sorted ≠ true
      · rw [if_pos hv]
        obtain ⟨a, a1, a2, a3⟩ := C64_sort hl
        simp only [if_true]
        rw [a1, Res.bind_ok]
        exact ⟨_, rfl, a2, by simp only; omega, fun _ => a3, fun _ => a3⟩
      · rw [if_neg hv]
        simp only [ne_eq, not_not] at hv
        exact ⟨_, rfl, List.Perm.refl _, by simp only; omega, fun _ => h.flag hv, fun _ => h.flag hv⟩
    · rw [if_neg h0]
      exact ⟨_, rfl, List.Perm.refl _, by simp only; omega, fun hu => absurd hu h0, h.flag⟩
  | setSorted v =>
    obtain ⟨l', s1, s2, _, s4, _⟩ := setSorted_ok h hg v
    exact ⟨l', s1, s2, s4⟩

theorem Reach.ok {l : SList} (h : Reach l) : SOk l := by
  induction h with
  | empty => exact ⟨by decide, fun _ => List.Pairwise.nil, fun _ => List.Pairwise.nil⟩
  | step o _ hg hs ih =>
    obtain ⟨l', a1, _, a3⟩ := step_ok ih hg
    rw [hs] at a1
    cases a1
    exact a3

/-- C64: every call is defined and only adds or removes the string it should … -/
theorem C64_step {l : SList} (h : Reach l) {o : SOp} (hg : Legal l o) : ∃ l', l.step o = .ok l' ∧ Does l.ents l'.ents o ∧ Reach l' := by
  obtain ⟨l', a1, a2, _⟩ := step_ok h.ok hg
  exact ⟨l', a1, a2, .step o h hg a1⟩

/-- … and outside of updates, and when it is marked so, the list is sorted. -/
theorem C64_sorted {l : SList} (h : Reach l) : (l.upd = 0 ∨ l.sorted = true) → l.ents.Pairwise LeU := fun hh => hh.elim h.ok.idle h.ok.flag

/-- C64 is violated by IndexOf: the first string added marks the list as not sorted, and then IndexOf calls itself for ever. -/
theorem C64_index (s t : Str) : (do let (l, _) ← SList.empty.add s; l.indexOf t) = .ub := by
  rfl

/-- Once it is marked as sorted IndexOf works. -/
theorem C64_index_sorted {l : SList} (h : Reach l) (hs : l.sorted = true) (hl : 2 * (l.ents.length : Int) ≤ 2147483648) (s : Str) :
    ∃ k, l.indexOf s = .ok k ∧ (if k = -1 then ∀ x ∈ l.ents, keyU x ≠ keyU s else ∃ x, nth l.ents k = some x ∧ keyU x = keyU s) := by
  obtain ⟨b, k, f1, f2, f3, _, _, f6⟩ := C64_find (C64_sorted h (Or.inr hs)) hl s
  unfold SList.indexOf
  rw [if_neg (by simp [hs]), f1, Res.bind_ok]
  cases b with
  | true => exact ⟨k, rfl, by rw [if_neg (by omega)]; simpa using f6⟩
  | false => exact ⟨-1, rfl, by rw [if_pos rfl]; simpa using f6⟩

/-- adding in the wrong order, inside and outside of an update -/
example : (SList.empty.run [.add [98], .add [97], .beginUpdate, .add [66], .add [65], .endUpdate, .add [65, 66]]).bind (fun l => .ok (l.ents.map keyU, l.sorted)) =
    .ok ([[65], [65], [65, 66], [66], [66]], true) := by decide +kernel

#print axioms C63_number
#print axioms C64_sort
#print axioms C64_step
#print axioms C64_sorted
#print axioms C64_find
#print axioms C64_index

end Gdx.Props
