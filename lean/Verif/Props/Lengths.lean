import Verif.Props.Callbacks

/-!
C29: the length queries give the true maxima.
-/

namespace Gdx.Props

open Gdx Spec

/-- `m` is the maximum of the values of `f` on the numbers with `p`, 0 if there are none (the values are not negative) -/
def MaxOf {α : Type} (p : α → Prop) (f : α → Nat) (m : Int) : Prop :=
  (∀ x, p x → (f x : Int) ≤ m) ∧ (m = 0 ∨ ∃ x, p x ∧ (f x : Int) = m)

/-- the length of the string of an element, 0 for a number that is not of an element -/
def elemLen (g : Gx) (e : Int) : Nat :=
  match umUelGet g e with
  | .ok (true, t, _) => t.length
  | _ => 0

theorem foldl_max {α : Type} (f : α → Nat) : ∀ (l : List α) (a : Int), 0 ≤ a →
    a ≤ l.foldl (fun m x => max m (f x : Int)) a ∧ (∀ x ∈ l, (f x : Int) ≤ l.foldl (fun m x => max m (f x : Int)) a) ∧
      (l.foldl (fun m x => max m (f x : Int)) a = a ∨ ∃ x ∈ l, (f x : Int) = l.foldl (fun m x => max m (f x : Int)) a)
  | [], a, h => ⟨le_refl _, by simp, Or.inl rfl⟩
  | x :: l, a, h => by
    obtain ⟨h1, h2, h3⟩ := foldl_max f l (max a (f x : Int)) (by omega)
    refine ⟨?_, ?_, ?_⟩
    · show a ≤ l.foldl _ (max a (f x : Int))
      omega
    · intro y hy
      show _ ≤ l.foldl _ (max a (f x : Int))
      rcases List.mem_cons.mp hy with rfl | hy
      · omega
      · exact h2 y hy
    · show l.foldl _ (max a (f x : Int)) = a ∨ _
      rcases h3 with h3 | ⟨y, hy, h3⟩
      · rcases Int.le_total a (f x) with h4 | h4
        · refine Or.inr ⟨x, List.mem_cons_self, ?_⟩
          show _ = l.foldl _ (max a (f x : Int))
          rw [h3]
          omega
        · left
          rw [h3]
          omega
      · exact Or.inr ⟨y, List.mem_cons_of_mem _ hy, h3⟩

/-- C29 for symbol names -/
theorem C29_symbols (g : Gx) (h : g.names ≠ none) : ∃ m, symbMaxLength g = .ok m ∧
    MaxOf (fun n => 1 ≤ n ∧ n ≤ (systemInfo g).1) (fun n => (symbolInfo g n).name.length) m := by
  obtain ⟨l, hl⟩ := Option.ne_none_iff_exists'.mp h
  have hc : (systemInfo g).1 = l.length := by unfold systemInfo; rw [hl]; rfl
  have hi : ∀ (i : Nat) s, l[i]? = some s → (symbolInfo g ((i : Int) + 1)).name = s.name := by
    intro i s hs
    have := (List.getElem?_eq_some_iff.mp hs).1
    unfold symbolInfo
    rw [if_neg (by omega)]
    unfold Gx.symAt
    rw [hl]
    simp only
    rw [if_pos (by omega), show ((i : Int) + 1 - 1).toNat = i by omega, hs]
  obtain ⟨h1, h2, h3⟩ := foldl_max (fun s : Sym => s.name.length) l 0 (le_refl _)
  refine ⟨_, by unfold symbMaxLength; rw [hl]; rfl, ?_, ?_⟩
  · rintro n ⟨n1, n2⟩
    have hlt : (n - 1).toNat < l.length := by omega
    have := hi (n - 1).toNat _ (List.getElem?_eq_getElem hlt)
    rw [show ((n - 1).toNat : Int) + 1 = n by omega] at this
    show ((symbolInfo g n).name.length : Int) ≤ _
    rw [this]
    exact h2 _ (List.getElem_mem hlt)
  · rcases h3 with h3 | ⟨s, hs, h3⟩
    · exact Or.inl h3
    · obtain ⟨i, hx⟩ := List.getElem?_of_mem hs
      have := (List.getElem?_eq_some_iff.mp hx).1
      refine Or.inr ⟨(i : Int) + 1, ⟨by omega, by omega⟩, ?_⟩
      show ((symbolInfo g ((i : Int) + 1)).name.length : Int) = _
      rw [hi i s hx]
      exact h3

theorem elemLen_at {g : Gx} (hg : GoodElems g) {u : Uel} (hu : g.uel = some u) (e : Int) :
    (elemLen g e : Int) = match at1 u.ents e with | .ok s => (s.1.length : Int) | .ub => 0 := by
  unfold elemLen
  by_cases hn : 1 ≤ e ∧ e ≤ u.ents.length
  · obtain ⟨⟨x, d⟩, hx⟩ := at1_total (l := u.ents) hn.1 hn.2
    have := umUelGet_in hg hu (at1_ok hx).2.2
    rw [show (((e - 1).toNat : Nat) : Int) + 1 = e by omega] at this
    rw [this, hx]
  · have h1 : at1 u.ents e = .ub := by
      unfold at1
      split
      · rw [List.getElem?_eq_none (by omega)]
      · rfl
    have h2 : umUelGet g e = .ok (false, badUelPrefix ++ intToStr e, -1) := by
      unfold umUelGet
      rw [hu]
      simp only
      rw [if_neg (by unfold Uel.size; exact hn)]
    rw [h1, h2]
    rfl

/-- C29 for elements -/
theorem C29_elements (g : Gx) (hg : GoodElems g) (h : g.uel ≠ none) : ∃ m, uelMaxLength g = .ok m ∧
    MaxOf (fun n => 1 ≤ n ∧ n ≤ (systemInfo g).2) (elemLen g) m := by
  obtain ⟨u, hu⟩ := Option.ne_none_iff_exists'.mp h
  have hc : (systemInfo g).2 = u.ents.length := by unfold systemInfo; rw [hu]; rfl
  have hi : ∀ (i : Nat) s, u.strs[i]? = some s → elemLen g ((i : Int) + 1) = s.length := by
    intro i s hs
    unfold Uel.strs at hs
    rw [List.getElem?_map] at hs
    obtain ⟨x, hx, rfl⟩ := Option.map_eq_some_iff.mp hs
    unfold elemLen
    rw [umUelGet_in hg hu hx]
  have hf : (fun (m : Int) (s : Str) => max (s.length : Int) m) = fun m s => max m (s.length : Int) := by
    funext m s
    omega
  obtain ⟨h1, h2, h3⟩ := foldl_max (fun s : Str => s.length) u.strs 0 (le_refl _)
  have hlen : u.strs.length = u.ents.length := by unfold Uel.strs; simp
  refine ⟨_, by unfold uelMaxLength; rw [hu]; unfold Uel.maxLen; rw [hf]; rfl, ?_, ?_⟩
  · rintro n ⟨n1, n2⟩
    have hlt : (n - 1).toNat < u.strs.length := by omega
    have := hi (n - 1).toNat _ (List.getElem?_eq_getElem hlt)
    rw [show ((n - 1).toNat : Int) + 1 = n by omega] at this
    rw [this]
    exact h2 _ (List.getElem_mem hlt)
  · rcases h3 with h3 | ⟨s, hs, h3⟩
    · exact Or.inl h3
    · obtain ⟨i, hx⟩ := List.getElem?_of_mem hs
      have := (List.getElem?_eq_some_iff.mp hx).1
      exact Or.inr ⟨(i : Int) + 1, ⟨by omega, by omega⟩, by rw [hi i s hx]; exact h3⟩

/-! ### positions of a symbol -/

/-- `lens` are the maxima of the element lengths in the positions of the keys seen -/
def LensOf (g : Gx) (d : Nat) (keys : List (List Int)) (lens : List Int) : Prop :=
  lens.length = d ∧ ∀ i (hi : i < lens.length),
    MaxOf (fun e => ∃ k ∈ keys, k[i]? = some e) (elemLen g) lens[i]

/-- the lengths after one record -/
def nextLens (u : Uel) (key : List Int) (fd : Nat) (lens : List Int) : List Int :=
  lens.take (fd - 1) ++ List.zipWith (fun e l => match at1 u.ents e with
    | .ok s => if (s.1.length : Int) > l then (s.1.length : Int) else l
    | .ub => l) (key.drop (fd - 1)) (lens.drop (fd - 1))

theorem nextLens_len {u : Uel} {key : List Int} {fd : Nat} {lens : List Int} (hk : key.length = lens.length) :
    (nextLens u key fd lens).length = lens.length := by
  unfold nextLens
  simp only [List.length_append, List.length_take, List.length_zipWith, List.length_drop]
  omega

theorem nextLens_get {u : Uel} {key : List Int} {fd : Nat} {lens : List Int} (hk : key.length = lens.length) (i : Nat) (hi : i < lens.length) :
    (nextLens u key fd lens)[i]? = some (if i < fd - 1 then lens[i] else
      match at1 u.ents (key[i]'(by omega)) with
      | .ok s => if (s.1.length : Int) > lens[i] then (s.1.length : Int) else lens[i]
      | .ub => lens[i]) := by
  unfold nextLens
  by_cases h : i < fd - 1
  · rw [if_pos h, List.getElem?_append_left (by simp; omega), List.getElem?_take, if_pos h, List.getElem?_eq_getElem hi]
  · have hlt : (lens.take (fd - 1)).length = fd - 1 := by simp; omega
    rw [if_neg h, List.getElem?_append_right (by omega), hlt, List.getElem?_zipWith, List.getElem?_drop, List.getElem?_drop,
      show fd - 1 + (i - (fd - 1)) = i by omega, List.getElem?_eq_getElem hi, List.getElem?_eq_getElem (by omega : i < key.length)]

/-- positions before the first changed one have been counted already -/
theorem LensOf.next {g : Gx} (hg : GoodElems g) {u : Uel} (hu : g.uel = some u) {d : Nat} {keys : List (List Int)} {lens : List Int}
    (h : LensOf g d keys lens) {key : List Int} (hk : key.length = d) {fd : Nat}
    (hold : ∀ i, i < fd - 1 → i < d → ∃ k ∈ keys, k[i]? = key[i]?) : LensOf g d (keys ++ [key]) (nextLens u key fd lens) := by
  obtain ⟨h1, h2⟩ := h
  have hkl : key.length = lens.length := by omega
  have hl := nextLens_len (u := u) (fd := fd) hkl
  refine ⟨by omega, ?_⟩
  intro i hi
  have hi' : i < lens.length := by omega
  have hget := nextLens_get (u := u) (fd := fd) hkl i hi'
  rw [List.getElem?_eq_getElem hi] at hget
  have hget := Option.some.inj hget
  rw [hget]
  obtain ⟨h3, h4⟩ := h2 i hi'
  have hki : key[i]? = some (key[i]'(by omega)) := List.getElem?_eq_getElem _
  split
  · rename_i hlt
    obtain ⟨k, hk1, hk2⟩ := hold i hlt (by omega)
    refine ⟨?_, ?_⟩
    · rintro e ⟨k', hk', he⟩
      rcases List.mem_append.mp hk' with hk' | hk'
      · exact h3 e ⟨k', hk', he⟩
      · rw [List.mem_singleton.mp hk'] at he
        exact h3 e ⟨k, hk1, hk2.trans he⟩
    · rcases h4 with h4 | ⟨e, ⟨k', hk', he⟩, h5⟩
      · exact Or.inl h4
      · exact Or.inr ⟨e, ⟨k', List.mem_append_left _ hk', he⟩, h5⟩
  · have hel := elemLen_at hg hu (key[i]'(by omega))
    have hval : (match at1 u.ents (key[i]'(by omega)) with
        | .ok s => if (s.1.length : Int) > lens[i] then (s.1.length : Int) else lens[i]
        | .ub => lens[i]) = max lens[i] (elemLen g (key[i]'(by omega)) : Int) := by
      have h0 : 0 ≤ lens[i] := by
        rcases h4 with h4 | ⟨e, _, h5⟩
        · omega
        · omega
      rw [hel]
      cases at1 u.ents (key[i]'(by omega)) with
      | ok s =>
        simp only
        split <;> omega
      | ub =>
        simp only
        omega
    rw [hval]
    refine ⟨?_, ?_⟩
    · rintro e ⟨k', hk', he⟩
      rcases List.mem_append.mp hk' with hk' | hk'
      · have := h3 e ⟨k', hk', he⟩
        omega
      · rw [List.mem_singleton.mp hk', hki] at he
        cases he
        omega
    · rcases Int.le_total lens[i] (elemLen g (key[i]'(by omega)) : Int) with hle | hle
      · exact Or.inr ⟨_, ⟨key, by simp, hki⟩, by omega⟩
      · rw [Int.max_eq_left hle]
        rcases h4 with h4 | ⟨e, ⟨k', hk', he⟩, h5⟩
        · exact Or.inl h4
        · exact Or.inr ⟨e, ⟨k', List.mem_append_left _ hk', he⟩, h5⟩

/-- what the first changed positions must satisfy for the shortcut of gdxSymbIndxMaxLength -/
def Chained (keys : List (List Int)) : List (RecOut Int) → Prop
  | [] => True
  | o :: os => (∀ i, i < o.frst - 1 → ∃ k ∈ keys, k[i]? = o.key[i]?) ∧ Chained (keys ++ [o.key]) os

theorem zipWith_take {α β γ : Type} (f : α → β → γ) : ∀ (l : List α) (m : List β) (n : Nat), m.length ≤ n →
    List.zipWith f (l.take n) m = List.zipWith f l m
  | [], m, n, h => by simp
  | a :: l, [], n, h => by simp
  | a :: l, b :: m, 0, h => by simp at h
  | a :: l, b :: m, n + 1, h => by
    simp only [List.take_succ_cons, List.zipWith_cons_cons]
    rw [zipWith_take f l m n (by simpa using h)]

theorem lenLoop_yields {u : Uel} {d : Nat} {g g' : Gx} {outs : List (RecOut Int)} (h : Yields g outs g') :
    GoodElems g → g.uel = some u → g.nd = d → ∀ (fuel : Nat) (keys : List (List Int)) (lens : List Int), outs.length < fuel →
      (∀ o ∈ outs, o.key.length = d) → Chained keys outs → LensOf g d keys lens →
      ∃ lens', lenLoop u fuel g lens = .ok (g', lens') ∧ LensOf g d (keys ++ outs.map RecOut.key) lens' := by
  induction h with
  | @done g g' h =>
    intro hg hu hd fuel keys lens hf hk hc hl
    obtain ⟨n, rfl⟩ : ∃ n, fuel = n + 1 := ⟨fuel - 1, by omega⟩
    refine ⟨lens, ?_, by simpa using hl⟩
    unfold lenLoop
    rw [h]
    rfl
  | @next g g1 g' fd vals rs h _ ih =>
    intro hg hu hd fuel keys lens hf hk hc hl
    obtain ⟨n, rfl⟩ : ∃ n, fuel = n + 1 := ⟨fuel - 1, by simp at hf; omega⟩
    have hst : RdStep g g1 := ((doRead_step g).of_ok h).1
    have hu1 : g1.uel = some u := hst.uel.trans hu
    have hnd : g1.nd = d := hst.nd.trans hd
    have hlk : ∀ (ks : List (List Int)) (l : List Int), LensOf g d ks l ↔ LensOf g1 d ks l := by
      intro ks l
      have : elemLen g1 = elemLen g := by
        funext e
        unfold elemLen umUelGet
        rw [hst.uel]
      unfold LensOf
      rw [this]
    have hgood : GoodElems g1 := by
      intro v hv
      rw [hst.uel] at hv
      exact hg v hv
    have hkey : (recOf g1 vals fd).key.length = d := hk _ List.mem_cons_self
    have hkt : (g1.last.take d).length = d := by
      have : (recOf g1 vals fd).key = g1.last.take g1.nd := rfl
      rw [this, hnd] at hkey
      exact hkey
    obtain ⟨hold, hrest⟩ := hc
    have hnext := LensOf.next hg hu hl (key := (recOf g1 vals fd).key) hkey (fd := fd) (fun i hi _ => hold i hi)
    obtain ⟨lens', e1, e2⟩ := ih hgood hu1 hnd n (keys ++ [(recOf g1 vals fd).key]) (nextLens u (recOf g1 vals fd).key fd lens)
      (by simp at hf; omega) (fun o ho => hk o (List.mem_cons_of_mem _ ho)) hrest ((hlk _ _).mp hnext)
    refine ⟨lens', ?_, (hlk _ _).mpr (by simpa using e2)⟩
    rw [lenLoop, h]
    simp only [Res.bind_ok]
    rw [← e1]
    congr 1
    show lens.take (fd - 1) ++ List.zipWith _ (g1.last.drop (fd - 1)) (lens.drop (fd - 1)) = nextLens u (g1.last.take g1.nd) fd lens
    unfold nextLens
    congr 1
    rw [hnd]
    have hll := hl.1
    rw [List.drop_take]
    exact (zipWith_take _ _ _ _ (by simp; omega)).symm

/-- A sequence with correct first changed positions can be counted in this way. -/
theorem chained_of {d : Nat} {outs : List (RecOut Int)} (h : FirstsOk d (keysOf outs)) : Chained [] outs := by
  have key : ∀ (pre : List (RecOut Int)) (os : List (RecOut Int)), FirstsOk d (keysOf (pre ++ os)) → Chained (pre.map RecOut.key) os := by
    intro pre os
    induction os generalizing pre with
    | nil => intro _; trivial
    | cons o os ih =>
      intro h
      refine ⟨?_, ?_⟩
      · intro i hi
        have hx := h pre.length o.key o.frst (by simp [keysOf])
        by_cases hd : d = 0
        · rw [if_pos hd] at hx
          omega
        rw [if_neg hd] at hx
        cases hp : pre.length with
        | zero =>
          rw [hp] at hx
          simp only at hx
          omega
        | succ j =>
          rw [hp] at hx
          obtain ⟨p, hp1, _, _, h3⟩ := hx
          have hj : j < pre.length := by omega
          have hpk : p.1 = (pre[j]'hj).key := by
            unfold keysOf at hp1
            rw [List.getElem?_map, List.getElem?_append_left hj, List.getElem?_eq_getElem hj] at hp1
            cases hp1
            rfl
          refine ⟨(pre[j]'hj).key, List.mem_map_of_mem (List.getElem_mem hj), ?_⟩
          have := h3 (i + 1) (by omega) (by omega)
          rw [hpk] at this
          simpa using this
      · have := ih (pre ++ [o]) (by simpa using h)
        simpa using this
  exact key [] outs (by simpa using h)

/-- what a successful start of a raw read leaves as it was, and the dimension it finds -/
theorem prepareRaw_dim {z : Cz} {g : Gx} (hm : g.mode = .rInit) (nr : Int) (acts : List Int) {nm : Mode} (hnm : nm ≠ .rMap) :
    (prepareRead z g nr acts nm).All fun x => x.2 = -1 ∨ (x.1.uel = g.uel ∧ x.1.names = g.names ∧ x.1.uelOrig = g.uelOrig ∧
      x.1.filters = g.filters ∧ ∃ syms t, g.names = some syms ∧ (0 ≤ nr ∧ nr ≤ syms.length) ∧ readTarget syms nr = .ok t ∧
      ((t = none ∧ x.1.curDim = 1) ∨ ∃ n s, t = some n ∧ at1 syms n = .ok s ∧ x.1.curDim = s.dim)) := by
  unfold prepareRead
  refine Res.All.bind' ?_
  intro x hx
  have h0 : x.1.uel = g.uel ∧ x.1.names = g.names ∧ x.1.uelOrig = g.uelOrig ∧ x.1.filters = g.filters := by
    unfold prepareStart finishRead at hx
    rw [if_neg (by rw [hm]; simp)] at hx
    simp only [Res.bind_ok] at hx
    unfold Gx.chk at hx
    split at hx
    · simp only [Bool.true_eq_false, if_false] at hx
      cases hx; exact ⟨rfl, rfl, rfl, rfl⟩
    · simp only [if_true] at hx
      cases hx; exact ⟨rfl, rfl, rfl, rfl⟩
  obtain ⟨a1, a2, a3, a4⟩ := h0
  dsimp only
  split
  · exact Or.inl rfl
  refine Res.All.bind' ?_
  intro fl _
  refine Res.All.bind' ?_
  intro syms hs
  have hs : g.names = some syms := by
    rw [← a2]
    cases hn : x.1.names with
    | none => rw [hn] at hs; cases hs
    | some v => rw [hn] at hs; cases hs; rfl
  split
  · exact Or.inl rfl
  rename_i hin
  have hin : 0 ≤ nr ∧ nr ≤ syms.length := by omega
  refine Res.All.bind' ?_
  intro t ht
  split
  · split
    · trivial
    split
    · exact Or.inl rfl
    · refine (?_ : Res.All _ _)
      exact Or.inr ⟨a1, a2, a3, a4, syms, _, hs, hin, ht, Or.inl ⟨rfl, rfl⟩⟩
  · refine Res.All.bind' ?_
    intro s hat
    split
    · trivial
    split
    · trivial
    split
    · exact Or.inl rfl
    · unfold prepareData
      dsimp only
      split
      · exact Or.inl rfl
      refine Res.All.bind' ?_
      intro x _
      split
      · exact Or.inl rfl
      refine Res.All.bind' ?_
      intro y _
      split
      · exact Or.inr ⟨a1, a2, a3, a4, syms, _, hs, hin, ht, Or.inr ⟨_, s, rfl, hat, rfl⟩⟩
      refine Res.All.bind' ?_
      intro w _
      exact Or.inr ⟨a1, a2, a3, a4, syms, _, hs, hin, ht, Or.inr ⟨_, s, rfl, hat, rfl⟩⟩

theorem rawStart_same {z : Cz} {g g1 : Gx} {nr n : Int} (hm : g.mode = .rInit) (h : dataReadRawStart z g nr = .ok (g1, (true, n))) :
    g1.uel = g.uel ∧ g1.names = g.names ∧ g1.uelOrig = g.uelOrig ∧
      g1.filters = g.filters ∧ ∃ syms t, g.names = some syms ∧ (0 ≤ nr ∧ nr ≤ syms.length) ∧ readTarget syms nr = .ok t ∧
      ((t = none ∧ g1.curDim = 1) ∨ ∃ n s, t = some n ∧ at1 syms n = .ok s ∧ g1.curDim = s.dim) := by
  obtain ⟨h1, h2, _⟩ := rawStart_prep h
  rcases (prepareRaw_dim hm nr _ (by decide)).of_ok h1 with h3 | h3
  · simp only at h3
    omega
  · exact h3

theorem foldl_max_pos {lens : List Int} {P : Int → Prop} {Q : Nat → Int → Prop} {f : Int → Nat} (hP : ∀ e, P e ↔ ∃ i, i < lens.length ∧ Q i e)
    (h : ∀ i (hi : i < lens.length), MaxOf (Q i) f lens[i]) : MaxOf P f (lens.foldl max 0) := by
  have key : ∀ (l : List Int) (a : Int), a ≤ l.foldl max a ∧ (∀ x ∈ l, x ≤ l.foldl max a) ∧ (l.foldl max a = a ∨ l.foldl max a ∈ l) := by
    intro l
    induction l with
    | nil => intro a; exact ⟨le_refl _, by simp, Or.inl rfl⟩
    | cons x l ih =>
      intro a
      obtain ⟨h1, h2, h3⟩ := ih (max a x)
      simp only [List.foldl_cons]
      refine ⟨by omega, ?_, ?_⟩
      · intro y hy
        rcases List.mem_cons.mp hy with rfl | hy
        · omega
        · exact h2 y hy
      · rcases h3 with h3 | h3
        · rw [h3]
          rcases Int.le_total a x with h4 | h4
          · rw [Int.max_eq_right h4]; exact Or.inr List.mem_cons_self
          · rw [Int.max_eq_left h4]; exact Or.inl rfl
        · exact Or.inr (List.mem_cons_of_mem _ h3)
  obtain ⟨_, h2, h3⟩ := key lens 0
  refine ⟨?_, ?_⟩
  · intro e he
    obtain ⟨i, hi, hq⟩ := (hP e).mp he
    exact ((h i hi).1 e hq).trans (h2 _ (List.getElem_mem hi))
  · rcases h3 with h3 | h3
    · exact Or.inl h3
    · obtain ⟨i, hi, h4⟩ := List.mem_iff_getElem.mp h3
      rcases (h i hi).2 with h5 | ⟨e, h5, h6⟩
      · left; rw [← h4]; exact h5
      · exact Or.inr ⟨e, (hP e).mpr ⟨i, hi, h5⟩, by rw [h6, h4]⟩

/-- C29 for the positions of a symbol: if the record loop delivers `outs`, with keys of the dimension of the symbol and correct first
    changed positions, then LengthInfo has the maximal lengths of the elements in each position, the result is the maximal length of
    all elements in the keys, and the object is left as by the record loop. -/
theorem C29_positions (z : Cz) (g g1 g2 : Gx) (nr n : Int) (outs : List (RecOut Int)) (hm : g.mode = .rInit) (hg : GoodElems g)
    (hu : g.uel ≠ none) (h : dataReadRawStart z g nr = .ok (g1, (true, n))) (hr : DeliversRaw g1 outs g2) (hpos : 0 < g1.curDim)
    (hk : ∀ o ∈ outs, (o.key.length : Int) = g1.curDim) (hf : FirstsOk g1.curDim.toNat (keysOf outs)) :
    ∃ m lens, symbIndxMaxLength z g nr = .ok (g2, (m, lens)) ∧ LensOf g g1.curDim.toNat (outs.map RecOut.key) lens ∧
      MaxOf (fun e => ∃ o ∈ outs, e ∈ o.key) (elemLen g) m := by
  obtain ⟨h1, h2, h3, h4⟩ := rawStart_prep h
  obtain ⟨s1, s2, s3, s4, syms, t, s5, s6, s7, s8⟩ := rawStart_same hm h
  obtain ⟨g', h5, h6⟩ := hr.yields h3
  obtain ⟨u, hu⟩ := Option.ne_none_iff_exists'.mp hu
  have hel : elemLen g1 = elemLen g := by
    funext e
    unfold elemLen umUelGet
    rw [s1]
  have hg1 : GoodElems g1 := by
    intro v hv
    rw [s1] at hv
    exact hg v hv
  have hnd : g1.nd = g1.curDim.toNat := rfl
  have hk' : ∀ o ∈ outs, o.key.length = g1.nd := by
    intro o ho
    have := hk o ho
    omega
  have h0 : LensOf g1 g1.nd [] (List.replicate g1.nd 0) := by
    refine ⟨by simp, ?_⟩
    intro i hi
    refine ⟨?_, ?_⟩
    · rintro e ⟨k, hk, _⟩
      cases hk
    · left
      simp
  obtain ⟨lens, e1, e2⟩ := lenLoop_yields h5 hg1 (s1.trans hu) rfl g1.fuel [] _ (Nat.lt_of_le_of_lt h5.len (left_lt_fuel g1)) hk'
    (chained_of hf) h0
  have e3 : LensOf g g1.nd (outs.map RecOut.key) lens := by
    unfold LensOf at e2 ⊢
    rw [hel] at e2
    simpa using e2
  refine ⟨lens.foldl max 0, lens, ?_, e3, ?_⟩
  · unfold symbIndxMaxLength
    have hc : g.chk [.rInit] = (g, true) := by
      unfold Gx.chk
      rw [if_pos (by rw [hm]; simp)]
    rw [hc]
    simp only [Bool.true_eq_false, if_false]
    rw [s5]
    simp only [need, Res.bind_ok]
    rw [if_neg (by omega), h]
    simp only [Res.bind_ok, Bool.true_eq_false, if_false]
    rw [s1, hu]
    simp only [Res.bind_ok]
    unfold lenBody
    rw [if_pos hpos, e1]
    simp only [Res.bind_ok]
    rw [h6]
    rfl
  · refine foldl_max_pos (Q := fun i e => ∃ k ∈ outs.map RecOut.key, k[i]? = some e) ?_ e3.2
    intro e
    constructor
    · rintro ⟨o, ho, he⟩
      obtain ⟨i, hi⟩ := List.getElem?_of_mem he
      have := (List.getElem?_eq_some_iff.mp hi).1
      exact ⟨i, by rw [e3.1, ← hk' o ho]; exact this, o.key, List.mem_map_of_mem ho, hi⟩
    · rintro ⟨i, _, k, hk, he⟩
      obtain ⟨o, ho, rfl⟩ := List.mem_map.mp hk
      exact ⟨o, ho, List.mem_of_getElem? he⟩

/-- a scalar has no positions -/
theorem C29_scalar (z : Cz) (g g1 : Gx) (nr n : Int) (hm : g.mode = .rInit) (hu : g.uel ≠ none)
    (h : dataReadRawStart z g nr = .ok (g1, (true, n))) (hd : g1.curDim ≤ 0) :
    ∃ g2, symbIndxMaxLength z g nr = .ok (g2, (0, [])) ∧ g2.mode = .rInit := by
  obtain ⟨h1, h2, h3, h4⟩ := rawStart_prep h
  obtain ⟨s1, s2, s3, s4, syms, t, s5, s6, s7, s8⟩ := rawStart_same hm h
  obtain ⟨u, hu⟩ := Option.ne_none_iff_exists'.mp hu
  refine ⟨{ g1 with sort := none, cur := .none, mode := .rInit }, ?_, rfl⟩
  unfold symbIndxMaxLength
  have hc : g.chk [.rInit] = (g, true) := by
    unfold Gx.chk
    rw [if_pos (by rw [hm]; simp)]
  rw [hc]
  simp only [Bool.true_eq_false, if_false]
  rw [s5]
  rw [show need (some syms) = .ok syms from rfl]
  simp only [Res.bind_ok]
  rw [if_neg (by omega), h]
  simp only [Res.bind_ok, Bool.true_eq_false, if_false]
  rw [show need g1.uel = .ok u by rw [s1, hu]; rfl]
  simp only [Res.bind_ok]
  unfold lenBody
  rw [if_neg (by omega)]
  simp only [Res.bind_ok]
  rw [readDone_ok h3 h4]
  simp only [Res.bind_ok, Res.pure_eq, List.foldl_nil]

theorem target_dim {z : Cz} {g g1 : Gx} {m : Nat} {s : Sym} {rs : List Rec} {nr n : Int} (hm : g.mode = .rInit) (hd : HasData z g m s rs)
    (ht : Targets g nr m) (h : dataReadRawStart z g nr = .ok (g1, (true, n))) : g1.curDim = s.dim := by
  obtain ⟨_, _, _, _, syms, t, s5, s6, s7, s8⟩ := rawStart_same hm h
  obtain ⟨syms', t1, _, _, t2⟩ := ht
  obtain ⟨syms'', n1, n2⟩ := hd.names
  rw [s5] at t1 n1
  cases t1
  cases n1
  rw [s7] at t2
  cases t2
  rcases s8 with ⟨s8, _⟩ | ⟨k, s', s8, s9, s10⟩
  · cases s8
  · cases s8
    have := (at1_ok s9).2.2
    rw [show (((m + 1 : Nat) : Int) - 1).toNat = m by omega, n2] at this
    cases this
    exact s10

theorem sameRec_keys {r : SVTab} {acr : Dbl → Dbl} {xs : List RawEntry} {outs : List (RecOut Int)}
    (h : List.Forall₂ (SameRec r acr) xs outs) : outs.map RecOut.key = xs.map fun x => x.key := by
  induction h with
  | nil => rfl
  | cons a _ ih => rw [List.map_cons, List.map_cons, ih, a.key]

/-- C29 for the positions of a symbol that holds the records `xs` -/
theorem C29_loaded (z : Cz) (hz : z.Good) (g : Gx) (hg : GoodElems g) (m : Nat) (d : SymDesc) (xs : List RawEntry) (h : Loaded z g m d xs)
    (nr : Int) (ht : Targets g nr m) : ∃ g2 mx lens, symbIndxMaxLength z g nr = .ok (g2, (mx, lens)) ∧ g2.mode = .rInit ∧
      LensOf g d.dim.toNat (xs.map fun x => x.key) lens ∧ MaxOf (fun e => ∃ x ∈ xs, e ∈ x.key) (elemLen g) mx := by
  obtain ⟨outs, h1, ⟨g1, g2, h2, h3, h4, h5⟩, _⟩ := h.reads hz ht
  obtain ⟨hm, _, ⟨s, hs1, _, hs3⟩, u, hu, _⟩ := h
  have hu : g.uel ≠ none := by rw [hu]; simp
  have hdim : g1.curDim = d.dim := (target_dim hm hs3 ht h2).trans hs1.dim
  unfold Delivered at h1
  have hkeys : AsWritten g.rsv (acrOf g) d.dim xs outs → outs.map RecOut.key = xs.map fun x => x.key := by
    exact fun hw => sameRec_keys hw.recs
  by_cases hpos : 0 < d.dim
  · rw [if_neg (by omega)] at h1
    obtain ⟨mx, lens, e1, e2, e3⟩ := C29_positions z g g1 g2 nr _ outs hm hg hu h2 h3 (by omega)
      (by
        intro o ho
        have := h1.len o ho
        omega) (by rw [hdim]; exact h1.frst)
    have hk := hkeys h1
    refine ⟨g2, mx, lens, e1, h4, by rw [hdim, hk] at e2; exact e2, ?_⟩
    have hP : (fun e => ∃ o ∈ outs, e ∈ o.key) = fun e => ∃ x ∈ xs, e ∈ x.key := by
      funext e
      apply propext
      have a1 : (∃ o ∈ outs, e ∈ o.key) ↔ ∃ k ∈ outs.map RecOut.key, e ∈ k := by simp
      have a2 : (∃ x ∈ xs, e ∈ x.key) ↔ ∃ k ∈ xs.map fun x => x.key, e ∈ k := by simp
      rw [a1, a2, hk]
    rw [← hP]
    exact e3
  · obtain ⟨g3, e1, e2⟩ := C29_scalar z g g1 nr _ hm hu h2 (by omega)
    have hno : ∀ x ∈ xs, x.key = [] := by
      intro x hx
      rw [if_neg (by
        rintro ⟨_, rfl⟩
        cases hx)] at h1
      have hk : x.key ∈ outs.map RecOut.key := by rw [hkeys h1]; exact List.mem_map_of_mem (f := fun x : RawEntry => x.key) hx
      obtain ⟨o, ho, ho2⟩ := List.mem_map.mp hk
      have := h1.len o ho
      rw [ho2] at this
      exact List.length_eq_zero_iff.mp (by omega)
    refine ⟨g3, 0, [], e1, e2, ⟨by simp; omega, by intro i hi; simp at hi⟩, ?_, Or.inl rfl⟩
    rintro e ⟨x, hx, he⟩
    rw [hno x hx] at he
    cases he

/-! ### examples -/

/-- a file with the set i = {a.long, b.a} and the scalar pi -/
def exLenCalls : List Call :=
  [.openWrite false 0 [65] 0, .strStart [105] [] 2 0 0, .writeStr [[97], [108, 111, 110, 103]] [0], .writeStr [[98], [97]] [0],
    .writeDone, .strStart [112, 105] [] 0 1 0, .writeStr [] [0], .writeDone, .close]

example : exCb exLenCalls (fun g => do
    let a ← symbMaxLength g
    let b ← uelMaxLength g
    pure [a, b]) = .ok [2, 4] := by decide +kernel

example : exCb exLenCalls (fun g => do
    let r ← symbIndxMaxLength Cz.id g 1
    let q ← symbIndxMaxLength Cz.id r.1 2
    pure ([r.2.1, q.2.1], [r.2.2, q.2.2])) = .ok ([4, 0], [[1, 4], []]) := by decide +kernel

#print axioms C29_symbols
#print axioms C29_elements
#print axioms C29_loaded

end Gdx.Props
