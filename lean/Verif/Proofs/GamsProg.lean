import Verif.Spec.GamsProg

/-!
Proofs about the reader of GAMS programs: what is read does not depend on what follows.
-/

namespace Gdx.Gams
open Gdx

theorem dropWhile_ext {p : UInt8 → Bool} {s x r : Str} (h : s.dropWhile p = r) (hr : r ≠ []) : (s ++ x).dropWhile p = r ++ x := by
  induction s with
  | nil => exact absurd h.symm hr
  | cons c s ih =>
    by_cases hc : p c = true
    · rw [List.dropWhile_cons_of_pos hc] at h
      rw [List.cons_append, List.dropWhile_cons_of_pos hc]
      exact ih h
    · rw [List.dropWhile_cons_of_neg hc] at h
      rw [List.cons_append, List.dropWhile_cons_of_neg hc, ← h]
      rfl

theorem takeWhile_ext {p : UInt8 → Bool} {s x : Str} (hr : s.dropWhile p ≠ []) : (s ++ x).takeWhile p = s.takeWhile p := by
  induction s with
  | nil => exact absurd rfl hr
  | cons c s ih =>
    by_cases hc : p c = true
    · rw [List.dropWhile_cons_of_pos hc] at hr
      rw [List.cons_append, List.takeWhile_cons_of_pos hc, List.takeWhile_cons_of_pos hc, ih hr]
    · rw [List.cons_append, List.takeWhile_cons_of_neg hc, List.takeWhile_cons_of_neg hc]

theorem skip_ext {s x : Str} (hr : skip s ≠ []) : skip (s ++ x) = skip s ++ x := dropWhile_ext rfl hr

theorem skip_of_skip {s : Str} (h : skip s ≠ []) : s ≠ [] := by
  rintro rfl
  exact h rfl

theorem skip_skip (s : Str) : skip (skip s) = skip s := by
  unfold skip
  induction s with
  | nil => rfl
  | cons c s ih =>
    by_cases hc : isBlank c = true
    · rw [List.dropWhile_cons_of_pos hc]
      exact ih
    · rw [List.dropWhile_cons_of_neg hc, List.dropWhile_cons_of_neg hc]

theorem skip_match {s x r : Str} {c : UInt8} (h : skip s = c :: r) : skip (s ++ x) = c :: (r ++ x) := by
  rw [skip_ext (by rw [h]; simp), h]
  rfl

/-! ### parts -/

theorem labels_dot {n : Nat} {s w r' q : Str} (h1 : label s = some (w, r')) (hs : skip r' = 46 :: q) :
    labels (n + 2) s = (labels (n + 1) (skip q)).map fun p => (w :: p.1, p.2) := by
  conv => lhs; unfold labels
  rw [h1]
  simp only [Option.bind_eq_bind, Option.bind_some]
  rw [hs]
  show (labels (n + 1) (skip q)).bind _ = _
  cases labels (n + 1) (skip q) <;> rfl

theorem labels_nodot {n : Nat} {s w r' : Str} {c : UInt8} {q : Str} (h1 : label s = some (w, r')) (hs : skip r' = c :: q) (hc : c ≠ 46) :
    labels (n + 2) s = none := by
  conv => lhs; unfold labels
  rw [h1]
  simp only [Option.bind_eq_bind, Option.bind_some]
  rw [hs]
  split
  · simp_all
  · rfl

theorem dataList_slash {n : Nat} {s r : Str} (hs : skip s = 47 :: r) : dataList n s = some ([], r) := by
  unfold dataList
  rw [hs]
  rfl

theorem dataList_other {n : Nat} {s q : Str} {c : UInt8} (hs : skip s = c :: q) (hc : c ≠ 47) : dataList n s = entries n ((c :: q).length + 1) (c :: q) := by
  unfold dataList
  rw [hs]
  split
  · simp_all
  · rfl

theorem domain_other {q : Str} {c : UInt8} (hc : c ≠ 42) : domain (c :: q) = name (c :: q) := by
  unfold domain
  split
  · simp_all
  · rfl

theorem optDomains_other {q : Str} {c : UInt8} (hc : c ≠ 40) : optDomains (c :: q) = some ([], c :: q) := by
  unfold optDomains
  split
  · simp_all
  · rfl

theorem optText_other {q : Str} {c : UInt8} (hc : ¬ (c = 47 ∨ c = 59)) : optText (c :: q) = text (c :: q) := by
  unfold optText
  split
  · simp_all
  · simp_all
  · rfl

theorem moreLabel_two {c d : UInt8} {s x : Str} : moreLabel (c :: d :: (s ++ x)) = moreLabel (c :: d :: s) := by
  by_cases hc : c = 46
  · subst hc; rfl
  · unfold moreLabel
    split <;> split <;> simp_all

theorem quoted_ext {q : UInt8} {s t r x : Str} (h : quoted q s = some (t, r)) : quoted q (s ++ x) = some (t, r ++ x) := by
  unfold quoted at h ⊢
  cases hd : s.dropWhile (· != q) with
  | nil => rw [hd] at h; cases h
  | cons c r' =>
    rw [hd] at h
    injection h with h
    injection h with h1 h2
    subst h1 h2
    rw [dropWhile_ext hd (by simp), takeWhile_ext (by rw [hd]; simp)]
    rfl

theorem token_ext {ends : UInt8 → Bool} {s t r x : Str} (h : token ends s = some (t, r)) (hr : r ≠ []) : token ends (s ++ x) = some (t, r ++ x) := by
  unfold token at h ⊢
  cases s with
  | nil => cases h
  | cons c s =>
    simp only [List.cons_append] at h ⊢
    by_cases hc : c = 39 ∨ c = 34
    · rw [if_pos hc] at h ⊢
      exact quoted_ext h
    · rw [if_neg hc] at h ⊢
      injection h with h
      injection h with h1 h2
      have hd : (c :: s).dropWhile (fun d => !ends d) ≠ [] := by rw [h2]; exact hr
      rw [← List.cons_append, dropWhile_ext h2 hr, takeWhile_ext hd, h1]

theorem label_ext {s t r x : Str} (h : label s = some (t, r)) (hr : r ≠ []) : label (s ++ x) = some (t, r ++ x) := by
  unfold label at h ⊢
  cases s with
  | nil => cases h
  | cons c s =>
    simp only [List.cons_append] at h ⊢
    by_cases hc : endsWord c = true
    · rw [if_pos hc] at h; cases h
    · rw [if_neg hc] at h ⊢
      rw [← List.cons_append]
      exact token_ext h hr

theorem labels_ext {n : Nat} : ∀ {s : Str} {ts : List Str} {r : Str} {x : Str}, labels n s = some (ts, r) → r ≠ [] → labels n (s ++ x) = some (ts, r ++ x) := by
  induction n with
  | zero =>
    intro s ts r x h hr
    unfold labels at h ⊢
    cases h
    rfl
  | succ n ih =>
    intro s ts r x h hr
    cases n with
    | zero =>
      unfold labels at h ⊢
      obtain ⟨⟨w, r'⟩, h1, h2⟩ := Option.bind_eq_some_iff.mp h
      cases h2
      rw [label_ext h1 hr]
      rfl
    | succ n =>
      unfold labels at h
      obtain ⟨⟨w, r'⟩, h1, h2⟩ := Option.bind_eq_some_iff.mp h
      dsimp only at h2
      cases hs : skip r' with
      | nil => rw [hs] at h2; cases h2
      | cons c q =>
        rw [hs] at h2
        split at h2
        · rename_i q' hq
          cases hq
          obtain ⟨⟨ws, r''⟩, h3, h4⟩ := Option.bind_eq_some_iff.mp h2
          cases h4
          have hq : skip q ≠ [] := by
            intro hc
            rw [hc] at h3
            unfold labels label at h3
            cases n with
            | zero => cases h3
            | succ n => cases h3
          rw [labels_dot (n := n) (label_ext (x := x) h1 (skip_of_skip (by rw [hs]; simp))) (skip_match hs), skip_ext hq, ih h3 hr]
          rfl
        · cases h2

theorem moreLabel_ext {s x : Str} (hs : 2 ≤ s.length ∨ s.head? ≠ some 46) (h0 : s ≠ []) : moreLabel (s ++ x) = moreLabel s := by
  cases s with
  | nil => exact absurd rfl h0
  | cons c s =>
    cases s with
    | nil =>
      rcases hs with hs | hs
      · simp at hs
      · have : c ≠ 46 := fun hc => hs (by rw [hc]; rfl)
        unfold moreLabel
        split <;> simp_all
    | cons d s => exact moreLabel_two

theorem entry_ext {n : Nat} {s : Str} {e : List Str × Str} {r x : Str} (h : entry n s = some (e, r)) (hr : r ≠ []) : entry n (s ++ x) = some (e, r ++ x) := by
  unfold entry at h ⊢
  obtain ⟨⟨ws, r1⟩, h1, h2⟩ := Option.bind_eq_some_iff.mp h
  dsimp only at h2
  by_cases hm : n ≠ 0 ∧ moreLabel (skip r1) = true
  · rw [if_pos hm] at h2
    cases h2
  · rw [if_neg hm] at h2
    obtain ⟨⟨b, r2⟩, h3, h4⟩ := Option.bind_eq_some_iff.mp h2
    injection h4 with h4
    injection h4 with h4 h5
    subst h4
    have hr2 : r2 ≠ [] := skip_of_skip (by rw [h5]; exact hr)
    have hs : skip r1 ≠ [] := by
      intro hc
      rw [hc] at h3
      cases h3
    rw [labels_ext h1 (skip_of_skip hs)]
    simp only [Option.bind_eq_bind, Option.bind_some]
    have hml : n ≠ 0 → moreLabel (skip r1 ++ x) = moreLabel (skip r1) := by
      intro hn
      apply moreLabel_ext _ hs
      by_cases hl : 2 ≤ (skip r1).length
      · exact Or.inl hl
      · right
        intro hh
        have : skip r1 = [46] := by
          generalize skip r1 = q at *
          match q with
          | [] => cases hh
          | [c] => cases hh; rfl
          | _ :: _ :: _ => simp at hl
        apply hm
        rw [this]
        exact ⟨hn, rfl⟩
    rw [skip_ext hs]
    have hm' : ¬ (n ≠ 0 ∧ moreLabel (skip r1 ++ x) = true) := fun hc => hm ⟨hc.1, by rw [← hml hc.1]; exact hc.2⟩
    rw [if_neg hm', token_ext h3 hr2]
    simp only [Option.bind_some]
    rw [skip_ext (by rw [h5]; exact hr), h5]

theorem entries_ext {n : Nat} : ∀ {f : Nat} {s : Str} {es : List (List Str × Str)} {r : Str} {f' : Nat} {x : Str}, entries n f s = some (es, r) → f ≤ f' →
    entries n f' (s ++ x) = some (es, r ++ x) := by
  intro f
  induction f with
  | zero =>
    intro s es r f' x h _
    cases h
  | succ f ih =>
    intro s es r f' x h hf
    obtain ⟨f', rfl⟩ : ∃ k, f' = k + 1 := ⟨f' - 1, by omega⟩
    unfold entries at h ⊢
    split at h
    · rename_i e q he
      obtain ⟨⟨es', r'⟩, h1, h2⟩ := Option.bind_eq_some_iff.mp h
      cases h2
      rw [entry_ext he (by simp)]
      have hq : skip q ≠ [] := by
        intro hc
        rw [hc] at h1
        cases f with
        | zero => cases h1
        | succ f =>
          unfold entries at h1
          have : entry n [] = none := by
            unfold entry
            match n with
            | 0 => rfl
            | 1 => rfl
            | n + 2 => rfl
          rw [this] at h1
          cases h1
      simp only [List.cons_append, Option.bind_eq_bind]
      rw [skip_ext hq, ih h1 (by omega)]
      rfl
    · rename_i e q he
      injection h with h
      injection h with h1 h2
      subst h1 h2
      rw [entry_ext he (by simp)]
      rfl
    · cases h

theorem dataList_ext {n : Nat} {s : Str} {es : List (List Str × Str)} {r x : Str} (h : dataList n s = some (es, r)) : dataList n (s ++ x) = some (es, r ++ x) := by
  cases hs : skip s with
  | nil =>
    unfold dataList at h
    rw [hs] at h
    exfalso
    have h : entries n 1 [] = some (es, r) := h
    unfold entries at h
    have : entry n [] = none := by
      unfold entry
      match n with
      | 0 => rfl
      | 1 => rfl
      | n + 2 => rfl
    rw [this] at h
    cases h
  | cons c q =>
    by_cases hc : c = 47
    · subst hc
      rw [dataList_slash hs] at h
      cases h
      exact dataList_slash (skip_match hs)
    · rw [dataList_other hs hc] at h
      rw [dataList_other (skip_match hs) hc, ← List.cons_append]
      exact entries_ext h (by simp)

theorem name_ext {s t r x : Str} (h : name s = some (t, r)) (hr : r ≠ []) : name (s ++ x) = some (t, r ++ x) := by
  unfold name at h ⊢
  by_cases hn : s.takeWhile isName = []
  · rw [if_pos hn] at h; cases h
  · rw [if_neg hn] at h
    injection h with h
    injection h with h1 h2
    have : s.dropWhile isName ≠ [] := by rw [h2]; exact hr
    rw [takeWhile_ext this, dropWhile_ext h2 hr, if_neg hn, h1]

theorem domain_ext {s t r x : Str} (h : domain s = some (t, r)) (hr : r ≠ []) : domain (s ++ x) = some (t, r ++ x) := by
  cases s with
  | nil =>
    exfalso
    revert h
    simp [domain, name]
  | cons c s =>
    by_cases hc : c = 42
    · subst hc
      cases h
      rfl
    · rw [domain_other hc] at h
      rw [List.cons_append, domain_other hc, ← List.cons_append]
      exact name_ext h hr

theorem domains_ext : ∀ {f : Nat} {s : Str} {ds : List Str} {r : Str} {f' : Nat} {x : Str}, domains f s = some (ds, r) → f ≤ f' → domains f' (s ++ x) = some (ds, r ++ x) := by
  intro f
  induction f with
  | zero =>
    intro s ds r f' x h _
    cases h
  | succ f ih =>
    intro s ds r f' x h hf
    obtain ⟨f', rfl⟩ : ∃ k, f' = k + 1 := ⟨f' - 1, by omega⟩
    unfold domains at h ⊢
    obtain ⟨⟨d, q⟩, h1, h2⟩ := Option.bind_eq_some_iff.mp h
    dsimp only at h2
    have hs : skip s ≠ [] := by
      intro hc
      rw [hc] at h1
      simp [domain, name] at h1
    have hq : skip q ≠ [] := by
      intro hc
      rw [hc] at h2
      cases h2
    rw [skip_ext hs, domain_ext h1 (skip_of_skip hq)]
    simp only [Option.bind_eq_bind, Option.bind_some]
    split at h2
    · rename_i r' hr'
      rw [skip_match hr']
      obtain ⟨⟨ds', r''⟩, h3, h4⟩ := Option.bind_eq_some_iff.mp h2
      cases h4
      show (domains f' (r' ++ x)).bind _ = _
      rw [ih h3 (by omega)]
      rfl
    · rename_i r' hr'
      rw [skip_match hr']
      cases h2
      rfl
    · cases h2

theorem text_ext {s t r x : Str} (h : text s = some (t, r)) (hr : r ≠ []) : text (s ++ x) = some (t, r ++ x) := by
  unfold text at h ⊢
  cases s with
  | nil => cases h
  | cons c s =>
    simp only [List.cons_append] at h ⊢
    by_cases hc : c = 39 ∨ c = 34
    · rw [if_pos hc] at h ⊢
      exact quoted_ext h
    · rw [if_neg hc] at h ⊢
      injection h with h
      injection h with h1 h2
      have hd : (c :: s).dropWhile (fun d => !(d == 47 || d == 59)) ≠ [] := by rw [h2]; exact hr
      rw [← List.cons_append, dropWhile_ext h2 hr, takeWhile_ext hd, h1]

theorem kindWords_ext : ∀ {f : Nat} {s : Str} {ks : List Str} {r x : Str}, kindWords f s = some (ks, r) → r ≠ [] → kindWords f (s ++ x) = some (ks, r ++ x) := by
  intro f
  induction f with
  | zero =>
    intro s ks r x h _
    cases h
  | succ f ih =>
    intro s ks r x h hr
    unfold kindWords at h ⊢
    obtain ⟨⟨w, q⟩, h1, h2⟩ := Option.bind_eq_some_iff.mp h
    dsimp only at h2
    have hs : skip s ≠ [] := by
      intro hc
      rw [hc] at h1
      simp [name] at h1
    by_cases hw : w ∈ kinds
    · rw [if_pos hw] at h2
      cases h2
      rw [skip_ext hs, name_ext h1 hr]
      simp only [Option.bind_eq_bind, Option.bind_some]
      rw [if_pos hw]
    · rw [if_neg hw] at h2
      obtain ⟨⟨ws, q'⟩, h3, h4⟩ := Option.bind_eq_some_iff.mp h2
      cases h4
      have hq : q ≠ [] := by
        rintro rfl
        cases f with
        | zero => cases h3
        | succ f =>
          unfold kindWords at h3
          simp [name, skip] at h3
      rw [skip_ext hs, name_ext h1 hq]
      simp only [Option.bind_eq_bind, Option.bind_some]
      rw [if_neg hw, ih h3 hr]
      rfl

theorem optDomains_ext {s : Str} {ds : List Str} {r x : Str} (h : optDomains s = some (ds, r)) (hr : r ≠ []) : optDomains (s ++ x) = some (ds, r ++ x) := by
  cases s with
  | nil =>
    cases h
    exact absurd rfl hr
  | cons c s =>
    by_cases hc : c = 40
    · subst hc
      exact domains_ext (f := s.length + 1) (f' := (s ++ x).length + 1) h (by simp)
    · rw [optDomains_other hc] at h
      cases h
      exact optDomains_other hc

theorem optText_ext {s t r x : Str} (h : optText s = some (t, r)) (hr : r ≠ []) : optText (s ++ x) = some (t, r ++ x) := by
  cases s with
  | nil => cases h
  | cons c s =>
    by_cases hc : c = 47 ∨ c = 59
    · rcases hc with rfl | rfl
      · cases h
        rfl
      · cases h
        rfl
    · rw [optText_other hc] at h
      rw [List.cons_append, optText_other hc, ← List.cons_append]
      exact text_ext h hr

/-- what a declaration is does not depend on what follows -/
theorem decl_ext {s : Str} {D : Decl} {r x : Str} (h : decl s = some (D, r)) : decl (s ++ x) = some (D, r ++ x) := by
  unfold decl at h ⊢
  obtain ⟨⟨ks, r1⟩, h1, h⟩ := Option.bind_eq_some_iff.mp h
  obtain ⟨⟨nm, r2⟩, h2, h⟩ := Option.bind_eq_some_iff.mp h
  obtain ⟨⟨ds, r3⟩, h3, h⟩ := Option.bind_eq_some_iff.mp h
  obtain ⟨⟨tx, r4⟩, h4, h⟩ := Option.bind_eq_some_iff.mp h
  dsimp only at h2 h3 h4 h
  have n4 : skip r4 ≠ [] := by
    intro hc
    rw [hc] at h
    cases h
  have n3 : skip r3 ≠ [] := by
    intro hc
    rw [hc] at h4
    cases h4
  have n2 : skip r2 ≠ [] := by
    intro hc
    rw [hc] at h3
    cases h3
    exact n3 rfl
  have n1 : skip r1 ≠ [] := by
    intro hc
    rw [hc] at h2
    simp [name] at h2
  rw [kindWords_ext h1 (skip_of_skip n1)]
  simp only [Option.bind_eq_bind, Option.bind_some]
  rw [skip_ext n1, name_ext h2 (skip_of_skip n2)]
  simp only [Option.bind_some]
  rw [skip_ext n2, optDomains_ext h3 (skip_of_skip n3)]
  simp only [Option.bind_some]
  rw [skip_ext n3, optText_ext h4 (skip_of_skip n4)]
  simp only [Option.bind_some]
  split at h
  · rename_i r5 hr5
    rw [skip_match hr5]
    obtain ⟨⟨es, r6⟩, h6, h⟩ := Option.bind_eq_some_iff.mp h
    dsimp only at h
    show (dataList (labelCount ks ds.length) (r5 ++ x)).bind _ = _
    rw [dataList_ext h6]
    simp only [Option.bind_some]
    split at h
    · rename_i r7 hr7
      rw [skip_match hr7]
      cases h
      rfl
    · cases h
  · cases h

theorem decl_skip (s : Str) : decl (skip s) = decl s := by
  unfold decl
  congr 1
  unfold kindWords
  rw [skip_skip]

/-- a declaration starts with the first of its words -/
theorem decl_word {s : Str} {D : Decl} {r : Str} (h : decl s = some (D, r)) : ∃ w q, name (skip s) = some (w, q) ∧ D.kind.head? = some w := by
  unfold decl at h
  obtain ⟨⟨ks, r1⟩, h1, h⟩ := Option.bind_eq_some_iff.mp h
  obtain ⟨⟨nm, r2⟩, h2, h⟩ := Option.bind_eq_some_iff.mp h
  obtain ⟨⟨ds, r3⟩, h3, h⟩ := Option.bind_eq_some_iff.mp h
  obtain ⟨⟨tx, r4⟩, h4, h⟩ := Option.bind_eq_some_iff.mp h
  dsimp only at h
  have hk : D.kind = ks := by
    split at h
    · obtain ⟨⟨es, r6⟩, h6, h⟩ := Option.bind_eq_some_iff.mp h
      dsimp only at h
      split at h
      · cases h
        rfl
      · cases h
    · cases h
  unfold kindWords at h1
  obtain ⟨⟨w, q⟩, h5, h6⟩ := Option.bind_eq_some_iff.mp h1
  refine ⟨w, q, h5, ?_⟩
  dsimp only at h6
  rw [hk]
  by_cases hw : w ∈ kinds
  · rw [if_pos hw] at h6
    cases h6
    rfl
  · rw [if_neg hw] at h6
    obtain ⟨⟨ws, q'⟩, _, h4⟩ := Option.bind_eq_some_iff.mp h6
    cases h4
    rfl

/-! ### programs -/

theorem skipL_snd : ∀ (s : Str) (b : Bool), (skipL b s).2 = skip s
  | [], _ => rfl
  | c :: s, b => by
    unfold skipL skip
    by_cases hc : isBlank c = true
    · rw [if_pos hc, List.dropWhile_cons_of_pos hc]
      exact skipL_snd s _
    · rw [if_neg hc, List.dropWhile_cons_of_neg hc]

theorem name_head {c : UInt8} {s w q : Str} (h : name (c :: s) = some (w, q)) : isName c = true := by
  unfold name at h
  by_cases hc : isName c = true
  · exact hc
  · rw [List.takeWhile_cons_of_neg hc, if_pos rfl] at h
    cases h

/-- a declaration at the start -/
theorem stmts_decl {f : Nat} {b : Bool} {s x : Str} {D : Decl} {r : Str} (h : decl s = some (D, r)) (h1 : D.kind.head? ≠ some wAlias) (h2 : D.kind.head? ≠ some wAcronym) :
    stmts (f + 1) b true (s ++ x) = (stmts f false true (r ++ x)).map (Stmt.decl D :: ·) := by
  have hx := decl_ext (x := x) h
  obtain ⟨w, q, hw, hk⟩ := decl_word hx
  rw [hk] at h1 h2
  have hd := decl_skip (s ++ x)
  rw [hx] at hd
  conv => lhs; unfold stmts
  have e : skipL b (s ++ x) = ((skipL b (s ++ x)).1, skip (s ++ x)) := by rw [← skipL_snd]
  rw [e]
  generalize skip (s ++ x) = u at hw hd ⊢
  cases u with
  | nil => cases hw
  | cons c u =>
    dsimp only
    have hc : c ≠ 36 := by
      rintro rfl
      have := name_head hw
      revert this
      decide
    rw [if_neg hc, hw]
    simp only [Option.bind_eq_bind, Option.bind_some]
    rw [if_neg (fun hc => h1 (by rw [hc])), if_neg (fun hc => h2 (by rw [hc])), hd]
    simp only [Option.bind_some]
    rw [if_neg (by simp)]
    cases stmts f false true (r ++ x) <;> rfl

/-- more statements than needed may be looked for -/
theorem stmts_mono : ∀ {f f' : Nat} {b e : Bool} {s : Str} {l : List Stmt}, stmts f b e s = some l → f ≤ f' → stmts f' b e s = some l := by
  intro f
  induction f with
  | zero =>
    intro f' b e s l h _
    cases h
  | succ f ih =>
    intro f' b e s l h hf
    obtain ⟨f', rfl⟩ : ∃ k, f' = k + 1 := ⟨f' - 1, by omega⟩
    unfold stmts at h ⊢
    generalize skipL b s = u at h ⊢
    obtain ⟨st, u⟩ := u
    cases u with
    | nil => exact h
    | cons c u =>
      dsimp only at h ⊢
      by_cases hc : c = 36
      · rw [if_pos hc] at h ⊢
        split at h
        · rename_i h1
          rw [if_pos h1]
          exact ih h (by omega)
        · rename_i h1
          rw [if_neg h1]
          split at h
          · rename_i h2
            rw [if_pos h2]
            exact ih h (by omega)
          · cases h
      · rw [if_neg hc] at h ⊢
        obtain ⟨⟨w, r⟩, h1, h⟩ := Option.bind_eq_some_iff.mp h
        rw [h1]
        simp only [Option.bind_eq_bind, Option.bind_some] at h ⊢
        by_cases hw : w = wAlias
        · rw [if_pos hw] at h ⊢
          obtain ⟨⟨p, r⟩, h2, h⟩ := Option.bind_eq_some_iff.mp h
          obtain ⟨l', h3, h⟩ := Option.bind_eq_some_iff.mp h
          rw [h2]
          simp only [Option.bind_some]
          rw [ih h3 (by omega)]
          exact h
        · rw [if_neg hw] at h ⊢
          by_cases hw : w = wAcronym
          · rw [if_pos hw] at h ⊢
            obtain ⟨⟨p, r⟩, h2, h⟩ := Option.bind_eq_some_iff.mp h
            obtain ⟨l', h3, h⟩ := Option.bind_eq_some_iff.mp h
            rw [h2]
            simp only [Option.bind_some]
            rw [ih h3 (by omega)]
            exact h
          · rw [if_neg hw] at h ⊢
            obtain ⟨⟨p, r⟩, h2, h⟩ := Option.bind_eq_some_iff.mp h
            rw [h2]
            simp only [Option.bind_some] at h ⊢
            split at h
            · cases h
            · rename_i hd
              rw [if_neg hd]
              obtain ⟨l', h3, h⟩ := Option.bind_eq_some_iff.mp h
              rw [ih h3 (by omega)]
              exact h

theorem unc_cons (b i : Bool) (c : UInt8) (s : Str) :
    uncomment b i (c :: s) = if (i || (b && c == 42)) = true then uncomment (c == 10) (c != 10) s else c :: uncomment (c == 10) false s := by
  conv => lhs; unfold uncomment

/-- a text that ends with a line -/
theorem unc_append : ∀ (s r : Str) (b i : Bool), uncomment b i (s ++ 10 :: r) = uncomment b i (s ++ [10]) ++ uncomment true false r
  | [], r, b, i => by
    cases b <;> cases i <;> rfl
  | c :: s, r, b, i => by
    rw [List.cons_append, List.cons_append, unc_cons, unc_cons]
    by_cases h : (i || (b && c == 42)) = true
    · rw [if_pos h, if_pos h]
      exact unc_append s r _ _
    · rw [if_neg h, if_neg h, unc_append s r]
      rfl

end Gdx.Gams
