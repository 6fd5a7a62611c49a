import Verif.Proofs.GamsRead
import Verif.Model.StrUtil

/-!
Lemmas on the reader of GAMS declarations: comments and the words before the data.
-/

namespace Gdx.Gams
open Gdx Gdx.Dump

/-! ### comments -/

theorem unc_line {s : Str} (h : (10 : UInt8) ∉ s) (st : Bool) (hs : st = true → s.head? ≠ some 42) (r : Str) :
    uncomment st false (s ++ 10 :: r) = s ++ 10 :: uncomment true false r := by
  induction s generalizing st with
  | nil =>
    rw [List.nil_append, uncomment, if_neg (by cases st <;> decide)]
    rfl
  | cons c s ih =>
    have hc : c ≠ 10 := fun hh => h (by simp [hh])
    rw [List.cons_append, uncomment, if_neg, ih (fun hh => h (by simp [hh])) (c == 10) (by intro hh; exact absurd (beq_iff_eq.mp hh) hc)]
    · rfl
    · rw [Bool.false_or, Bool.and_eq_true, beq_iff_eq]
      rintro ⟨h1, rfl⟩
      exact hs h1 rfl

theorem unc_inside {s : Str} (h : (10 : UInt8) ∉ s) (st : Bool) (r : Str) : uncomment st true (s ++ 10 :: r) = uncomment true false r := by
  induction s generalizing st with
  | nil => rw [List.nil_append, uncomment, if_pos (by rfl)]; rfl
  | cons c s ih =>
    have hc : c ≠ 10 := fun hh => h (by simp [hh])
    rw [List.cons_append, uncomment, if_pos (by rfl), show (c != 10) = true by simpa using hc]
    exact ih (fun hh => h (by simp [hh])) _

theorem unc_comment {s : Str} (h : (10 : UInt8) ∉ s) (r : Str) : uncomment true false (42 :: (s ++ 10 :: r)) = uncomment true false r := by
  rw [uncomment, if_pos (by rfl)]
  exact unc_inside h _ r

theorem unc_comments {cs : List Str} (h : ∀ s ∈ cs, (10 : UInt8) ∉ s) (r : Str) :
    uncomment true false ((cs.map fun s => [42, 32] ++ s ++ [10]).flatten ++ r) = uncomment true false r := by
  induction cs with
  | nil => rfl
  | cons s cs ih =>
    have := unc_comment (s := 32 :: s) (by
      intro hh
      rcases List.mem_cons.mp hh with hh | hh
      · exact absurd hh (by decide)
      · exact h s (by simp) hh) ((cs.map fun s => [42, 32] ++ s ++ [10]).flatten ++ r)
    simp only [List.map_cons, List.flatten_cons, List.append_assoc, List.cons_append, List.nil_append, List.singleton_append] at this ⊢
    rw [this]
    have := ih fun s hs => h s (by simp [hs])
    simpa using this

/-- entries on lines of their own -/
theorem unc_data {ts : List Str} (h : ∀ t ∈ ts, (10 : UInt8) ∉ t ∧ t.head? ≠ some 42 ∧ t ≠ []) :
    uncomment true false (sepText [44, 32, 10] ts ++ [32, 47, 59, 10]) = sepText [44, 32, 10] ts ++ [32, 47, 59, 10] := by
  cases ts with
  | nil => decide
  | cons t ts =>
    simp only [sepText]
    induction ts generalizing t with
    | nil =>
      obtain ⟨h1, h2, h3⟩ := h t (by simp)
      have := unc_line (s := t ++ [32, 47, 59]) (by simpa using h1) true (by
        intro _
        cases t with
        | nil => exact absurd rfl h3
        | cons c t => exact h2) []
      simpa [uncomment] using this
    | cons t' ts ih =>
      obtain ⟨h1, h2, h3⟩ := h t (by simp)
      have := unc_line (s := t ++ [44, 32]) (by simpa using h1) true (by
        intro _
        cases t with
        | nil => exact absurd rfl h3
        | cons c t => exact h2) (t' ++ (ts.map ([44, 32, 10] ++ ·)).flatten ++ [32, 47, 59, 10])
      rw [ih t' fun x hx => h x (by
        rcases List.mem_cons.mp hx with hx | hx
        · simp [hx]
        · simp [hx])] at this
      simpa using this

/-! ### the words before the data -/

theorem isName_of {c : UInt8} (h : isIdentChar c = true) : isName c = true := by
  unfold isIdentChar isLetter at h
  unfold isName
  simp only [Bool.or_eq_true] at h ⊢
  tauto

theorem isName_letter {c : UInt8} (h : isLetter c = true) : isName c = true := by
  refine isName_of ?_
  unfold isIdentChar
  rw [h]
  rfl

theorem name_blank {c : UInt8} (h : isName c = true) : isBlank c = false ∧ c ≠ 42 ∧ c ≠ 40 ∧ c ≠ 10 := by
  refine ⟨?_, ?_, ?_, ?_⟩
  · by_contra hh
    rw [Bool.not_eq_false] at hh
    unfold isBlank at hh
    rw [Bool.or_eq_true, beq_iff_eq, beq_iff_eq] at hh
    rcases hh with rfl | rfl <;> revert h <;> decide
  all_goals rintro rfl; revert h; decide

theorem ident_chars {s : Str} (h : isGoodIdent s = true) : s ≠ [] ∧ ∀ c ∈ s, isName c = true := by
  cases s with
  | nil => cases h
  | cons c s =>
    unfold isGoodIdent at h
    simp only [Bool.and_eq_true, List.all_eq_true] at h
    refine ⟨by simp, fun d hd => ?_⟩
    rcases List.mem_cons.mp hd with rfl | hd
    · exact isName_letter h.1.1
    · exact isName_of (h.1.2 d hd)

theorem name_ok {s r : Str} (h : isGoodIdent s = true) (hr : ∀ c, r.head? = some c → isName c = false) : name (s ++ r) = some (s, r) := by
  obtain ⟨h1, h2⟩ := ident_chars h
  obtain ⟨e1, e2⟩ := takeWhile_append_stop (p := isName) h2 hr
  unfold name
  rw [e1, e2, if_neg h1]

/-- a name or a star -/
def IsDom (s : Str) : Prop := s = [42] ∨ isGoodIdent s = true

theorem IsDom.head {s : Str} (h : IsDom s) : ∃ c, s.head? = some c ∧ isBlank c = false := by
  rcases h with rfl | h
  · exact ⟨42, rfl, rfl⟩
  · obtain ⟨h1, h2⟩ := ident_chars h
    cases s with
    | nil => exact absurd rfl h1
    | cons c s => exact ⟨c, rfl, (name_blank (h2 c (by simp))).1⟩

theorem IsDom.read {s r : Str} (h : IsDom s) (hr : ∀ c, r.head? = some c → isName c = false) : domain (skip (s ++ r)) = some (s, r) := by
  rw [skip_head h.head]
  rcases h with rfl | h
  · rfl
  · obtain ⟨h1, h2⟩ := ident_chars h
    have hn := name_ok h hr
    cases s with
    | nil => exact absurd rfl h1
    | cons c s =>
      unfold domain
      split
      · rename_i heq
        injection heq with heq _
        exact absurd heq (name_blank (h2 c (by simp))).2.1
      · exact hn

theorem domains_ok : ∀ {ds : List Str} {f : Nat} (r : Str), ds ≠ [] → (∀ d ∈ ds, IsDom d) → ds.length ≤ f → domains f (joined 44 ds ++ 41 :: r) = some (ds, r)
  | [], _, _, h, _, _ => absurd rfl h
  | _ :: _, 0, _, _, _, h => by simp at h
  | [d], f + 1, r, _, hd, _ => by
    unfold domains
    rw [show joined 44 [d] ++ 41 :: r = d ++ 41 :: r from rfl, (hd d (by simp)).read (by intro c hc; cases hc; rfl)]
    rfl
  | d :: d' :: ds, f + 1, r, _, hd, hf => by
    have ih := domains_ok (ds := d' :: ds) (f := f) r (by simp) (fun x hx => hd x (by simp [hx])) (by simp at hf ⊢; omega)
    unfold domains
    rw [show joined 44 (d :: d' :: ds) ++ 41 :: r = d ++ 44 :: (joined 44 (d' :: ds) ++ 41 :: r) by simp [joined], (hd d (by simp)).read (by intro c hc; cases hc; rfl)]
    simp only [Option.bind_eq_bind, Option.bind_some]
    rw [show skip (44 :: (joined 44 (d' :: ds) ++ 41 :: r)) = 44 :: (joined 44 (d' :: ds) ++ 41 :: r) from rfl]
    simp only [ih, Option.bind_some]

theorem joined_length (d : UInt8) (ss : List Str) : ss.length ≤ (joined d ss).length + 1 := by
  induction ss with
  | nil => simp
  | cons s ss ih =>
    cases ss with
    | nil => simp
    | cons t ss =>
      simp only [joined, List.length_append, List.length_cons, List.length_nil] at ih ⊢
      omega

/-- the domains in parentheses -/
def domText (ds : List Str) : Str := if ds = [] then [] else [40] ++ joined 44 ds ++ [41]

theorem optDomains_ok {ds : List Str} (h0 : ds ≠ []) (hd : ∀ d ∈ ds, IsDom d) (r : Str) : optDomains (skip (domText ds ++ r)) = some (ds, r) := by
  unfold domText
  rw [if_neg h0]
  rw [show [40] ++ joined 44 ds ++ [41] ++ r = 40 :: (joined 44 ds ++ 41 :: r) by simp, skip_of (by decide)]
  unfold optDomains
  simp only
  refine domains_ok r h0 hd ?_
  have := joined_length 44 ds
  simp only [List.length_append, List.length_cons]
  omega

/-- blanks at the ends are cut off -/
def trim (s : Str) : Str := ((skip s).reverse.dropWhile isBlank).reverse

theorem trim_spec {s : Str} (h : ∀ c ∈ s, 32 ≤ c) : ∃ i j, s = List.replicate i 32 ++ trim s ++ List.replicate j 32 := by
  have hb : ∀ l : Str, (∀ c ∈ l, 32 ≤ c) → (∀ c ∈ l, isBlank c = true) → l = List.replicate l.length 32 := by
    intro l h1 h2
    refine List.eq_replicate_iff.mpr ⟨rfl, fun c hc => ?_⟩
    have := h2 c hc
    unfold isBlank at this
    rw [Bool.or_eq_true, beq_iff_eq, beq_iff_eq] at this
    rcases this with rfl | rfl
    · rfl
    · exact absurd (h1 10 hc) (by decide)
  have h1 := List.takeWhile_append_dropWhile (p := isBlank) (l := s)
  have hmem : ∀ c ∈ s.dropWhile isBlank, c ∈ s := fun c hc => (List.dropWhile_sublist _).subset hc
  have htk : ∀ l : Str, ∀ c ∈ l.takeWhile isBlank, isBlank c = true := by
    intro l
    induction l with
    | nil => intro c hc; cases hc
    | cons d l ih =>
      intro c hc
      by_cases hd : isBlank d = true
      · rw [List.takeWhile_cons_of_pos hd] at hc
        rcases List.mem_cons.mp hc with rfl | hc
        · exact hd
        · exact ih c hc
      · rw [List.takeWhile_cons_of_neg hd] at hc
        cases hc
  have h2 := List.takeWhile_append_dropWhile (p := isBlank) (l := (skip s).reverse)
  have e1 := hb (s.takeWhile isBlank) (fun c hc => h c ((List.takeWhile_sublist _).subset hc)) (htk s)
  have e2 := hb ((skip s).reverse.takeWhile isBlank) (fun c hc => h c (hmem c (List.mem_reverse.mp ((List.takeWhile_sublist _).subset hc)))) (htk _)
  refine ⟨(s.takeWhile isBlank).length, ((skip s).reverse.takeWhile isBlank).length, ?_⟩
  have h3 : skip s = trim s ++ ((skip s).reverse.takeWhile isBlank).reverse := by
    have := congrArg List.reverse h2
    rw [List.reverse_append, List.reverse_reverse] at this
    exact this.symm
  rw [e2, List.reverse_replicate] at h3
  rw [← e1]
  rw [List.append_assoc, ← h3]
  exact h1.symm

/-- the text after the name and the domains: it is read as `tx`; `p`: there are no domains, and it must not look like them. A slash or a semicolon follows. -/
def IsText (p : Prop) (t tx : Str) : Prop := ∀ d : UInt8, d = 47 ∨ d = 59 → ∀ x : Str, (p → (skip (t ++ 32 :: d :: x)).head? ≠ some 40) ∧ ∃ r, optText (skip (t ++ 32 :: d :: x)) = some (tx, r) ∧ skip r = d :: x

theorem text_none {p : Prop} : IsText p [] [] := by
  rintro d (rfl | rfl) x
  · exact ⟨fun _ => (by show (some 47 : Option UInt8) ≠ some 40; decide), 47 :: x, rfl, rfl⟩
  · exact ⟨fun _ => (by show (some 59 : Option UInt8) ≠ some 40; decide), 59 :: x, rfl, rfl⟩

theorem text_quoted {p : Prop} {s : Str} (h : OneQuote s) : IsText p (32 :: writeUEL s) s := by
  intro d hd x
  obtain ⟨h1, h2⟩ := qq_ok h
  have hsk : skip (32 :: writeUEL s ++ 32 :: d :: x) = qq s :: (s ++ qq s :: 32 :: d :: x) := by
    rw [List.cons_append, skip_blank, skip_head ⟨qq s, rfl, by rcases h2 with h | h <;> rw [h] <;> decide⟩]
    simp [writeUEL]
  rw [hsk]
  refine ⟨?_, 32 :: d :: x, ?_, by rcases hd with rfl | rfl <;> rfl⟩
  · intro _
    show some (qq s) ≠ some 40
    rcases h2 with h | h <;> rw [h] <;> decide
  · have hq := quoted_ok (r := 32 :: d :: x) h1
    unfold optText
    split
    · rename_i heq
      injection heq with heq _
      rcases h2 with h | h <;> rw [h] at heq <;> exact absurd heq (by decide)
    · rename_i heq
      injection heq with heq _
      rcases h2 with h | h <;> rw [h] at heq <;> exact absurd heq (by decide)
    · unfold text
      simp only
      rw [if_pos h2, hq]

theorem special_false {p : UInt8 → Bool} {s : Str} (h : special p s = false) : ∀ c ∈ s, p c = false := by
  induction s with
  | nil => intro c hc; cases hc
  | cons d s ih =>
    unfold special at h
    simp only [Bool.or_eq_false_iff] at h
    intro c hc
    rcases List.mem_cons.mp hc with rfl | hc
    · exact h.1.1
    · exact ih h.2 c hc

theorem text_bare {p : Prop} {s : Str} (hs : ∀ c ∈ s, c ≠ 47 ∧ c ≠ 59 ∧ c ≠ 39 ∧ c ≠ 34) (hp : p → (skip s).head? ≠ some 40) : IsText p (32 :: s) (trim s) := by
  intro e he' x
  have hmem : ∀ c ∈ skip s, c ∈ s := fun c hc => (List.dropWhile_sublist _).subset hc
  have hsk : ∀ y : Str, skip (s ++ y) = if skip s = [] then skip y else skip s ++ y := by
    intro y
    clear hs hp hmem
    induction s with
    | nil => rfl
    | cons c s ih =>
      unfold skip at ih ⊢
      rw [List.cons_append]
      by_cases hb : isBlank c = true
      · rw [List.dropWhile_cons_of_pos hb, List.dropWhile_cons_of_pos hb, ih]
      · rw [List.dropWhile_cons_of_neg hb, List.dropWhile_cons_of_neg hb, if_neg (by simp)]
        rfl
  rw [List.cons_append, skip_blank, hsk]
  unfold trim
  cases he : skip s with
  | nil =>
    rcases he' with rfl | rfl
    · exact ⟨fun _ => (by show (some 47 : Option UInt8) ≠ some 40; decide), 47 :: x, rfl, rfl⟩
    · exact ⟨fun _ => (by show (some 59 : Option UInt8) ≠ some 40; decide), 59 :: x, rfl, rfl⟩
  | cons c q =>
    rw [he] at hmem hp
    rw [if_neg (by simp)]
    obtain ⟨c1, c2, c3, c4⟩ := hs c (hmem c (by simp))
    refine ⟨hp, e :: x, ?_, by rcases he' with rfl | rfl <;> rfl⟩
    have htw := takeWhile_append_stop (p := fun d => !(d == 47 || d == 59)) (s := c :: q ++ [32]) (r := e :: x) (by
      intro d hd
      rcases List.mem_append.mp hd with hd | hd
      · obtain ⟨d1, d2, _⟩ := hs d (hmem d hd)
        simp [d1, d2]
      · rw [List.mem_singleton.mp hd]
        decide) (by
      intro d hd
      cases hd
      rcases he' with rfl | rfl <;> decide)
    unfold optText
    split
    · rename_i heq
      injection heq with heq _
      exact absurd heq c1
    · rename_i heq
      injection heq with heq _
      exact absurd heq c2
    · unfold text
      simp only [List.cons_append]
      rw [if_neg (by rintro (h | h) <;> contradiction)]
      rw [show c :: q ++ [32] ++ e :: x = c :: (q ++ 32 :: e :: x) by simp] at htw
      rw [htw.1, htw.2]
      simp only [List.reverse_append, List.reverse_singleton, List.singleton_append]
      rw [List.dropWhile_cons_of_pos (by decide)]

/-- the words before the name -/
def IsKind (t : Str) (ks : List Str) : Prop := ∀ r : Str, kindWords 2 (10 :: (t ++ 32 :: r)) = some (ks, 32 :: r)

/-- a declaration with data -/
theorem decl_ok {kt nm tt tx x r' : Str} {ks ds : List Str} {es : List (List Str × Str)} (hk : IsKind kt ks) (hn : isGoodIdent nm = true) (hd : ∀ d ∈ ds, IsDom d) (ht : IsText (ds = []) tt tx)
    (hh : ∀ c, tt.head? = some c → c = 32) (hx : dataList (labelCount ks ds.length) x = some (es, 59 :: r')) :
    decl (10 :: (kt ++ 32 :: (nm ++ (domText ds ++ (tt ++ 32 :: 47 :: x))))) = some (⟨ks, nm, ds, tx, es⟩, r') := by
  obtain ⟨t1, r, t2, t3⟩ := ht 47 (Or.inl rfl) x
  have hhead : ∀ c, (tt ++ 32 :: 47 :: x).head? = some c → c = 32 := by
    intro c hc
    cases tt with
    | nil => cases hc; rfl
    | cons d tt => exact hh c hc
  have hnm : name (skip (32 :: (nm ++ (domText ds ++ (tt ++ 32 :: 47 :: x))))) = some (nm, domText ds ++ (tt ++ 32 :: 47 :: x)) := by
    obtain ⟨n1, n2⟩ := ident_chars hn
    rw [skip_blank, skip_head]
    · refine name_ok hn ?_
      intro c hc
      unfold domText at hc
      split at hc
      · rw [hhead c hc]
        rfl
      · cases hc
        rfl
    · cases nm with
      | nil => exact absurd rfl n1
      | cons c nm => exact ⟨c, rfl, (name_blank (n2 c (by simp))).1⟩
  have hdm : ∃ q, optDomains (skip (domText ds ++ (tt ++ 32 :: 47 :: x))) = some (ds, q) ∧ skip q = skip (tt ++ 32 :: 47 :: x) := by
    by_cases h0 : ds = []
    · subst h0
      refine ⟨skip (tt ++ 32 :: 47 :: x), ?_, ?_⟩
      · show optDomains (skip (tt ++ 32 :: 47 :: x)) = _
        unfold optDomains
        split
        · rename_i heq
          rw [heq] at t1
          exact absurd rfl (t1 rfl)
        · rfl
      · unfold skip
        exact List.dropWhile_idempotent _ _
    · exact ⟨_, optDomains_ok h0 hd _, rfl⟩
  obtain ⟨q, q1, q2⟩ := hdm
  unfold decl
  rw [hk]
  simp only [Option.bind_eq_bind, Option.bind_some, hnm, q1, q2, t2, t3, hx]
  rw [skip_of (by decide)]
  rfl

end Gdx.Gams
