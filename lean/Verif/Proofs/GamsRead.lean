import Verif.Spec.Gams
import Verif.Model.DumpGams
import Mathlib.Data.List.DropRight

/-!
Lemmas on the reader of GAMS declarations (Spec/Gams.lean): what quoted labels, values and lists are read as.
-/

namespace Gdx.Gams
open Gdx Gdx.Dump

theorem takeWhile_append_stop {p : UInt8 → Bool} {s r : Str} (h : ∀ c ∈ s, p c = true) (hr : ∀ c, r.head? = some c → p c = false) :
    (s ++ r).takeWhile p = s ∧ (s ++ r).dropWhile p = r := by
  induction s with
  | nil =>
    cases r with
    | nil => exact ⟨rfl, rfl⟩
    | cons c r => simp [List.takeWhile, List.dropWhile, hr c rfl]
  | cons c s ih =>
    obtain ⟨i1, i2⟩ := ih fun d hd => h d (by simp [hd])
    have := h c (by simp)
    simp [List.takeWhile, List.dropWhile, this, i1, i2]

theorem quoted_ok {q : UInt8} {s r : Str} (h : q ∉ s) : quoted q (s ++ q :: r) = some (s, r) := by
  have := takeWhile_append_stop (p := (· != q)) (s := s) (r := q :: r) (by
    intro c hc
    simp only [bne_iff_ne, ne_eq]
    rintro rfl
    exact h hc) (by
    intro c hc
    cases hc
    simp)
  unfold quoted
  rw [this.1, this.2]

/-- not both kinds of quotes -/
def OneQuote (s : Str) : Prop := ¬ (39 ∈ s ∧ 34 ∈ s)

theorem qq_ok {s : Str} (h : OneQuote s) : qq s ∉ s ∧ (qq s = 39 ∨ qq s = 34) := by
  unfold qq
  split
  · rename_i h1
    exact ⟨fun h2 => h ⟨h1, h2⟩, Or.inr rfl⟩
  · rename_i h1
    exact ⟨h1, Or.inl rfl⟩

theorem token_uel {ends : UInt8 → Bool} {s : Str} (h : OneQuote s) (r : Str) : token ends (writeUEL s ++ r) = some (s, r) := by
  obtain ⟨h1, h2⟩ := qq_ok h
  unfold writeUEL
  rw [show [qq s] ++ s ++ [qq s] ++ r = qq s :: (s ++ qq s :: r) by simp]
  unfold token
  simp only
  rw [if_pos h2, quoted_ok h1]

/-- a word that is read as a label -/
def IsLabel (t s : Str) : Prop := (∃ c, t.head? = some c ∧ isBlank c = false ∧ c ≠ 47) ∧ ∀ r : Str, (∀ c, r.head? = some c → endsWord c = true) → label (t ++ r) = some (s, r)

theorem label_uel {s : Str} (h : OneQuote s) : IsLabel (writeUEL s) s := by
  obtain ⟨_, h2⟩ := qq_ok h
  refine ⟨⟨qq s, rfl, ?_, ?_⟩, fun r _ => ?_⟩
  · rcases h2 with h | h <;> rw [h] <;> decide
  · rcases h2 with h | h <;> rw [h] <;> decide
  · have := token_uel (ends := endsWord) h r
    unfold writeUEL at this ⊢
    unfold label
    rw [show [qq s] ++ s ++ [qq s] ++ r = qq s :: (s ++ qq s :: r) by simp] at this ⊢
    simp only
    rw [this, if_neg]
    rcases h2 with h | h <;> rw [h] <;> decide

theorem label_bare {s : Str} (h0 : s ≠ []) (h : ∀ c ∈ s, endsWord c = false ∧ c ≠ 39 ∧ c ≠ 34) : IsLabel s s := by
  cases s with
  | nil => exact absurd rfl h0
  | cons c s =>
    obtain ⟨c1, c2, c3⟩ := h c (by simp)
    have hc : isBlank c = false ∧ c ≠ 47 := by
      unfold endsWord endsVal at c1
      simp only [Bool.or_eq_false_iff, beq_eq_false_iff_ne] at c1
      exact ⟨c1.1.1.1.1, c1.1.1.2⟩
    refine ⟨⟨c, rfl, hc⟩, fun r hr => ?_⟩
    unfold label token
    simp only [List.cons_append]
    rw [if_neg (by rw [c1]; decide), if_neg (by rintro (h | h) <;> contradiction)]
    have := takeWhile_append_stop (p := fun d => !endsWord d) (s := c :: s) (r := r) (fun d hd => by simp [(h d hd).1]) (fun d hd => by simp [hr d hd])
    rw [List.cons_append] at this
    rw [this.1, this.2]

theorem skip_of {c : UInt8} {r : Str} (h : isBlank c = false) : skip (c :: r) = c :: r := by
  unfold skip
  simp [List.dropWhile, h]

theorem skip_blank (r : Str) : skip (32 :: r) = skip r := rfl

theorem skip_newline (r : Str) : skip (10 :: r) = skip r := rfl

theorem skip_head {t r : Str} (h : ∃ c, t.head? = some c ∧ isBlank c = false) : skip (t ++ r) = t ++ r := by
  obtain ⟨c, h1, h2⟩ := h
  cases t with
  | nil => cases h1
  | cons d t =>
    cases h1
    rw [List.cons_append, skip_of h2]

/-- labels joined by dots -/
theorem labels_ok : ∀ {ts ss : List Str}, List.Forall₂ IsLabel ts ss → ∀ r : Str, (∀ c, r.head? = some c → endsWord c = true) → labels ts.length (joined 46 ts ++ r) = some (ss, r)
  | _, _, .nil, r, _ => rfl
  | _, _, .cons (a := t) (b := s) h .nil, r, hr => by
    show labels 1 (t ++ r) = _
    unfold labels
    rw [h.2 r hr]
    rfl
  | _, _, .cons (a := t) (b := s) h (.cons (a := t') (l₁ := ts) (l₂ := ss) h' hs), r, hr => by
    show labels (ts.length + 2) (t ++ [46] ++ joined 46 (t' :: ts) ++ r) = _
    unfold labels
    rw [show t ++ [46] ++ joined 46 (t' :: ts) ++ r = t ++ (46 :: (joined 46 (t' :: ts) ++ r)) by simp, h.2 _ (by intro c hc; cases hc; rfl)]
    have ih := labels_ok (.cons h' hs) r hr
    have hsk : skip (joined 46 (t' :: ts) ++ r) = joined 46 (t' :: ts) ++ r := by
      refine skip_head ?_
      obtain ⟨⟨c, c1, c2, _⟩, _⟩ := h'
      refine ⟨c, ?_, c2⟩
      cases ts with
      | nil => exact c1
      | cons t2 ts =>
        show (t' ++ [46] ++ joined 46 (t2 :: ts)).head? = _
        cases t' with
        | nil => cases c1
        | cons d t' => exact c1
    simp only [Option.bind_eq_bind, Option.bind_some]
    rw [show skip (46 :: (joined 46 (t' :: ts) ++ r)) = 46 :: (joined 46 (t' :: ts) ++ r) from rfl]
    simp only
    rw [hsk]
    rw [show (t' :: ts).length = ts.length + 1 from rfl] at ih
    rw [ih]
    rfl

/-- what may follow an entry -/
def After (r : Str) : Prop := (r.head? = some 44 ∨ r.head? = some 32 ∨ r.head? = some 10) ∧ ((skip r).head? = some 44 ∨ (skip r).head? = some 47)

theorem After.ends {r : Str} (h : After r) : ∀ c, r.head? = some c → endsWord c = true ∧ endsVal c = true := by
  intro c hc
  rcases h.1 with h | h | h <;> rw [h] at hc <;> cases hc <;> exact ⟨rfl, rfl⟩

/-- a text that is read as the value or text of an entry, after a blank -/
def IsBody (t s : Str) : Prop := ∀ r : Str, After r → moreLabel (skip (t ++ r)) = false ∧ ∃ r', token endsVal (skip (t ++ r)) = some (s, r') ∧ skip r' = skip r

theorem body_none : IsBody [] [] := by
  intro r hr
  rw [List.nil_append]
  have : ∀ c q, skip r = c :: q → (c = 44 ∨ c = 47) := by
    intro c q hc
    have h2 := hr.2
    rw [hc] at h2
    simpa using h2
  cases hc : skip r with
  | nil =>
    have h2 := hr.2
    rw [hc] at h2
    rcases h2 with h | h <;> cases h
  | cons c q =>
    rcases this c q hc with rfl | rfl
    · exact ⟨rfl, _, rfl, rfl⟩
    · exact ⟨rfl, _, rfl, rfl⟩

theorem body_quoted {s : Str} (h : OneQuote s) : IsBody (32 :: writeUEL s) s := by
  intro r _
  obtain ⟨_, h2⟩ := qq_ok h
  have hsk : skip (32 :: writeUEL s ++ r) = writeUEL s ++ r := by
    rw [List.cons_append, skip_blank]
    exact skip_head ⟨qq s, rfl, by rcases h2 with h | h <;> rw [h] <;> decide⟩
  rw [hsk]
  refine ⟨?_, r, token_uel h r, rfl⟩
  unfold writeUEL
  simp only [List.singleton_append, List.cons_append, List.append_assoc]
  rcases h2 with h | h <;> rw [h] <;> rfl

theorem body_bare {s : Str} (h0 : s ≠ []) (h : ∀ c ∈ s, endsVal c = false) (hh : ∀ c, s.head? = some c → c ≠ 39 ∧ c ≠ 34 ∧ c ≠ 46) : IsBody (32 :: s) s := by
  intro r hr
  cases s with
  | nil => exact absurd rfl h0
  | cons c s =>
    have c1 := h c (by simp)
    obtain ⟨c2, c3, c4⟩ := hh c rfl
    have hb : isBlank c = false := by
      unfold endsVal at c1
      simp only [Bool.or_eq_false_iff] at c1
      exact c1.1.1.1
    rw [List.cons_append, skip_blank, List.cons_append, skip_of hb]
    refine ⟨?_, r, ?_, rfl⟩
    · unfold moreLabel
      split
      · rename_i h1
        injection h1 with h1 _
        exact absurd h1 c4
      · rename_i h1
        injection h1 with h1 _
        exact absurd h1 c4
      · rfl
    · unfold token
      simp only
      rw [if_neg (by rintro (h | h) <;> contradiction)]
      have := takeWhile_append_stop (p := fun d => !endsVal d) (s := c :: s) (r := r) (fun d hd => by simp [h d hd]) (fun d hd => by simp [(hr.ends d hd).2])
      rw [List.cons_append] at this
      rw [this.1, this.2]

/-- a text that is read as an entry with `n` labels -/
def IsEntry (n : Nat) (t : Str) (e : List Str × Str) : Prop :=
  (∃ c, (skip t).head? = some c ∧ c ≠ 47 ∧ c ≠ 44) ∧ ∀ r : Str, After r → entry n (skip (t ++ r)) = some (e, skip r)

/-- labels and body -/
theorem entry_ok {ts ss : List Str} (h : List.Forall₂ IsLabel ts ss) (h0 : ts ≠ []) {t s : Str} (hb : IsBody t s) (ht : ∀ c, t.head? = some c → c = 32) :
    IsEntry ts.length (joined 46 ts ++ t) (ss, s) := by
  have hhead : ∃ c, (joined 46 ts).head? = some c ∧ isBlank c = false ∧ c ≠ 47 ∧ c ≠ 44 := by
    cases h with
    | nil => exact absurd rfl h0
    | cons h1 hs =>
      rename_i t' s' ts' ss'
      obtain ⟨⟨c, c1, c2, c3⟩, hl⟩ := h1
      refine ⟨c, ?_, c2, c3, ?_⟩
      · cases ts' with
        | nil => exact c1
        | cons t2 ts =>
          show (t' ++ [46] ++ joined 46 (t2 :: ts)).head? = _
          cases t' with
          | nil => cases c1
          | cons d t' => exact c1
      · rintro rfl
        have := hl [] (by intro c hc; cases hc)
        cases t' with
        | nil => cases c1
        | cons d t' =>
          cases c1
          rw [List.append_nil] at this
          unfold label at this
          simp only at this
          rw [if_pos (by decide)] at this
          cases this
  obtain ⟨c, c1, c2, c3, c4⟩ := hhead
  refine ⟨⟨c, ?_, c3, c4⟩, fun r hr => ?_⟩
  · rw [skip_head ⟨c, c1, c2⟩]
    cases hj : joined 46 ts with
    | nil => rw [hj] at c1; cases c1
    | cons d q => rw [hj] at c1; exact c1
  · rw [List.append_assoc, skip_head ⟨c, c1, c2⟩]
    have hl := labels_ok h (t ++ r) (by
      intro d hd
      cases t with
      | nil => exact (hr.ends d hd).1
      | cons q t =>
        cases hd
        rw [ht d rfl]
        rfl)
    obtain ⟨b1, r', b2, b3⟩ := hb r hr
    unfold entry
    rw [hl]
    simp only [Option.bind_eq_bind, Option.bind_some, b1, Bool.false_eq_true, and_false, if_false, b2, b3]

/-- a value without labels -/
theorem entry_zero {t : Str} (h0 : t ≠ []) (h : ∀ c ∈ t, endsVal c = false) (hh : ∀ c, t.head? = some c → c ≠ 39 ∧ c ≠ 34 ∧ c ≠ 46) : IsEntry 0 (32 :: t) ([], t) := by
  have hb := body_bare h0 h hh
  refine ⟨?_, fun r hr => ?_⟩
  · cases t with
    | nil => exact absurd rfl h0
    | cons c t =>
      have c1 := h c (by simp)
      unfold endsVal at c1
      simp only [Bool.or_eq_false_iff, beq_eq_false_iff_ne] at c1
      exact ⟨c, by rw [skip_blank, skip_of c1.1.1.1]; rfl, c1.1.2, c1.1.1.2⟩
  · obtain ⟨b1, r', b2, b3⟩ := hb r hr
    unfold entry labels
    have hsk : skip (skip (32 :: t ++ r)) = skip (32 :: t ++ r) := by
      unfold skip
      exact List.dropWhile_idempotent _ _
    simp only [Option.bind_eq_bind, Option.bind_some, ne_eq, not_true_eq_false, false_and, if_false, hsk, b2, b3]

/-- entries with the separator in between -/
def sepText (sep : Str) : List Str → Str
  | [] => []
  | t :: ts => t ++ (ts.map (sep ++ ·)).flatten

theorem entries_ok {b : UInt8} (hb : b = 32 ∨ b = 10) {n : Nat} {sep : Str} (hs : ∃ q, sep = 44 :: q ∧ ∀ c ∈ q, isBlank c = true) {ts : List Str} {es : List (List Str × Str)} (h : List.Forall₂ (IsEntry n) ts es) :
    ∀ (r : Str) (f : Nat), ts ≠ [] → ts.length < f → entries n f (skip (sepText sep ts ++ b :: 47 :: r)) = some (es, r) := by
  obtain ⟨q, rfl, hq⟩ := hs
  induction h with
  | nil => intro r f h0; exact absurd rfl h0
  | cons h1 hs ih =>
    rename_i t e ts es
    intro r f _ hf
    cases f with
    | zero => simp at hf
    | succ f =>
      cases ts with
      | nil =>
        cases hs
        have := h1.2 (b :: 47 :: r) (by rcases hb with rfl | rfl <;> exact ⟨by simp, Or.inr rfl⟩)
        have he : sepText (44 :: q) [t] ++ b :: 47 :: r = t ++ b :: 47 :: r := by simp [sepText]
        rw [he]
        unfold entries
        rw [this]
        rcases hb with rfl | rfl <;> rfl
      | cons t' ts =>
        have he : sepText (44 :: q) (t :: t' :: ts) ++ b :: 47 :: r = t ++ (44 :: (q ++ (sepText (44 :: q) (t' :: ts) ++ b :: 47 :: r))) := by simp [sepText]
        rw [he]
        have := h1.2 (44 :: (q ++ (sepText (44 :: q) (t' :: ts) ++ b :: 47 :: r))) ⟨Or.inl rfl, Or.inl rfl⟩
        unfold entries
        rw [this]
        have hsk : ∀ x : Str, skip (q ++ x) = skip x := by
          intro x
          clear this he ih
          induction q with
          | nil => rfl
          | cons c q iq =>
            have := hq c (by simp)
            unfold skip at iq ⊢
            rw [List.cons_append, List.dropWhile_cons_of_pos this, iq fun d hd => hq d (by simp [hd])]
        rw [show skip (44 :: (q ++ (sepText (44 :: q) (t' :: ts) ++ b :: 47 :: r))) = 44 :: (q ++ (sepText (44 :: q) (t' :: ts) ++ b :: 47 :: r)) from rfl]
        simp only [Option.bind_eq_bind]
        rw [hsk, ih r f (by simp) (by simp at hf ⊢; omega)]
        rfl

/-- a list of data up to the slash -/
theorem dataList_ok' {b : UInt8} (hb : b = 32 ∨ b = 10) {n : Nat} {sep : Str} (hs : ∃ q, sep = 44 :: q ∧ ∀ c ∈ q, isBlank c = true) {ts : List Str} {es : List (List Str × Str)} (h : List.Forall₂ (IsEntry n) ts es)
    (r : Str) : dataList n (sepText sep ts ++ b :: 47 :: r) = some (es, r) := by
  cases hts : ts with
  | nil =>
    subst hts
    cases h
    rcases hb with rfl | rfl <;> rfl
  | cons t ts' =>
    have hne : ts ≠ [] := by rw [hts]; simp
    have hlen : ts.length < (skip (sepText sep ts ++ b :: 47 :: r)).length + 1 := by
      -- every entry has a character that is not a blank
      have key : ∀ {us : List Str} {fs : List (List Str × Str)}, List.Forall₂ (IsEntry n) us fs → us.length ≤ ((us.map (sep ++ ·)).flatten).length := by
        intro us fs hu
        obtain ⟨q, rfl, _⟩ := hs
        induction hu with
        | nil => simp
        | cons _ _ ih => simp at ih ⊢; omega
      rw [hts] at h ⊢
      cases h with
      | cons h1 h2 =>
        have k := key h2
        obtain ⟨⟨c, c1, _⟩, _⟩ := h1
        have : (skip (t ++ ((ts'.map (sep ++ ·)).flatten ++ b :: 47 :: r))).length ≥ 1 + ((ts'.map (sep ++ ·)).flatten ++ b :: 47 :: r).length := by
          have hd : ∀ x y : Str, (skip x).head? = some c → skip (x ++ y) = skip x ++ y := by
            intro x y hx
            induction x with
            | nil => cases hx
            | cons d x ix =>
              unfold skip at hx ix ⊢
              rw [List.cons_append]
              by_cases hb : isBlank d = true
              · rw [List.dropWhile_cons_of_pos hb] at hx ⊢
                rw [List.dropWhile_cons_of_pos hb]
                exact ix hx
              · rw [List.dropWhile_cons_of_neg hb, List.dropWhile_cons_of_neg hb]
                rfl
          rw [hd t _ c1]
          cases hsk : skip t with
          | nil => rw [hsk] at c1; cases c1
          | cons d q => simp; omega
        simp only [sepText, List.append_assoc, List.length_cons] at this ⊢
        simp only [List.length_append, List.length_cons] at this ⊢
        omega
    have he := entries_ok hb hs h r _ hne hlen
    rw [← hts]
    unfold dataList
    split
    · rename_i hsk
      exfalso
      rw [hts] at h hsk
      cases h with
      | cons h1 h2 =>
        obtain ⟨⟨c, c1, c2, _⟩, _⟩ := h1
        have hd : ∀ x y : Str, (skip x).head? = some c → (skip (x ++ y)).head? = some c := by
          intro x y hx
          induction x with
          | nil => cases hx
          | cons d x ix =>
            unfold skip at hx ix ⊢
            rw [List.cons_append]
            by_cases hb : isBlank d = true
            · rw [List.dropWhile_cons_of_pos hb] at hx ⊢
              exact ix hx
            · rw [List.dropWhile_cons_of_neg hb] at hx ⊢
              exact hx
        have := hd t ((ts'.map (sep ++ ·)).flatten ++ b :: 47 :: r) c1
        simp only [sepText, List.append_assoc] at hsk
        rw [hsk] at this
        cases this
        exact c2 rfl
    · exact he

theorem dataList_ok {n : Nat} {sep : Str} (hs : ∃ q, sep = 44 :: q ∧ ∀ c ∈ q, isBlank c = true) {ts : List Str} {es : List (List Str × Str)} (h : List.Forall₂ (IsEntry n) ts es)
    (r : Str) : dataList n (sepText sep ts ++ 32 :: 47 :: r) = some (es, r) := dataList_ok' (Or.inl rfl) hs h r

end Gdx.Gams
