import Verif.Model.StrUtil
import Verif.Spec.Names
import Mathlib.Data.List.Forall2

/-! C34 explanatory texts, C46 element strings. -/

namespace Gdx.Props
open Gdx Gdx.Spec

/-- no control characters and not both kinds of quotes -/
def Quotable (s : Str) : Prop := (∀ c ∈ s, 32 ≤ c) ∧ ¬ (39 ∈ s ∧ 34 ∈ s)

theorem u8_not_lt {c d : UInt8} : ¬ c < d ↔ d ≤ c := by
  rw [UInt8.not_lt]

/-! ### MakeGoodExplText -/

theorem makeGoodLoop_length (q : Option UInt8) (s : Str) : (makeGoodLoop q s).length = s.length := by
  induction s generalizing q with
  | nil => rfl
  | cons c cs ih =>
    rw [makeGoodLoop]
    split
    · simp [ih]
    · simp [ih]

theorem makeGoodLoop_pointwise (q : Option UInt8) (s : Str) :
    List.Forall₂ (fun c d => c ≠ 34 ∧ c ≠ 39 ∧ 32 ≤ c → d = c) s (makeGoodLoop q s) := by
  induction s generalizing q with
  | nil => exact .nil
  | cons c cs ih =>
    rw [makeGoodLoop]
    split
    · rename_i h
      exact .cons (fun ⟨h1, h2, _⟩ => absurd h (by simp [h1, h2])) (ih _)
    · refine .cons (fun ⟨_, _, h3⟩ => ?_) (ih _)
      rw [if_neg (u8_not_lt.mpr h3)]

theorem makeGoodLoop_quote (q : UInt8) (hq : q = 34 ∨ q = 39) (s : Str) :
    ∀ c ∈ makeGoodLoop (some q) s, 32 ≤ c ∧ ((c = 34 ∨ c = 39) → c = q) := by
  induction s with
  | nil => simp [makeGoodLoop]
  | cons c cs ih =>
    rw [makeGoodLoop]
    intro d hd
    split at hd
    · simp only [Option.getD_some] at hd
      rcases List.mem_cons.mp hd with rfl | hd
      · refine ⟨?_, fun _ => rfl⟩
        rcases hq with rfl | rfl <;> decide
      · exact ih d hd
    · rename_i hc
      rcases List.mem_cons.mp hd with hd | hd
      · split at hd
        · subst hd
          exact ⟨by decide, fun h => absurd h (by decide)⟩
        · rename_i h32
          subst hd
          exact ⟨u8_not_lt.mp h32, fun h => absurd h hc⟩
      · exact ih d hd

theorem makeGoodLoop_quotable (s : Str) : Quotable (makeGoodLoop none s) := by
  induction s with
  | nil => exact ⟨by simp [makeGoodLoop], by simp [makeGoodLoop]⟩
  | cons c cs ih =>
    rw [makeGoodLoop]
    split
    · rename_i hc
      have h := makeGoodLoop_quote c hc cs
      simp only [Option.getD_none]
      refine ⟨?_, ?_⟩
      · intro d hd
        rcases List.mem_cons.mp hd with rfl | hd
        · rcases hc with rfl | rfl <;> decide
        · exact (h d hd).1
      · rintro ⟨h1, h2⟩
        have e1 : (39 : UInt8) = c := by
          rcases List.mem_cons.mp h1 with e | e
          · exact e
          · exact (h _ e).2 (Or.inr rfl)
        have e2 : (34 : UInt8) = c := by
          rcases List.mem_cons.mp h2 with e | e
          · exact e
          · exact (h _ e).2 (Or.inl rfl)
        rw [← e1] at e2
        exact absurd e2 (by decide)
    · rename_i hc
      have hx : 32 ≤ (if c < 32 then (63 : UInt8) else c) ∧ (if c < 32 then (63 : UInt8) else c) ≠ 39 ∧
          (if c < 32 then (63 : UInt8) else c) ≠ 34 := by
        split
        · decide
        · rename_i h32
          exact ⟨u8_not_lt.mp h32, fun e => hc (Or.inr e), fun e => hc (Or.inl e)⟩
      refine ⟨?_, ?_⟩
      · intro d hd
        rcases List.mem_cons.mp hd with rfl | hd
        · exact hx.1
        · exact ih.1 d hd
      · rintro ⟨h1, h2⟩
        refine ih.2 ⟨?_, ?_⟩
        · rcases List.mem_cons.mp h1 with e | e
          · exact absurd e.symm hx.2.1
          · exact e
        · rcases List.mem_cons.mp h2 with e | e
          · exact absurd e.symm hx.2.2
          · exact e

theorem makeGoodLoop_id (q : Option UInt8) (s : Str) (h : ∀ c ∈ s, 32 ≤ c)
    (hq : ∀ c ∈ s, (c = 34 ∨ c = 39) → ∀ d, (q = some d ∨ (q = none ∧ d ∈ s ∧ (d = 34 ∨ d = 39))) → c = d) :
    makeGoodLoop q s = s := by
  induction s generalizing q with
  | nil => rfl
  | cons c cs ih =>
    rw [makeGoodLoop]
    split
    · rename_i hc
      cases q with
      | none =>
        simp only [Option.getD_none]
        congr 1
        apply ih _ (fun d hd => h d (by simp [hd]))
        intro d hd hd2 e he
        simp only [Option.some.injEq, reduceCtorEq, false_and, or_false] at he
        exact (hq d (by simp [hd]) hd2 c (Or.inr ⟨rfl, by simp, hc⟩)).trans he
      | some x =>
        simp only [Option.getD_some]
        have : c = x := hq c (by simp) hc x (Or.inl rfl)
        rw [this]
        congr 1
        apply ih _ (fun d hd => h d (by simp [hd]))
        intro d hd hd2 e he
        simp only [Option.some.injEq, reduceCtorEq, false_and, or_false] at he
        exact hq d (by simp [hd]) hd2 e (Or.inl (by rw [he]))
    · rw [if_neg (u8_not_lt.mpr (h c (by simp)))]
      congr 1
      apply ih _ (fun d hd => h d (by simp [hd]))
      intro d hd hd2 e he
      refine hq d (by simp [hd]) hd2 e ?_
      rcases he with he | ⟨h1, h2, h3⟩
      · exact Or.inl he
      · exact Or.inr ⟨h1, by simp [h2], h3⟩

/-- C34: length and printable non-quote bytes are kept, position by position. -/
theorem C34_keeps (s : Str) : (makeGoodExplText s).length = s.length ∧
    List.Forall₂ (fun c d => c ≠ 34 ∧ c ≠ 39 ∧ 32 ≤ c → d = c) s (makeGoodExplText s) :=
  ⟨makeGoodLoop_length _ _, makeGoodLoop_pointwise _ _⟩

/-- C34: the result has no control characters and at most one kind of quote. -/
theorem C34_legal (s : Str) : Quotable (makeGoodExplText s) := makeGoodLoop_quotable s

/-- C34: a legal text is not changed. -/
theorem C34_unchanged (s : Str) (h : Quotable s) : makeGoodExplText s = s := by
  refine makeGoodLoop_id none s h.1 ?_
  intro c hc hc2 d hd
  rcases hd with hd | ⟨_, hd, hd2⟩
  · cases hd
  · rcases hc2 with rfl | rfl <;> rcases hd2 with rfl | rfl
    · rfl
    · exact absurd ⟨hd, hc⟩ h.2
    · exact absurd ⟨hc, hd⟩ h.2
    · rfl

/-- C34: normalising again changes nothing. -/
theorem C34_idempotent (s : Str) : makeGoodExplText (makeGoodExplText s) = makeGoodExplText s :=
  C34_unchanged _ (C34_legal s)

-- it's a "test" with a tab
example : makeGoodExplText [105, 39, 34, 9, 116, 34] = [105, 39, 39, 63, 116, 39] := by decide
example : Quotable [105, 39, 32, 39, 200] := by unfold Quotable; decide

/-! ### element strings -/

theorem canBeQuotedLoop_iff (a b : Bool) (s : Str) :
    canBeQuotedLoop a b s = true ↔ (∀ c ∈ s, 32 ≤ c) ∧ ¬ ((39 ∈ s) ∧ (b = true ∨ 34 ∈ s)) ∧ ¬ (34 ∈ s ∧ a = true) := by
  induction s generalizing a b with
  | nil => simp [canBeQuotedLoop]
  | cons c cs ih =>
    rw [canBeQuotedLoop]
    by_cases h39 : c = 39
    · subst h39
      cases b with
      | true => simp
      | false =>
        simp only [if_true, Bool.false_eq_true, if_false, ih]
        have : (32 : UInt8) ≤ 39 := by decide
        constructor
        · rintro ⟨h1, h2, h3⟩
          refine ⟨?_, ?_, ?_⟩
          · intro d hd
            rcases List.mem_cons.mp hd with rfl | hd
            · exact this
            · exact h1 d hd
          · rintro ⟨_, h | h⟩
            · exact h
            · rcases List.mem_cons.mp h with h | h
              · exact absurd h (by decide)
              · exact h3 ⟨h, trivial⟩
          · rintro ⟨h, _⟩
            rcases List.mem_cons.mp h with h | h
            · exact absurd h (by decide)
            · exact h3 ⟨h, trivial⟩
        · rintro ⟨h1, h2, h3⟩
          refine ⟨fun d hd => h1 d (by simp [hd]), ?_, ?_⟩
          · rintro ⟨_, h | h⟩
            · exact h
            · exact h2 ⟨by simp, Or.inr (by simp [h])⟩
          · rintro ⟨h, _⟩
            exact h2 ⟨by simp, Or.inr (by simp [h])⟩
    · rw [if_neg h39]
      by_cases h34 : c = 34
      · subst h34
        cases a with
        | true => simp
        | false =>
          simp only [if_true, Bool.false_eq_true, if_false, ih]
          have : (32 : UInt8) ≤ 34 := by decide
          constructor
          · rintro ⟨h1, h2, _⟩
            refine ⟨?_, ?_, fun h => h.2⟩
            · intro d hd
              rcases List.mem_cons.mp hd with rfl | hd
              · exact this
              · exact h1 d hd
            · rintro ⟨h, _⟩
              rcases List.mem_cons.mp h with h | h
              · exact absurd h (by decide)
              · exact h2 ⟨h, Or.inl trivial⟩
          · rintro ⟨h1, h2, _⟩
            refine ⟨fun d hd => h1 d (by simp [hd]), ?_, fun h => h.2⟩
            rintro ⟨h, _⟩
            exact h2 ⟨by simp [h], Or.inr (by simp)⟩
      · rw [if_neg h34]
        have e39 : (39 ∈ c :: cs) ↔ 39 ∈ cs := by
          rw [List.mem_cons]
          exact ⟨fun h => h.resolve_left (fun e => h39 e.symm), Or.inr⟩
        have e34 : (34 ∈ c :: cs) ↔ 34 ∈ cs := by
          rw [List.mem_cons]
          exact ⟨fun h => h.resolve_left (fun e => h34 e.symm), Or.inr⟩
        rw [e39, e34]
        by_cases h32 : c < 32
        · rw [if_pos h32]
          refine ⟨fun h => (nomatch h), fun ⟨h, _⟩ => ?_⟩
          exact absurd (h c (by simp)) (UInt8.not_le.mpr h32)
        · rw [if_neg h32, ih]
          constructor
          · rintro ⟨h1, h2⟩
            refine ⟨?_, h2⟩
            intro d hd
            rcases List.mem_cons.mp hd with rfl | hd
            · exact u8_not_lt.mp h32
            · exact h1 d hd
          · rintro ⟨h1, h2⟩
            exact ⟨fun d hd => h1 d (by simp [hd]), h2⟩

theorem trimLoop_spec (s : Str) (i slen : Nat) (h : slen ≤ i) :
    ∃ a b, s = a ++ b ∧ (∀ c ∈ b, c ≤ 32) ∧
      ((a = [] ∧ trimLoop s i slen = slen) ∨
       (∃ a' c, a = a' ++ [c] ∧ 32 < c ∧ trimLoop s i slen = i + a.length)) := by
  induction s generalizing i slen with
  | nil => exact ⟨[], [], rfl, by simp, Or.inl ⟨rfl, rfl⟩⟩
  | cons c cs ih =>
    rw [trimLoop]
    by_cases hc : c > 32
    · rw [if_pos hc]
      obtain ⟨a, b, h1, h2, h3⟩ := ih (i + 1) (i + 1) (le_refl _)
      refine ⟨c :: a, b, by rw [h1]; rfl, h2, Or.inr ?_⟩
      rcases h3 with ⟨rfl, h4⟩ | ⟨a', d, h4, h5, h6⟩
      · exact ⟨[], c, rfl, hc, by rw [h4]; simp⟩
      · exact ⟨c :: a', d, by rw [h4]; rfl, h5, by rw [h6]; simp; omega⟩
    · rw [if_neg hc]
      obtain ⟨a, b, h1, h2, h3⟩ := ih (i + 1) slen (by omega)
      rcases h3 with ⟨rfl, h4⟩ | ⟨a', d, h4, h5, h6⟩
      · refine ⟨[], c :: b, by rw [h1]; rfl, ?_, Or.inl ⟨rfl, h4⟩⟩
        intro d hd
        rcases List.mem_cons.mp hd with rfl | hd
        · exact UInt8.not_lt.mp hc
        · exact h2 d hd
      · exact ⟨c :: a, b, by rw [h1]; rfl, h2, Or.inr ⟨c :: a', d, by rw [h4]; rfl, h5, by rw [h6]; simp; omega⟩⟩

/-- C46: trimming removes exactly the longest tail of bytes ≤ 32 (blanks and control characters): what is left is empty
    or ends with a byte above 32, what was cut off are bytes ≤ 32. Leading blanks stay. -/
theorem C46_trim (s : Str) : ∃ b, s = trimRight s ++ b ∧ (∀ c ∈ b, c ≤ 32) ∧
    (trimRight s = [] ∨ ∃ a c, trimRight s = a ++ [c] ∧ 32 < c) := by
  obtain ⟨a, b, h1, h2, h3⟩ := trimLoop_spec s 0 0 (le_refl _)
  have ht : trimRight s = a := by
    unfold trimRight
    rcases h3 with ⟨rfl, h4⟩ | ⟨_, _, _, _, h6⟩
    · rw [h4]; rfl
    · rw [h6, h1]; simp
  refine ⟨b, by rw [ht]; exact h1, h2, ?_⟩
  rw [ht]
  rcases h3 with ⟨h, _⟩ | ⟨a', c, h4, h5, _⟩
  · exact Or.inl h
  · exact Or.inr ⟨a', c, h4, h5⟩

/-- the decomposition of `C46_trim` determines the result -/
theorem trim_unique {s a a' b b' : Str} (h1 : s = a ++ b) (h2 : s = a' ++ b') (hb : ∀ c ∈ b, c ≤ 32)
    (hb' : ∀ c ∈ b', c ≤ 32) (ha : a = [] ∨ ∃ x c, a = x ++ [c] ∧ 32 < c)
    (ha' : a' = [] ∨ ∃ x c, a' = x ++ [c] ∧ 32 < c) : a = a' := by
  have key : ∀ (a a' b b' : Str), a ++ b = a' ++ b' → (∀ c ∈ b, c ≤ 32) →
      (a' = [] ∨ ∃ x c, a' = x ++ [c] ∧ 32 < c) → a'.length ≤ a.length := by
    intro a a' b b' h hb ha'
    rcases ha' with rfl | ⟨x, c, rfl, hc⟩
    · simp
    · by_contra hlt
      have hx : a.length ≤ x.length := by simp at hlt; omega
      have : c ∈ b := by
        have h3 : (a ++ b)[x.length]? = some c := by rw [h]; simp
        rw [List.getElem?_append_right hx] at h3
        exact List.mem_of_getElem? h3
      exact absurd (hb c this) (UInt8.not_le.mpr hc)
  have e : a ++ b = a' ++ b' := by rw [← h1, ← h2]
  have l1 := key a a' b b' e hb ha'
  have l2 := key a' a b' b e.symm hb' ha
  exact List.append_inj_left e (by omega)

/-- C46: trailing blanks and control characters are irrelevant. -/
theorem C46_trailing (s b : Str) (h : ∀ c ∈ b, c ≤ 32) : trimRight (s ++ b) = trimRight s := by
  obtain ⟨b1, h1, h2, h3⟩ := C46_trim (s ++ b)
  obtain ⟨b2, h4, h5, h6⟩ := C46_trim s
  refine trim_unique (s := s ++ b) h1 (b' := b2 ++ b) (by rw [← List.append_assoc, ← h4]) h2 ?_ h3 h6
  intro c hc
  rcases List.mem_append.mp hc with hc | hc
  · exact h5 c hc
  · exact h c hc

theorem C46_trim_idem (s : Str) : trimRight (trimRight s) = trimRight s := by
  obtain ⟨b, h1, h2, _⟩ := C46_trim s
  have := C46_trailing (trimRight s) b h2
  rw [← h1] at this
  exact this.symm

/-- C46: leading blanks matter: prepending a blank to a string with something in it gives a different element. -/
theorem C46_leading (s : Str) (h : trimRight s ≠ []) : trimRight (32 :: s) = 32 :: trimRight s := by
  obtain ⟨b1, h1, h2, h3⟩ := C46_trim (32 :: s)
  obtain ⟨b2, h4, h5, h6⟩ := C46_trim s
  refine trim_unique (s := 32 :: s) h1 (b' := b2) (by rw [List.cons_append, ← h4]) h2 h5 h3 ?_
  rcases h6 with h6 | ⟨a, c, h6, h7⟩
  · exact absurd h6 h
  · exact Or.inr ⟨32 :: a, c, by rw [h6]; rfl, h7⟩

/-- C46: which strings are accepted. -/
theorem C46_accept (s : Str) : goodUEL (trimRight s) = true ↔
    (trimRight s).length < 64 ∧ Quotable (trimRight s) := by
  unfold goodUEL canBeQuoted
  rw [Bool.and_eq_true, canBeQuotedLoop_iff]
  unfold Quotable
  simp

example : trimRight [32, 97, 32, 98, 9, 32] = [32, 97, 32, 98] := by decide
example : goodUEL (trimRight [32, 97, 32, 98, 9, 32]) = true := by decide
example : goodUEL (trimRight [97, 9, 98]) = false ∧ goodUEL [39, 97, 34] = false := by decide

/-! ### identifiers -/

/-- an identifier: one letter, then letters, digits and underscores, at most 63 bytes in all -/
def Ident (s : Str) : Prop := s.length < 64 ∧
  (∃ c, s.head? = some c ∧ (65 ≤ c ∧ c ≤ 90 ∨ 97 ≤ c ∧ c ≤ 122)) ∧
  ∀ c ∈ s, 65 ≤ c ∧ c ≤ 90 ∨ 97 ≤ c ∧ c ≤ 122 ∨ 48 ≤ c ∧ c ≤ 57 ∨ c = 95

/-- C14 (and the names of acronyms, relaxed domains): IsGoodIdent accepts exactly the identifiers. -/
theorem C14_ident (s : Str) : isGoodIdent s = true ↔ Ident s := by
  cases s with
  | nil => simp [isGoodIdent, Ident]
  | cons c cs =>
    simp only [isGoodIdent, isIdentChar, isLetter, Ident, List.head?_cons, Option.some.injEq, exists_eq_left',
      List.length_cons, List.forall_mem_cons, Bool.and_eq_true, Bool.or_eq_true, List.all_eq_true, decide_eq_true_eq,
      beq_iff_eq]
    constructor
    · rintro ⟨⟨h1, h2⟩, h3⟩
      refine ⟨h3, h1, ?_, fun d hd => ?_⟩
      · tauto
      · have := h2 d hd
        tauto
    · rintro ⟨h1, h2, _, h4⟩
      refine ⟨⟨h2, fun d hd => ?_⟩, h1⟩
      have := h4 d hd
      tauto

example : isGoodIdent [97, 95, 49] = true ∧ isGoodIdent [49, 97] = false ∧ isGoodIdent [] = false := by decide

#print axioms C14_ident
#print axioms C34_keeps
#print axioms C34_legal
#print axioms C34_unchanged
#print axioms C34_idempotent
#print axioms C46_trim
#print axioms C46_trailing
#print axioms C46_leading
#print axioms C46_accept

end Gdx.Props
