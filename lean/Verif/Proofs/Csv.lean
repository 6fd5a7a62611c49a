import Verif.Model.Dump
import Mathlib.Data.List.Basic
import Mathlib.Tactic.Linarith

/-!
A reader for CSV text, and what it makes of the fields gdxdump writes.
-/

namespace Gdx.Dump

/-! ## a reader for CSV -/

/-- where the reader is: at the beginning of a field, in a field without quotes, in a quoted field, after a quote in a quoted field -/
inductive Pos where
  | start
  | bare
  | quoted
  | quote
  deriving DecidableEq

/-- the lines so far, the fields of the line so far, the field so far -/
structure CsvSt where
  lines : List (List Str)
  line : List Str
  cur : Str
  pos : Pos

def CsvSt.field (s : CsvSt) : CsvSt := ⟨s.lines, s.line ++ [s.cur], [], .start⟩
def CsvSt.eol (s : CsvSt) : CsvSt := ⟨s.lines ++ [s.line ++ [s.cur]], [], [], .start⟩
def CsvSt.put (s : CsvSt) (c : UInt8) (p : Pos) : CsvSt := { s with cur := s.cur ++ [c], pos := p }

/-- one character; `d` is the delimiter. There are no quotes if it is the tab. -/
def csvStep (d : UInt8) (s : CsvSt) (c : UInt8) : Option CsvSt :=
  match s.pos with
  | .start => if c = 34 ∧ d ≠ 9 then some { s with pos := .quoted } else if c = d then some s.field else if c = 10 then some s.eol else some (s.put c .bare)
  | .bare => if c = 34 ∧ d ≠ 9 then none else if c = d then some s.field else if c = 10 then some s.eol else some (s.put c .bare)
  | .quoted => if c = 34 then some { s with pos := .quote } else some (s.put c .quoted)
  | .quote => if c = 34 then some (s.put c .quoted) else if c = d then some s.field else if c = 10 then some s.eol else none

def csvRun (d : UInt8) : CsvSt → Str → Option CsvSt
  | s, [] => some s
  | s, c :: cs => match csvStep d s c with
    | none => none
    | some s => csvRun d s cs

/-- the lines of a CSV text; every line ends with a newline -/
def csvRead (d : UInt8) (t : Str) : Option (List (List Str)) :=
  match csvRun d ⟨[], [], [], .start⟩ t with
  | some ⟨l, [], [], .start⟩ => some l
  | _ => none

/-! ## fields -/

theorem csvRun_append (d : UInt8) (a b : Str) : ∀ s s', csvRun d s a = some s' → csvRun d s (a ++ b) = csvRun d s' b := by
  induction a with
  | nil => intro s s' h; cases h; rfl
  | cons c a ih =>
    intro s s' h
    rw [List.cons_append, csvRun]
    rw [csvRun] at h
    cases hs : csvStep d s c with
    | none => rw [hs] at h; cases h
    | some t => rw [hs] at h; exact ih t s' h

/-- the text is read as a field `x` -/
def IsField (d : UInt8) (t x : Str) : Prop :=
  ∀ ls l, ∃ p, (p = .start → x = []) ∧ p ≠ .quoted ∧ csvRun d ⟨ls, l, [], .start⟩ t = some ⟨ls, l, x, p⟩

theorem IsField.delim {d : UInt8} (hd : d ≠ 34) {t x : Str} (h : IsField d t x) (ls : List (List Str)) (l : List Str) :
    csvRun d ⟨ls, l, [], .start⟩ (t ++ [d]) = some ⟨ls, l ++ [x], [], .start⟩ := by
  obtain ⟨p, _, h2, h3⟩ := h ls l
  rw [csvRun_append d t [d] _ _ h3]
  cases p <;> simp_all [csvRun, csvStep, CsvSt.field]

theorem IsField.eol {d : UInt8} (hd : d ≠ 10) {t x : Str} (h : IsField d t x) (ls : List (List Str)) (l : List Str) :
    csvRun d ⟨ls, l, [], .start⟩ (t ++ [10]) = some ⟨ls ++ [l ++ [x]], [], [], .start⟩ := by
  obtain ⟨p, _, h2, h3⟩ := h ls l
  rw [csvRun_append d t [10] _ _ h3]
  cases p <;> simp_all [csvRun, csvStep, CsvSt.eol, Ne.symm hd]

/-- no delimiter, no newline, no quote unless the delimiter is the tab -/
def Bare (d : UInt8) (t : Str) : Prop := ∀ c ∈ t, c ≠ d ∧ c ≠ 10 ∧ ¬ (c = 34 ∧ d ≠ 9)

theorem bare_field {d : UInt8} {t : Str} (h : Bare d t) : IsField d t t := by
  intro ls l
  have key : ∀ (t x : Str), Bare d t → csvRun d ⟨ls, l, x, .bare⟩ t = some ⟨ls, l, x ++ t, .bare⟩ := by
    intro t
    induction t with
    | nil => intro x _; simp [csvRun]
    | cons c t ih =>
      intro x h
      obtain ⟨h1, h2, h3⟩ := h c (by simp)
      unfold csvRun csvStep
      simp only [h1, h2, h3, if_false, CsvSt.put]
      rw [ih _ (fun y hy => h y (by simp [hy]))]
      simp
  cases t with
  | nil => exact ⟨.start, fun _ => rfl, by simp, rfl⟩
  | cons c t =>
    obtain ⟨h1, h2, h3⟩ := h c (by simp)
    refine ⟨.bare, by simp, by simp, ?_⟩
    unfold csvRun csvStep
    simp only [h1, h2, h3, if_false, CsvSt.put]
    rw [key t _ (fun y hy => h y (by simp [hy]))]
    simp

/-- quotes doubled -/
def doubled : Str → Str
  | [] => []
  | c :: s => if c = 34 then 34 :: 34 :: doubled s else c :: doubled s

theorem doubled_append (a b : Str) : doubled (a ++ b) = doubled a ++ doubled b := by
  induction a with
  | nil => rfl
  | cons c a ih => rw [List.cons_append, doubled, doubled, ih]; split <;> rfl

theorem doubled_none {s : Str} (h : ∀ c ∈ s, c ≠ 34) : doubled s = s := by
  induction s with
  | nil => rfl
  | cons c s ih => rw [doubled, if_neg (h c (by simp)), ih fun y hy => h y (by simp [hy])]

theorem split_quote (s : Str) : (s.dropWhile (· ≠ 34) = [] ∧ doubled s = s) ∨
    ∃ ws, s.dropWhile (· ≠ 34) = 34 :: ws ∧ doubled s = s.takeWhile (· ≠ 34) ++ [34, 34] ++ doubled ws ∧ ws.length < s.length := by
  induction s with
  | nil => exact Or.inl ⟨rfl, rfl⟩
  | cons c s ih =>
    by_cases hc : c = 34
    · exact Or.inr ⟨s, by simp [hc], by simp [hc, doubled], by simp⟩
    · rcases ih with ⟨h1, h2⟩ | ⟨ws, h1, h2, h3⟩
      · exact Or.inl ⟨by simp [hc]; simpa using h1, by rw [doubled, if_neg hc, h2]⟩
      · refine Or.inr ⟨ws, by simp [hc]; simpa using h1, ?_, by simp; omega⟩
        rw [doubled, if_neg hc, h2]
        simp [hc]

theorem dblQuotes_eq : ∀ (f : Nat) (s : Str), s.length < f → dblQuotes f s = doubled s
  | 0, _, h => by omega
  | f + 1, s, h => by
    unfold dblQuotes
    rcases split_quote s with ⟨h1, h2⟩ | ⟨ws, h1, h2, h3⟩
    · rw [h1, h2]
    · rw [h1, h2]
      simp only
      rw [dblQuotes_eq f ws (by omega)]

/-- a string of at most 255 bytes: nothing is cut -/
theorem qqcsv_eq {d : UInt8} (hd : d ≠ 9) {s : Str} (hl : s.length ≤ 255) : qqcsv d s = [34] ++ doubled s ++ [34] := by
  unfold qqcsv
  rw [if_neg hd]
  rcases split_quote s with ⟨h1, h2⟩ | ⟨ws, h1, h2, h3⟩
  · rw [h1, h2]
  · rw [h1, h2]
    simp only
    rw [List.take_of_length_le (by omega), dblQuotes_eq 256 ws (by omega)]
    simp

theorem quoted_field {d : UInt8} (hd : d ≠ 9) {s : Str} (hl : s.length ≤ 255) : IsField d (qqcsv d s) s := by
  intro ls l
  refine ⟨.quote, by simp, by simp, ?_⟩
  rw [qqcsv_eq hd hl]
  have key : ∀ (s x : Str), csvRun d ⟨ls, l, x, .quoted⟩ (doubled s) = some ⟨ls, l, x ++ s, .quoted⟩ := by
    intro s
    induction s with
    | nil => intro x; simp [csvRun, doubled]
    | cons c s ih =>
      intro x
      by_cases hc : c = 34
      · rw [doubled, if_pos hc]
        simp only [csvRun, csvStep, if_true, CsvSt.put]
        rw [ih]
        simp [hc]
      · rw [doubled, if_neg hc]
        simp only [csvRun, csvStep, hc, if_false, CsvSt.put]
        rw [ih]
        simp
  have h1 : csvRun d ⟨ls, l, [], .start⟩ [34] = some ⟨ls, l, [], .quoted⟩ := by simp [csvRun, csvStep, hd]
  rw [List.append_assoc, csvRun_append d [34] _ _ _ h1, csvRun_append d _ _ _ _ (key s [])]
  simp [csvRun, csvStep]

/-- a string that can be written: no control characters, at most 255 bytes -/
def Printable (s : Str) : Prop := (∀ c ∈ s, 32 ≤ c.toNat) ∧ s.length ≤ 255

theorem field_of {d : UInt8} {s : Str} (h : Printable s) : IsField d (qqcsv d s) s := by
  by_cases hd : d = 9
  · unfold qqcsv
    rw [if_pos hd]
    refine bare_field fun c hc => ?_
    have := h.1 c hc
    refine ⟨?_, ?_, fun hh => hh.2 hd⟩
    · rintro rfl; rw [hd] at this; exact absurd this (by decide)
    · rintro rfl; exact absurd this (by decide)
  · exact quoted_field hd h.2

/-! ## lines -/

/-- the text up to the newline is a line of these fields -/
def IsLine (d : UInt8) (t : Str) (xs : List Str) : Prop := ∀ ls, csvRun d ⟨ls, [], [], .start⟩ t = some ⟨ls ++ [xs], [], [], .start⟩

/-- texts with the delimiter in between are the fields; more may follow -/
theorem joined_line {d : UInt8} (h1 : d ≠ 34) (h2 : d ≠ 10) : ∀ (ts xs : List Str), List.Forall₂ (IsField d) ts xs → ts ≠ [] → ∀ ls l,
    csvRun d ⟨ls, l, [], .start⟩ (joined d ts ++ [10]) = some ⟨ls ++ [l ++ xs], [], [], .start⟩ ∧
    csvRun d ⟨ls, l, [], .start⟩ (joined d ts ++ [d]) = some ⟨ls, l ++ xs, [], .start⟩ := by
  intro ts
  induction ts with
  | nil => intro xs _ h; exact absurd rfl h
  | cons t ts ih =>
    intro xs hf _ ls l
    cases hf with
    | cons hx hr =>
      rename_i x xs
      cases ts with
      | nil =>
        cases hr
        exact ⟨hx.eol h2 ls l, hx.delim h1 ls l⟩
      | cons t' ts =>
        obtain ⟨g1, g2⟩ := ih xs hr (by simp) ls (l ++ [x])
        have e : joined d (t :: t' :: ts) = t ++ [d] ++ joined d (t' :: ts) := rfl
        rw [e]
        constructor
        · rw [List.append_assoc, csvRun_append d _ _ _ _ (hx.delim h1 ls l), g1]
          simp
        · rw [List.append_assoc, csvRun_append d _ _ _ _ (hx.delim h1 ls l), g2]
          simp

theorem csvRun_lines {d : UInt8} : ∀ (ts : List Str) (xss : List (List Str)), List.Forall₂ (IsLine d) ts xss → ∀ ls,
    csvRun d ⟨ls, [], [], .start⟩ ts.flatten = some ⟨ls ++ xss, [], [], .start⟩ := by
  intro ts
  induction ts with
  | nil => intro xss h ls; cases h; simp [csvRun]
  | cons t ts ih =>
    intro xss h ls
    cases h with
    | cons h1 h2 =>
      rw [List.flatten_cons, csvRun_append d _ _ _ _ (h1 ls), ih _ h2]
      simp

/-- a text made of lines -/
theorem csvRead_lines {d : UInt8} {ts : List Str} {xss : List (List Str)} (h : List.Forall₂ (IsLine d) ts xss) : csvRead d ts.flatten = some xss := by
  unfold csvRead
  rw [csvRun_lines ts xss h]
  rfl

end Gdx.Dump
