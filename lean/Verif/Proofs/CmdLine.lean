import Verif.Model.CmdPar
import Verif.Proofs.Prim
import Verif.Spec.CmdLine
import Mathlib.Tactic

namespace Gdx.CmdPar
open Gdx CmdLine Spec

theorem upC_lower : ∀ a b : UInt8, upC a = upC b ↔ lower a = lower b := by
  have : ∀ a b : Fin 256, upC (UInt8.ofFin a) = upC (UInt8.ofFin b) ↔ lower (UInt8.ofFin a) = lower (UInt8.ofFin b) := by decide +kernel
  intro a b; exact this a.toFin b.toFin

theorem upper_iff : ∀ a b : Str, upper a = upper b ↔ SameNoCase a b := by
  intro a
  induction a with
  | nil => intro b; cases b <;> simp [upper, SameNoCase]
  | cons c t ih =>
    intro b
    cases b with
    | nil => simp [upper, SameNoCase]
    | cons d u =>
      have := ih u
      simp only [upper, SameNoCase] at this ⊢
      simp [upC_lower c d, this]

theorem find_key {ks : List (Str × Int)} (h : Names ks) {k p : Str} {v : Int} (hm : (k, v) ∈ ks) (hs : SameNoCase k p) :
    ks.find? (fun k => upper k.1 = upper p) = some (k, v) := by
  replace h := h.2
  induction ks with
  | nil => simp at hm
  | cons x l ih =>
    rw [List.pairwise_cons] at h
    rcases List.mem_cons.mp hm with rfl | hm
    · rw [List.find?_cons_of_pos]; simpa [upper_iff] using hs
    · rw [List.find?_cons_of_neg, ih hm h.2]
      simp only [decide_eq_true_eq, upper_iff]
      intro hx
      apply h.1 _ hm
      unfold SameNoCase at *; rw [hx, hs]

theorem isBl_ink {c : UInt8} (h : 32 < c) (h' : c < 128) : isBl c = false := by
  simp only [isBl, Bool.or_eq_false_iff, decide_eq_false_iff_not]
  exact ⟨UInt8.not_le.mpr h, UInt8.not_le.mpr h'⟩

theorem skipBl_idem (s : Str) : skipBl (skipBl s) = skipBl s := by
  unfold skipBl
  induction s with
  | nil => rfl
  | cons c t ih =>
    by_cases h : isBl c = true
    · simp [h, ih]
    · simp [h]

theorem skipBl_cons {c : UInt8} (h : isBl c = true) (s : Str) : skipBl (c :: s) = skipBl s := by
  simp [skipBl, h]

theorem skipBl_ink {c : UInt8} (h : isBl c = false) (s : Str) : skipBl (c :: s) = c :: s := by
  simp [skipBl, h]

theorem nextToken_skip (s : Str) : nextToken (skipBl s) = nextToken s := by
  simp [nextToken, skipBl_idem]

theorem nextToken_congr {s t : Str} (h : skipBl s = skipBl t) : nextToken s = nextToken t := by
  rw [← nextToken_skip s, h, nextToken_skip]

theorem nextKey_congr {ks : List (Str × Int)} {s t : Str} (h : skipBl s = skipBl t) : nextKey ks s = nextKey ks t := by
  simp only [nextKey, nextToken_congr h]

theorem params_congr {ks : List (Str × Int)} {s t : Str} (h : skipBl s = skipBl t) (n : Nat) : params ks n s = params ks n t := by
  cases n with
  | zero => rfl
  | succ n => simp only [params, nextKey_congr h]

/-- the rest behind an argument: the end, or a blank -/
def Ends (r : Str) : Prop := r = [] ∨ ∃ t, r = 32 :: t

theorem cutAt_app {p : UInt8 → Bool} {w r : Str} (hw : ∀ c ∈ w, p c = false) (hr : r = [] ∨ ∃ c t, r = c :: t ∧ p c = true) :
    cutAt p (w ++ r) = (w, r.tail) := by
  unfold cutAt
  rw [List.takeWhile_append_of_pos (by simpa using hw), List.dropWhile_append_of_pos (by simpa using hw)]
  rcases hr with rfl | ⟨c, t, rfl, hc⟩ <;> simp [*]

theorem stopPlain_of {w : Str} (h61 : 61 ∉ w) (h9 : 9 ∉ w) (h32 : 32 ∉ w) : ∀ c ∈ w, stopPlain c = false := by
  intro c hc
  simp only [stopPlain, Bool.or_eq_false_iff, decide_eq_false_iff_not]
  refine ⟨⟨?_, ?_⟩, ?_⟩ <;> rintro rfl <;> contradiction

/-- a word without a blank, in front of a stop -/
theorem token_plain {w r : Str} (hw : Word w) (h : 32 ∉ w) (hr : r = [] ∨ ∃ c t, r = c :: t ∧ stopPlain c = true) : nextToken (w ++ r) = (w, r.tail) := by
  rcases hw.shape with h' | ⟨h9, c, t, rfl, hc, hc'⟩
  · contradiction
  · have hb : isBl c = false := isBl_ink hc hc'
    have hq : c ≠ 34 := by rintro rfl; exact hw.quote (by simp)
    simp only [nextToken, List.cons_append, skipBl_ink hb, if_pos hq]
    exact cutAt_app (w := c :: t) (stopPlain_of hw.eq h9 h) hr

theorem token_quoted {w r : Str} (hw : Word w) : nextToken (34 :: (w ++ 34 :: r)) = (w, r) := by
  have hb : isBl 34 = false := by decide
  simp only [nextToken, skipBl_ink hb]
  rw [if_neg (by simp), cutAt_app (r := 34 :: r)]
  · rfl
  · intro c hc
    simp only [stopQuoted, Bool.or_eq_false_iff, decide_eq_false_iff_not]
    exact ⟨fun e => hw.quote (e ▸ hc), fun e => hw.eq (e ▸ hc)⟩
  · exact .inr ⟨34, r, rfl, by decide⟩

theorem Ends.stop {r : Str} (h : Ends r) : r = [] ∨ ∃ c t, r = c :: t ∧ stopPlain c = true := by
  rcases h with rfl | ⟨t, rfl⟩
  · exact .inl rfl
  · exact .inr ⟨32, t, rfl, by decide⟩

theorem Ends.skip {r : Str} (h : Ends r) : skipBl r.tail = skipBl r := by
  rcases h with rfl | ⟨t, rfl⟩
  · rfl
  · rw [skipBl_cons (by decide)]; rfl

theorem piece_ends {w : Str} (r : Str) (h : w ≠ []) : ∃ t, piece w ++ r = 32 :: t := by
  unfold piece
  rw [if_neg h]
  split
  · exact ⟨_, rfl⟩
  · split
    · split <;> exact ⟨_, rfl⟩
    · exact ⟨_, rfl⟩

theorem expandArgs_cons (w : Str) (a : List Str) : expandArgs (w :: a) = piece w ++ expandArgs a := rfl
theorem expandArgs_append (a b : List Str) : expandArgs (a ++ b) = expandArgs a ++ expandArgs b := List.flatMap_append

theorem expandArgs_ends : ∀ a : List Str, Ends (expandArgs a)
  | [] => .inl rfl
  | w :: a => by
    by_cases h : w = []
    · subst h; exact expandArgs_ends a
    · exact .inr (piece_ends _ h)

theorem _root_.Gdx.CmdLine.Word.ne {w : Str} (h : Word w) : w ≠ [] := by
  rintro rfl
  rcases h.shape with h | ⟨_, c, t, h, _⟩ <;> simp at h

/-- an argument that is a word is one token -/
theorem token_piece {w r : Str} (hw : Word w) (hr : Ends r) : ∃ q, nextToken (piece w ++ r) = (w, q) ∧ skipBl q = skipBl r := by
  unfold piece
  rw [if_neg hw.ne]
  by_cases h : 32 ∈ w
  · rw [if_neg (by simpa using h), if_pos hw.eq, if_pos]
    · refine ⟨r, ?_, rfl⟩
      rw [← token_quoted (r := r) hw]
      refine nextToken_congr ?_
      rw [List.cons_append, skipBl_cons (by decide)]
      simp
    · intro e
      have := hw.at'
      cases w with
      | nil => simp at e
      | cons c t => simp at e; subst e; simp at this
  · rw [if_pos h]
    refine ⟨r.tail, ?_, hr.skip⟩
    rw [← token_plain hw h hr.stop]
    exact nextToken_congr (by rw [List.cons_append, skipBl_cons (by decide)])

theorem bare_of {w x : Str} (h : Value w x) : bare w = x := by
  obtain ⟨_, rfl | ⟨rfl, h⟩⟩ := h
  · have h2 : (39 :: (x ++ [39]) : Str).getLast? = some 39 := by
      rw [show (39 :: (x ++ [39]) : Str) = (39 :: x) ++ [39] from rfl, List.getLast?_concat]
    unfold bare
    rw [if_pos ⟨by simp, rfl, h2⟩]
    simp
  · unfold bare
    rw [if_neg]
    rintro ⟨hl, hh, ht⟩
    apply h
    cases w with
    | nil => simp at hh
    | cons c t =>
      simp at hh; subst hh
      rcases List.eq_nil_or_concat t with rfl | ⟨u, d, rfl⟩
      · simp at hl
      · refine ⟨u, ?_⟩
        rw [List.concat_eq_append, ← List.cons_append, List.getLast?_concat] at ht
        simp at ht; subst ht
        simp

theorem nextKey_other {ks : List (Str × Int)} {s w q : Str} (ht : nextToken s = (w, q)) (hw : Word w) (hn : ∀ k ∈ ks, ¬ SameNoCase k.1 w) :
    nextKey ks s = ((-2, w), q) := by
  have hf : ks.find? (fun k => upper k.1 = upper w) = none := by
    rw [List.find?_eq_none]
    intro k hk
    simpa [upper_iff] using hn k hk
  have h64 : w.head? ≠ some 64 := by
    intro e
    have := hw.at'
    cases w with
    | nil => simp at e
    | cons c t => simp at e; subst e; simp at this
  simp only [nextKey, ht, if_neg hw.ne, hf, if_neg h64]

theorem nextKey_word {ks : List (Str × Int)} (hk : Names ks) {s p q k : Str} {v : Int} (ht : nextToken s = (p, q)) (hw : Word p) (hm : (k, v) ∈ ks) (hs : SameNoCase k p)
    (hv : v < 10000) : nextKey ks s = ((v, []), q) := by
  simp only [nextKey, ht, if_neg hw.ne, find_key hk hm hs, if_neg (not_le.mpr hv)]

theorem nextKey_param {ks : List (Str × Int)} (hk : Names ks) {s p q w x q' k : Str} {v : Int} (ht : nextToken s = (p, q)) (hw : Word p) (hm : (k, v) ∈ ks) (hs : SameNoCase k p)
    (hv : 10000 ≤ v) (hx : Value w x) (ht' : nextToken (skipEq q) = (w, q')) : nextKey ks s = ((v - 10000, x), q') := by
  simp only [nextKey, ht, if_neg hw.ne, find_key hk hm hs, if_pos hv, ht', if_neg hx.1.ne, bare_of hx]

theorem skipEq_congr {s t : Str} (h : skipBl s = skipBl t) : skipEq s = skipEq t := by simp only [skipEq, h]

theorem skipBl_eq (t : Str) : skipBl (61 :: t) = 61 :: t := skipBl_ink (by decide) t

/-- a token in front of which there is no `=` -/
theorem skipEq_piece {w r : Str} (hw : Word w) : nextToken (skipEq (piece w ++ r)) = nextToken (piece w ++ r) := by
  have h : ∀ t, skipBl (piece w ++ r) ≠ 61 :: t := by
    intro t
    unfold piece
    rw [if_neg hw.ne]
    by_cases h : 32 ∈ w
    · rw [if_neg (by simpa using h), if_pos hw.eq]
      split
      · rw [List.cons_append, skipBl_cons (by decide), List.cons_append, skipBl_ink (by decide)]; simp
      · rw [List.cons_append, skipBl_cons (by decide), List.cons_append, skipBl_ink (by decide)]; simp
    · rw [if_pos h, List.cons_append, skipBl_cons (by decide)]
      rcases hw.shape with h' | ⟨_, c, u, rfl, hc, hc'⟩
      · contradiction
      · rw [List.cons_append, skipBl_ink (isBl_ink hc hc')]
        rintro e
        simp at e
        exact hw.eq (by simp [e.1])
  unfold skipEq
  split
  · next t e => exact absurd e (h t)
  · next t e => exact nextToken_skip _

theorem not_mem_of_word {p : Str} (h : Word p) (h32 : 32 ∉ p) : ∀ c ∈ p, stopPlain c = false := by
  rcases h.shape with h' | ⟨h9, _⟩
  · contradiction
  · exact stopPlain_of h.eq h9 h32

theorem takeWhile_eq (p w : Str) (h : 61 ∉ p) : (p ++ 61 :: w).takeWhile (· ≠ 61) = p := by
  rw [List.takeWhile_append_of_pos (by intro c hc; simp; rintro rfl; contradiction)]
  simp

theorem dropWhile_eq (p w : Str) (h : 61 ∉ p) : (p ++ 61 :: w).dropWhile (· ≠ 61) = 61 :: w := by
  rw [List.dropWhile_append_of_pos (by intro c hc; simp; rintro rfl; contradiction)]
  simp

theorem _root_.Gdx.CmdLine.Word.head {w : Str} (hw : Word w) : w.head? ≠ some 64 := by
  intro e
  have := hw.at'
  cases w with
  | nil => simp at e
  | cons c t => simp at e; subst e; simp at this

/-- `p=w` -/
theorem piece_one {p w : Str} (hp : 61 ∉ p) (hp' : 32 ∉ p) (hw : Word w) : ∃ b, piece (p ++ 61 :: w) = 32 :: (p ++ 61 :: b) ∧ (b = w ∧ 32 ∉ w ∨ b = piece w) := by
  unfold piece
  rw [if_neg (by simp)]
  by_cases h : 32 ∈ w
  · rw [if_neg (by simp [h]), if_neg (by simp), takeWhile_eq _ _ hp, dropWhile_eq _ _ hp]
    refine ⟨_, rfl, .inr ?_⟩
    rw [if_neg hw.ne, if_neg (by simpa using h), if_pos hw.eq, if_pos hw.head]; simp
  · rw [if_pos (by simp [hp', h])]
    exact ⟨w, rfl, .inl ⟨rfl, h⟩⟩

theorem skip32 (s : Str) : skipBl (32 :: s) = skipBl s := skipBl_cons (by decide) s

theorem token_body {w b r : Str} (hw : Word w) (hr : Ends r) (hb : b = w ∧ 32 ∉ w ∨ b = piece w) : ∃ q, nextToken (b ++ r) = (w, q) ∧ skipBl q = skipBl r := by
  rcases hb with ⟨rfl, h⟩ | rfl
  · exact ⟨_, token_plain hw h hr.stop, hr.skip⟩
  · exact token_piece hw hr

theorem ends_piece {w r : Str} (h : w ≠ []) : Ends (piece w ++ r) := .inr (piece_ends r h)

/-- the name of a parameter in front of `=` -/
theorem token_eq {p r : Str} (hp : Word p) (h32 : 32 ∉ p) : nextToken (32 :: (p ++ 61 :: r)) = (p, r) := by
  rw [nextToken_congr (skip32 _), token_plain hp h32 (.inr ⟨61, r, rfl, by decide⟩)]; rfl

theorem skipEq_body {w b r : Str} (hw : Word w) (hb : b = w ∧ 32 ∉ w ∨ b = piece w) : nextToken (skipEq (b ++ r)) = nextToken (b ++ r) := by
  rcases hb with ⟨rfl, h⟩ | rfl
  · have := skipEq_piece (r := r) hw
    have hpc : piece b = 32 :: b := by unfold piece; rw [if_neg hw.ne, if_pos h]
    rw [hpc, List.cons_append, skipEq_congr (skip32 _), nextToken_congr (skip32 _)] at this
    exact this
  · exact skipEq_piece hw

/-- a string with the arguments, each after a blank -/
inductive Shown : List Str → Str → Prop
  | nil : Shown [] []
  | blank {a s} : Shown a s → Shown a (32 :: s)
  | cons {w a s} : Shown a s → Shown (w :: a) (piece w ++ s)

theorem Shown.ends {a : List Str} {s : Str} (h : Shown a s) : Ends s := by
  induction h with
  | nil => exact .inl rfl
  | blank h => exact .inr ⟨_, rfl⟩
  | @cons w a s _ ih =>
    by_cases e : w = []
    · subst e; exact ih
    · exact .inr (piece_ends _ e)

theorem Shown.uncons {a : List Str} {w s : Str} (h : Shown (w :: a) s) : ∃ r, Shown a r ∧ skipBl s = skipBl (piece w ++ r) := by
  generalize e : w :: a = l at h
  induction h with
  | nil => simp at e
  | blank h ih => obtain ⟨r, hr, ih⟩ := ih e; exact ⟨r, hr, (skip32 _).trans ih⟩
  | cons h ih => cases e; exact ⟨_, h, rfl⟩

theorem Shown.nil_skip {s : Str} (h : Shown [] s) : skipBl s = [] := by
  generalize e : ([] : List Str) = l at h
  induction h with
  | nil => rfl
  | blank h ih => exact (skip32 _).trans (ih e)
  | cons h ih => cases e

theorem Shown.append {a b : List Str} {s t : Str} (h : Shown a s) (h' : Shown b t) : Shown (a ++ b) (s ++ t) := by
  induction h with
  | nil => exact h'
  | blank h ih => exact .blank ih
  | cons h ih => rw [List.append_assoc]; exact .cons ih

theorem shown_args : ∀ a : List Str, Shown a (expandArgs a)
  | [] => .nil
  | _ :: a => .cons (shown_args a)

/-- a word in the string is its next token -/
theorem Shown.token {w : Str} {a : List Str} {s : Str} (h : Shown (w :: a) s) (hw : Word w) : ∃ q r, nextToken s = (w, q) ∧ skipBl q = skipBl r ∧ Shown a r := by
  obtain ⟨r, hr, h⟩ := h.uncons
  obtain ⟨q, hq, hq'⟩ := token_piece hw hr.ends
  exact ⟨q, r, (nextToken_congr h).trans hq, hq', hr⟩

theorem Shown.skipEq {w : Str} {a : List Str} {s : Str} (h : Shown (w :: a) s) (hw : Word w) : nextToken (skipEq s) = nextToken s := by
  obtain ⟨r, hr, h⟩ := h.uncons
  rw [skipEq_congr h, skipEq_piece hw, nextToken_congr h]

/-- an assignment is one parameter -/
theorem key_assign {ks : List (Str × Int)} (hk : Names ks) {p w x k s : Str} {v : Int} {l a : List Str} (hp : Word p) (h32 : 32 ∉ p) (hm : (k, v) ∈ ks) (hs : SameNoCase k p)
    (hv : 10000 ≤ v) (hx : Value w x) (hl : Assign p w l) (h : Shown (l ++ a) s) : ∃ q r, nextKey ks s = ((v - 10000, x), q) ∧ skipBl q = skipBl r ∧ Shown a r := by
  have hw := hx.1
  cases hl with
  | one =>
    obtain ⟨r, hr, h⟩ := h.uncons
    obtain ⟨b, e, hb⟩ := piece_one hp.eq h32 hw
    obtain ⟨q, hq, hq'⟩ := token_body hw hr.ends hb
    refine ⟨q, r, ?_, hq', hr⟩
    refine nextKey_param hk ?_ hp hm hs hv hx ((skipEq_body hw hb).trans hq)
    rw [nextToken_congr h, e]
    simp only [List.cons_append, List.append_assoc]
    exact token_eq hp h32
  | two =>
    obtain ⟨q1, r1, h1, h1', hr1⟩ := h.token hp
    obtain ⟨q, r, hq, hq', hr⟩ := hr1.token hw
    refine ⟨q, r, nextKey_param hk h1 hp hm hs hv hx ?_, hq', hr⟩
    rw [skipEq_congr h1', hr1.skipEq hw, hq]
  | three =>
    obtain ⟨q1, r1, h1, h1', hr1⟩ := h.token hp
    obtain ⟨r2, hr2, h2⟩ := hr1.uncons
    obtain ⟨q, r, hq, hq', hr⟩ := hr2.token hw
    refine ⟨q, r, nextKey_param hk h1 hp hm hs hv hx ?_, hq', hr⟩
    have : skipBl (piece [61] ++ r2) = 61 :: r2 := by
      rw [show piece [61] = [32, 61] by decide]
      exact (skip32 _).trans (skipBl_eq _)
    rw [← hq]; simp only [skipEq, h1', h2, this]
  | left =>
    obtain ⟨r1, hr1, h⟩ := h.uncons
    obtain ⟨q, r, hq, hq', hr⟩ := hr1.token hw
    have e : piece (p ++ [61]) = 32 :: (p ++ [61]) := by
      unfold piece; rw [if_neg (by simp), if_pos (by simp [h32])]
    refine ⟨q, r, nextKey_param (q := r1) hk ?_ hp hm hs hv hx ((hr1.skipEq hw).trans hq), hq', hr⟩
    rw [nextToken_congr h, e]
    simp only [List.cons_append, List.append_assoc, List.nil_append]
    exact token_eq hp h32
  | right =>
    obtain ⟨q1, r1, h1, h1', hr1⟩ := h.token hp
    obtain ⟨r, hr, h2⟩ := hr1.uncons
    obtain ⟨b, e, hb⟩ := piece_one (p := []) (by simp) (by simp) hw
    obtain ⟨q, hq, hq'⟩ := token_body hw hr.ends hb
    refine ⟨q, r, nextKey_param hk h1 hp hm hs hv hx ?_, hq', hr⟩
    rw [List.nil_append] at e
    have : skipBl (piece (61 :: w) ++ r) = 61 :: (b ++ r) := by
      rw [e]; exact (skip32 _).trans (skipBl_eq _)
    rw [← hq]; simp only [skipEq, h1', h2, this]

/-! the loop -/

theorem cutAt_len (p : UInt8 → Bool) (s : Str) : (cutAt p s).2.length + (cutAt p s).1.length ≤ s.length := by
  unfold cutAt
  have := congrArg List.length (List.takeWhile_append_dropWhile (p := fun c => !p c) (l := s))
  simp only [List.length_append] at this
  simp only [List.length_tail]; omega

theorem skipBl_len (s : Str) : (skipBl s).length ≤ s.length := (List.dropWhile_suffix _).length_le

theorem nextToken_len (s : Str) : (nextToken s).2.length + (nextToken s).1.length ≤ s.length := by
  have := skipBl_len s
  unfold nextToken
  split
  · simp
  · next c t e =>
    rw [e] at this
    split
    · exact (cutAt_len _ _).trans this
    · have h := cutAt_len stopQuoted t
      simp only [List.length_cons] at this; omega

theorem skipEq_len (s : Str) : (skipEq s).length ≤ s.length := by
  have := skipBl_len s
  unfold skipEq
  split
  · next t e => rw [e] at this; simp at this; omega
  · exact this

theorem nextKey_len {ks : List (Str × Int)} {s : Str} (h : (nextKey ks s).1.1 ≠ -1) : (nextKey ks s).2.length < s.length := by
  have ht := nextToken_len s
  revert h
  unfold nextKey
  generalize nextToken s = tr at ht ⊢
  obtain ⟨t, r⟩ := tr
  dsimp only at ht ⊢
  by_cases e : t = []
  · simp [e]
  · rw [if_neg e]
    have h0 : 0 < t.length := List.length_pos_iff.mpr e
    split
    · intro _; dsimp only; omega
    · split
      · intro _
        dsimp only
        have h1 := nextToken_len (skipEq r)
        have h2 := skipEq_len r
        omega
      · intro _; dsimp only; omega

/-- the loop comes to its end -/
theorem params_total (ks : List (Str × Int)) : ∀ (n : Nat) (s : Str), s.length < n → ∃ l, params ks n s = .ok l
  | 0, s, h => by omega
  | n + 1, s, h => by
    unfold params
    by_cases e : (nextKey ks s).1.1 = -1
    · exact ⟨[], by simp [e]⟩
    · obtain ⟨l, hl⟩ := params_total ks n (nextKey ks s).2 (by have := nextKey_len e; omega)
      exact ⟨(nextKey ks s).1 :: l, by simp [e, hl]⟩

theorem params_mono {ks : List (Str × Int)} : ∀ (n m : Nat) (s : Str) {l : List Param}, params ks n s = .ok l → n ≤ m → params ks m s = .ok l
  | 0, _, _, _, h, _ => by simp [params] at h
  | n + 1, 0, _, _, _, hm => by omega
  | n + 1, m + 1, s, l, h, hm => by
    unfold params at h ⊢
    by_cases e : (nextKey ks s).1.1 = -1
    · simpa [e] using h
    · simp only [e, if_false] at h ⊢
      cases hl : params ks n (nextKey ks s).2 with
      | ub => rw [hl] at h; simp at h
      | ok l' => rw [params_mono n m _ hl (by omega)]; rw [hl] at h; exact h

theorem params_cons {ks : List (Str × Int)} {s q r : Str} {p : Param} {l : List Param} {n : Nat} (hp : nextKey ks s = (p, q)) (h1 : p.1 ≠ -1) (hq : skipBl q = skipBl r)
    (h : params ks n r = .ok l) : params ks (n + 1) s = .ok (p :: l) := by
  simp [params, hp, h1, params_congr hq, h]

theorem params_nil (ks : List (Str × Int)) : params ks 1 [] = .ok [] := rfl

/-- the parameters of arguments that mean `r` -/
theorem params_means {ks : List (Str × Int)} (hk : Names ks) {a : List Str} {r : List Param} (h : Means ks a r) : ∀ {s : Str}, Shown a s → ∃ n, params ks n s = .ok r := by
  induction h with
  | nil =>
    intro s hs
    exact ⟨1, by rw [params_congr (t := []) hs.nil_skip]; rfl⟩
  | other hw hn _ ih =>
    intro s hs
    obtain ⟨q, r, hq, hq', hr⟩ := hs.token hw
    obtain ⟨n, ih⟩ := ih hr
    exact ⟨n + 1, params_cons (nextKey_other hq hw hn) (by simp) hq' ih⟩
  | keyword hw h32 hm hs hv _ ih =>
    intro s h
    obtain ⟨q, r, hq, hq', hr⟩ := h.token hw
    obtain ⟨n, ih⟩ := ih hr
    refine ⟨n + 1, params_cons (nextKey_word hk hq hw hm hs hv) ?_ hq' ih⟩
    have := hk.1 _ hm; dsimp only at this ⊢; omega
  | param hw h32 hm hs hv hx hl _ ih =>
    intro s h
    obtain ⟨q, r, hq, hq', hr⟩ := key_assign hk hw h32 hm hs hv hx hl h
    obtain ⟨n, ih⟩ := ih hr
    exact ⟨n + 1, params_cons hq (by dsimp only; omega) hq' ih⟩

theorem params_full {ks : List (Str × Int)} (hk : Names ks) {a : List Str} {r : List Param} (h : Means ks a r) {s : Str} (hs : Shown a s) :
    params ks (s.length + 1) s = .ok r := by
  obtain ⟨n, hn⟩ := params_means hk h hs
  obtain ⟨l, hl⟩ := params_total ks (s.length + 1) s (by omega)
  have h1 := params_mono _ (max n (s.length + 1)) _ hn (le_max_left _ _)
  have h2 := params_mono _ (max n (s.length + 1)) _ hl (le_max_right _ _)
  rw [h1] at h2
  cases h2
  exact hl

/-! parameter files -/

theorem dropWhile_nil {p : UInt8 → Bool} {s : Str} (h : ∀ c ∈ s, p c = true) : s.dropWhile p = [] := by
  have := List.dropWhile_append_of_pos (l₂ := []) h
  simpa using this

theorem expandFiles_plain (fs : Str → Option (List Str)) (n : Nat) {s : Str} (h : 64 ∉ s) : expandFiles fs (n + 1) s = .ok (true, s) := by
  unfold expandFiles
  rw [dropWhile_nil]
  intro c hc; simp; rintro rfl; contradiction

theorem expandFiles_pre {fs : Str → Option (List Str)} {n : Nat} {u s d : Str} {b : Bool} (hu : 64 ∉ u) (h : expandFiles fs n s = .ok (b, d)) :
    expandFiles fs n (u ++ s) = .ok (b, u ++ d) := by
  have hp : ∀ c ∈ u, (decide (c ≠ 64)) = true := by intro c hc; simp; rintro rfl; contradiction
  cases n with
  | zero => simp [expandFiles] at h
  | succ n =>
    unfold expandFiles at h ⊢
    rw [List.dropWhile_append_of_pos hp, List.takeWhile_append_of_pos hp]
    split at h
    · cases h; rfl
    · next c t e =>
      dsimp only at h ⊢
      split at h
      · next e1 => cases h; rw [if_pos e1]
      · next e1 =>
        rw [if_neg e1]
        generalize (if List.head? t = some 34 then t.tail else t) = t1 at h ⊢
        generalize (if List.head? t = some 34 then (34 : UInt8) else 32) = brk at h ⊢
        cases hr : expandFiles fs n (if List.head? (List.dropWhile (fun x => decide (x ≠ brk)) t1) = some 34 then (List.dropWhile (fun x => decide (x ≠ brk)) t1).tail else List.dropWhile (fun x => decide (x ≠ brk)) t1) with
        | ub => rw [hr] at h; simp at h
        | ok x =>
          rw [hr] at h
          simp only [Res.bind_ok, Res.pure_eq] at h ⊢
          cases h; simp

/-- a parameter file -/
theorem expandFiles_file {fs : Str → Option (List Str)} {n : Nat} {f r d t : Str} {b b' : Bool} (h0 : f ≠ []) (h34 : 34 ∉ f) (h61 : 32 ∈ f → 61 ∉ f)
    (hf : fileText fs f = (b, t)) (hr : Ends r) (h : expandFiles fs n r = .ok (b', d)) : expandFiles fs (n + 1) (piece (64 :: f) ++ r) = .ok (b && b', 32 :: (t ++ d)) := by
  have key : ∀ (brk : UInt8) (u : Str), brk ∉ f → (u.head? ≠ some 34) → List.takeWhile (fun x => decide (x ≠ brk)) (f ++ brk :: u) = f ∧ List.dropWhile (fun x => decide (x ≠ brk)) (f ++ brk :: u) = brk :: u := by
    intro brk u hb _
    have hp : ∀ c ∈ f, (decide (c ≠ brk)) = true := by intro c hc; simp; rintro rfl; contradiction
    rw [List.takeWhile_append_of_pos hp, List.dropWhile_append_of_pos hp]; simp
  by_cases h32 : 32 ∈ f
  · have e : piece (64 :: f) = 32 :: 64 :: 34 :: (f ++ [34]) := by
      unfold piece
      rw [if_neg (by simp), if_neg (by simp [h32]), if_pos (by simp [h61 h32]), if_neg (by simp)]; simp
    have hp : ∀ c ∈ f, (decide (c ≠ 34)) = true := by intro c hc; simp; rintro rfl; contradiction
    rw [e]
    unfold expandFiles
    simp only [List.cons_append, List.append_assoc, List.nil_append]
    simp [List.takeWhile_append_of_pos, List.dropWhile_append_of_pos, hp, hf, h]
    rw [List.takeWhile_append_of_pos (by simpa using hp), List.dropWhile_append_of_pos (by simpa using hp)]
    simp [hf, h]
  · have e : piece (64 :: f) = 32 :: 64 :: f := by
      unfold piece
      rw [if_neg (by simp), if_pos (by simp [h32])]
    have hp : ∀ c ∈ f, (decide (c ≠ 32)) = true := by intro c hc; simp; rintro rfl; contradiction
    have hh : (f ++ r).head? ≠ some 34 := by
      cases f with
      | nil => simp at h0
      | cons c u => simp; rintro rfl; simp at h34
    rw [e]
    have e2 : List.takeWhile (fun x => decide (x ≠ 32)) (f ++ r) = f := by
      rw [List.takeWhile_append_of_pos hp]; rcases hr with rfl | ⟨u, rfl⟩ <;> simp
    have e3 : List.dropWhile (fun x => decide (x ≠ 32)) (f ++ r) = r := by
      rw [List.dropWhile_append_of_pos hp]; rcases hr with rfl | ⟨u, rfl⟩ <;> simp
    have e4 : r.head? ≠ some 34 := by rcases hr with rfl | ⟨u, rfl⟩ <;> simp
    have e5 : List.dropWhile (fun x => decide (x ≠ 64)) (32 :: 64 :: f ++ r) = 64 :: (f ++ r) := by simp
    have e6 : List.takeWhile (fun x => decide (x ≠ 64)) (32 :: 64 :: f ++ r) = [32] := by simp
    unfold expandFiles
    rw [e5, e6]
    dsimp only
    rw [if_neg (by simp [h0]), if_neg hh, if_neg hh, e2, e3, if_neg e4, hf, h]
    simp

theorem Ext_iff (f : Str) : hasExt f = true ↔ ∃ a b, f = a ++ 46 :: b ∧ 46 ∉ b ∧ 47 ∉ b := by
  unfold hasExt
  rw [decide_eq_true_eq, List.find?_eq_some_iff_append]
  constructor
  · rintro ⟨_, as, bs, h, hn⟩
    refine ⟨bs.reverse, as.reverse, ?_, ?_, ?_⟩
    · have := congrArg List.reverse h
      simpa using this
    · intro hm; simpa using hn 46 (by simpa using hm)
    · intro hm; simpa using hn 47 (by simpa using hm)
  · rintro ⟨a, b, rfl, h1, h2⟩
    refine ⟨by simp, b.reverse, a.reverse, by simp, ?_⟩
    intro c hc
    have hc : c ∈ b := by simpa using hc
    simp only [Bool.not_eq_true', Bool.or_eq_false_iff, decide_eq_false_iff_not]
    exact ⟨by rintro rfl; contradiction, by rintro rfl; contradiction⟩

theorem fileName_eq {f n : Str} (h : FileName f n) : (if hasExt f then f else f ++ txt) = n := by
  rcases h with ⟨rfl, h⟩ | ⟨rfl, h⟩
  · rw [if_pos ((Ext_iff _).mpr h)]
  · rw [if_neg (fun e => h ((Ext_iff _).mp e))]; rfl

theorem splitAux_word : ∀ (u w r : Str), 32 ∉ u → splitAux w (u ++ r) = splitAux (w ++ u) r
  | [], w, r, _ => by simp
  | c :: u, w, r, h => by
    have hc : c ≠ 32 := by rintro rfl; simp at h
    have := splitAux_word u (w ++ [c]) r (by intro hm; exact h (by simp [hm]))
    simpa [splitAux, hc] using this

theorem splitSp_words : ∀ (us : List Str) (w : Str), w ≠ [] → 32 ∉ w → (∀ x ∈ us, x ≠ [] ∧ 32 ∉ x) → splitSp (w ++ us.flatMap fun u => 32 :: u) = w :: us
  | [], w, h0, h, _ => by
    have := splitAux_word w [] [] h
    unfold splitSp
    rw [List.flatMap_nil, this]; simp [splitAux, h0]
  | x :: us, w, h0, h, hu => by
    have := splitAux_word w [] ((x :: us).flatMap fun u => 32 :: u) h
    have ih := splitSp_words us x (hu x (by simp)).1 (hu x (by simp)).2 (fun y hy => hu y (by simp [hy]))
    unfold splitSp at ih ⊢
    rw [this]
    simp only [List.flatMap_cons, List.cons_append, splitAux, List.nil_append, if_true]
    rw [ih]

theorem splitSp_comment (s : Str) : ∃ w ws, splitSp (42 :: s) = (42 :: w) :: ws := by
  have : ∀ (s w : Str), w ≠ [] → ∃ u ws, splitAux w s = (w ++ u) :: ws := by
    intro s
    induction s with
    | nil => intro w hw; exact ⟨[], [], by simp [splitAux, hw]⟩
    | cons c t ih =>
      intro w hw
      by_cases hc : c = 32
      · exact ⟨[], splitAux [] t, by simp [splitAux, hc]⟩
      · obtain ⟨u, ws, h⟩ := ih (w ++ [c]) (by simp)
        exact ⟨c :: u, ws, by simp [splitAux, hc, h]⟩
  obtain ⟨u, ws, h⟩ := this s [42] (by simp)
  exact ⟨u, ws, by simpa [splitSp, splitAux] using h⟩

theorem piece_bare {w : Str} (h0 : w ≠ []) (h : 32 ∉ w) : piece w = 32 :: w := by unfold piece; rw [if_neg h0, if_pos h]

theorem flatMap_piece : ∀ (us : List Str), (∀ x ∈ us, x ≠ [] ∧ 32 ∉ x) → us.flatMap (fun u => 32 :: u) = expandArgs us
  | [], _ => rfl
  | u :: us, h => by
    rw [expandArgs_cons, piece_bare (h u (by simp)).1 (h u (by simp)).2, List.flatMap_cons, flatMap_piece us (fun x hx => h x (by simp [hx]))]

/-- the text of the lines of a parameter file, and no error -/
theorem lines_text {ls ws : List Str} (h : Lines ls ws) : ls.flatMap lineText = expandArgs ws ∧ ls.any badLine = false ∧ ∀ w ∈ ws, 64 ∉ w := by
  induction h with
  | nil => exact ⟨rfl, rfl, by simp⟩
  | blank h ih => exact ⟨ih.1, by simpa [badLine, splitSp, splitAux] using ih.2.1, ih.2.2⟩
  | @comment l ls ws h ih =>
    obtain ⟨w, us, e⟩ := splitSp_comment l
    refine ⟨?_, ?_, ih.2.2⟩
    · rw [List.flatMap_cons, ih.1]; simp [lineText, e]
    · rw [List.any_cons, ih.2.1]; simp [badLine, e]
  | @words l ls w ws us hw h42 hl h ih =>
    subst hl
    have hw' : ∀ x ∈ w :: us, x ≠ [] ∧ 32 ∉ x := fun x hx => ⟨(hw x hx).1, (hw x hx).2.1⟩
    have e := splitSp_words us w (hw w (by simp)).1 (hw w (by simp)).2.1 (fun x hx => hw' x (by simp [hx]))
    have htw : (w :: us).takeWhile (· ≠ []) = w :: us := by
      have := List.takeWhile_append_of_pos (p := fun x : Str => decide (x ≠ [])) (l₁ := w :: us) (l₂ := []) (fun x hx => by simpa using (hw' x hx).1)
      simpa using this
    refine ⟨?_, ?_, ?_⟩
    · rw [List.flatMap_cons, ih.1, expandArgs_append, lineText, e]
      dsimp only
      rw [if_neg (by simp [(hw w (by simp)).1, h42]), htw, flatMap_piece _ hw']
    · rw [List.any_cons, ih.2.1, badLine, e]
      have := hw _ (List.getLast_mem (l := w :: us) (by simp))
      simp only [Bool.or_false, Bool.and_eq_false_iff, decide_eq_false_iff_not]
      right; omega
    · intro x hx
      rcases List.mem_append.mp hx with hx | hx
      · exact (hw x hx).2.2.1
      · exact ih.2.2 x hx

theorem piece_at {w : Str} (h : 64 ∉ w) : 64 ∉ piece w := by
  unfold piece
  split
  · simp
  · split
    · simp [h]
    · split
      · split
        · simp [h]
        · next h' =>
          exfalso; apply h
          cases w with
          | nil => simp at h'
          | cons c t => simp at h'; simp [h']
      · have h1 : 64 ∉ w.takeWhile (· ≠ 61) := fun hm => h ((List.takeWhile_prefix _).subset hm)
        have h2 : 64 ∉ (w.dropWhile (· ≠ 61)).tail := fun hm => h ((List.dropWhile_suffix _).subset ((List.tail_suffix _).subset hm))
        simp only [List.mem_cons, List.mem_append, not_or]
        exact ⟨by decide, h1, by decide, by decide, by decide, h2, by decide, by simp⟩

/-- the string with the words of the parameter files -/
theorem expand_args {fs : Str → Option (List Str)} {a b : List Str} (h : Expand fs a b) : ∃ n s, expandFiles fs n (expandArgs a) = .ok (true, s) ∧ Shown b s := by
  induction h with
  | nil => exact ⟨1, [], rfl, .nil⟩
  | empty _ ih => exact ih
  | plain _ h64 _ ih =>
    obtain ⟨n, s, h, hs⟩ := ih
    exact ⟨n, _, expandFiles_pre (piece_at h64) h, .cons hs⟩
  | @file f n ls ws a b h0 h34 h61 hn hf hl _ ih =>
    obtain ⟨m, s, h, hs⟩ := ih
    obtain ⟨h1, h2, _⟩ := lines_text hl
    have ht : fileText fs f = (true, expandArgs ws) := by
      simp [fileText, fileName_eq hn, hf, h1, h2]
    exact ⟨m + 1, _, expandFiles_file h0 h34 h61 ht (expandArgs_ends a) h, .blank ((shown_args ws).append hs)⟩

theorem expandFiles_total (fs : Str → Option (List Str)) : ∀ (n : Nat) (s : Str), s.length < n → ∃ x, expandFiles fs n s = .ok x
  | 0, s, h => by omega
  | n + 1, s, h => by
    unfold expandFiles
    split
    · exact ⟨_, rfl⟩
    · next c t e =>
      have hl : (c :: t).length ≤ s.length := e ▸ (List.dropWhile_suffix _).length_le
      split
      · exact ⟨_, rfl⟩
      · dsimp only
        generalize ht : (if List.head? t = some 34 then t.tail else t) = t1
        have h1 : t1.length ≤ t.length := by rw [← ht]; split <;> simp
        generalize (if List.head? t = some 34 then (34 : UInt8) else 32) = brk
        have h2 : (List.dropWhile (fun x => decide (x ≠ brk)) t1).length ≤ t1.length := (List.dropWhile_suffix _).length_le
        generalize hr : (if List.head? (List.dropWhile (fun x => decide (x ≠ brk)) t1) = some 34 then (List.dropWhile (fun x => decide (x ≠ brk)) t1).tail else List.dropWhile (fun x => decide (x ≠ brk)) t1) = r
        have h3 : r.length ≤ (List.dropWhile (fun x => decide (x ≠ brk)) t1).length := by rw [← hr]; split <;> simp
        simp only [List.length_cons] at hl
        obtain ⟨x, hx⟩ := expandFiles_total fs n r (by omega)
        rw [hx]; exact ⟨_, rfl⟩

theorem expandFiles_mono {fs : Str → Option (List Str)} : ∀ (n m : Nat) (s : Str) {x : Bool × Str}, expandFiles fs n s = .ok x → n ≤ m → expandFiles fs m s = .ok x
  | 0, _, _, _, h, _ => by simp [expandFiles] at h
  | n + 1, 0, _, _, _, hm => by omega
  | n + 1, m + 1, s, x, h, hm => by
    unfold expandFiles at h ⊢
    split at h
    · exact h
    · next c t _ =>
      split at h
      · next e => rw [if_pos e]; exact h
      · next e =>
        rw [if_neg e]
        dsimp only at h ⊢
        generalize (if List.head? t = some 34 then t.tail else t) = t1 at h ⊢
        generalize (if List.head? t = some 34 then (34 : UInt8) else 32) = brk at h ⊢
        generalize (if List.head? (List.dropWhile (fun x => decide (x ≠ brk)) t1) = some 34 then (List.dropWhile (fun x => decide (x ≠ brk)) t1).tail else List.dropWhile (fun x => decide (x ≠ brk)) t1) = r at h ⊢
        cases hr : expandFiles fs n r with
        | ub => rw [hr] at h; simp at h
        | ok y => rw [hr] at h; rw [expandFiles_mono n m r hr (by omega)]; exact h

theorem expand_full {fs : Str → Option (List Str)} {a b : List Str} (h : Expand fs a b) :
    ∃ s, expandFiles fs ((expandArgs a).length + 1) (expandArgs a) = .ok (true, s) ∧ Shown b s := by
  obtain ⟨n, s, h1, hs⟩ := expand_args h
  obtain ⟨x, hx⟩ := expandFiles_total fs ((expandArgs a).length + 1) (expandArgs a) (by omega)
  have h2 := expandFiles_mono _ (max n ((expandArgs a).length + 1)) _ h1 (le_max_left _ _)
  have h3 := expandFiles_mono _ (max n ((expandArgs a).length + 1)) _ hx (le_max_right _ _)
  rw [h2] at h3
  cases h3
  exact ⟨s, hx, hs⟩

theorem markInput_input (r : List Param) : Input r (markInput r) := by
  unfold markInput
  by_cases h : (r.any fun p => p.1 = 0) = true
  · rw [if_pos h]
    rw [List.any_eq_true] at h
    obtain ⟨⟨k, s⟩, hm, hk⟩ := h
    simp at hk; subst hk
    exact .given hm
  · rw [if_neg h]
    split
    · next k s t =>
      split
      · next e =>
        subst e
        refine .first ?_
        intro p hp hz
        exact h (List.any_eq_true.mpr ⟨p, by simp [hp], by simpa using hz⟩)
      · next e => exact .other (by rintro s t h; simp at h; exact e h.1.1)
    · exact .other (by simp)

theorem crack_total (ks : List (Str × Int)) (fs : Str → Option (List Str)) (args : List Str) : ∃ x, crack ks fs args = .ok x := by
  unfold crack
  obtain ⟨⟨b, s⟩, h⟩ := expandFiles_total fs ((expandArgs args).length + 1) (expandArgs args) (by omega)
  obtain ⟨l, hl⟩ := params_total ks (s.length + 1) s (by omega)
  exact ⟨(b, markInput l), by simp [h, hl]⟩

theorem crack_means {ks : List (Str × Int)} {fs : Str → Option (List Str)} {args a : List Str} {r : List Param} (hk : Names ks) (he : Expand fs args a) (hr : Means ks a r) :
    crack ks fs args = .ok (true, markInput r) := by
  obtain ⟨s, h, hs⟩ := expand_full he
  simp [crack, h, params_full hk hr hs]

end Gdx.CmdPar
