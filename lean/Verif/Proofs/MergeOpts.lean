import Verif.Proofs.DiffOpts
import Verif.Proofs.MergeNames
import Verif.Props.ValInt
import Verif.Props.Strings
import Verif.Spec.MergeOpts

/-! Lemmas on the options of gdxmerge. -/

namespace Gdx.MergeOpts
open Gdx CmdLine CmdPar Spec
open Gdx.DiffOpts (str Last IdIn InName split trim isSep isWs White uEqual trimmed_trim)

/-! ### identifiers -/

/-- the identifiers in a value -/
def idents (s : Str) : List Str := ((split s).map trim).filter (· ≠ [])

theorem idents_cons {c : UInt8} (h : isWs c = true) (s : Str) : idents (c :: s) = idents s := by
  unfold idents split
  rw [List.splitOnP_cons_eq_if_modifyHead]
  split
  · simp [DiffOpts.trim_nil]
  · cases e : s.splitOnP (fun c => c == 44 || c == 32) with
    | nil => exact absurd e (List.splitOnP_ne_nil _ _)
    | cons p ps => simp [DiffOpts.trim_cons h]

theorem idents_snoc {c : UInt8} (h : isWs c = true) (s : Str) : idents (s ++ [c]) = idents s := by
  unfold idents
  cases hc : (c == 44 || c == 32) with
  | true =>
    unfold split
    rw [List.splitOnP_append_cons (p := fun c => c == 44 || c == 32) s [] hc]
    simp [DiffOpts.trim_nil]
  | false =>
    obtain ⟨i, l, h1, h2⟩ := DiffOpts.split_snoc hc s
    rw [h1, h2]
    simp [DiffOpts.trim_snoc h]

theorem idents_drop : ∀ s : Str, idents (s.dropWhile isWs) = idents s
  | [] => rfl
  | c :: s => by
    by_cases h : isWs c = true
    · rw [List.dropWhile_cons_of_pos h, idents_drop s, idents_cons h]
    · rw [List.dropWhile_cons_of_neg h]

theorem idents_dropRight : ∀ s : Str, idents (s.dropWhile isWs).reverse = idents s.reverse
  | [] => rfl
  | c :: s => by
    by_cases h : isWs c = true
    · rw [List.dropWhile_cons_of_pos h, idents_dropRight s, List.reverse_cons, idents_snoc h]
    · rw [List.dropWhile_cons_of_neg h]

theorem idents_trim (s : Str) : idents (trim s) = idents s := by
  unfold trim
  rw [idents_dropRight, List.reverse_reverse, idents_drop]

theorem idParse_eq : ∀ (n : Nat) (s : Str), s.length < n → idParse n s = .ok (idents s)
  | 0, s, h => by omega
  | n + 1, s, h => by
    unfold idParse
    by_cases hs : s = []
    · subst hs; simp [idents, split, DiffOpts.trim_nil]
    · rw [if_neg hs]
      have hp : 0 < s.length := List.length_pos_iff.mpr hs
      have happ := List.takeWhile_append_dropWhile (p := fun c => !isSep c) (l := s)
      have htw : ∀ c ∈ s.takeWhile (fun c => !isSep c), (c == 44 || c == 32) = false := by
        intro c hc
        rw [DiffOpts.isSep_eq]
        simpa using DiffOpts.mem_tw hc
      cases e : s.dropWhile fun c => !isSep c with
      | nil =>
        rw [e, List.append_nil] at happ
        have : split s = [s] := by
          unfold split
          exact List.splitOnP_eq_singleton (by rwa [happ] at htw)
        have h2 : idents s = if trim s = [] then [] else [trim s] := by
          unfold idents
          rw [this]
          by_cases ht : trim s = [] <;> simp [ht]
        simp only [idParse_eq n [] (by simp; omega), Res.bind_ok, h2]
        simp [idents, split, DiffOpts.trim_nil]
      | cons c r =>
        have hc : (c == 44 || c == 32) = true := by
          rw [DiffOpts.isSep_eq]
          have := List.head?_dropWhile_not (fun c => !isSep c) s
          rw [e] at this; simpa using this
        rw [e] at happ
        have hl : r.length < s.length := by
          have := congrArg List.length happ; simp at this; omega
        have := DiffOpts.trim_len r
        have e2 : split s = s.takeWhile (fun c => !isSep c) :: split r := by
          unfold split
          conv_lhs => rw [← happ]
          exact List.splitOnP_append_cons_of_forall_mem htw c hc r
        have h2 : idents s = if trim (s.takeWhile fun c => !isSep c) = [] then idents r else trim (s.takeWhile fun c => !isSep c) :: idents r := by
          unfold idents
          rw [e2]
          by_cases ht : trim (s.takeWhile fun c => !isSep c) = [] <;> simp [ht]
        simp only [idParse_eq n (trim r) (by omega), Res.bind_ok, idents_trim, h2]
        rfl

/-- the identifiers in the values of a parameter -/
def allIdents (l : List Param) (v : Int) : List Str := (l.filter fun p => p.1 = v).flatMap fun p => idents p.2

theorem mem_allIdents (l : List Param) (v : Int) (x : Str) : x ∈ allIdents l v ↔ IdIn l v x := by
  simp only [allIdents, idents, List.mem_flatMap, List.mem_filter, List.mem_map, decide_eq_true_eq]
  constructor
  · rintro ⟨⟨v', s⟩, ⟨hp, rfl⟩, ⟨m, hm, rfl⟩, h0⟩
    exact ⟨s, m, hp, hm, trimmed_trim m, h0⟩
  · rintro ⟨s, m, hp, hm, ht, h0⟩
    exact ⟨(v, s), ⟨hp, rfl⟩, ⟨m, hm, (ht.eq h0).symm⟩, h0⟩

/-! ### the loop over the parameters -/

/-- the values of a parameter -/
def valuesOf (l : List Param) (v : Int) : List Str := (l.filter fun p => p.1 = v).map Prod.snd

def outs (c : Conf) (l : List Param) : List Str := (if c.out = [] then [] else [c.out]) ++ valuesOf l 5

/-- parameters for which the result is described: the value of `big` is a number, names of the output file are not empty -/
structure Plain (l : List Param) : Prop where
  key : ∀ p ∈ l, p.1 = 0 ∨ p.1 = -2 ∨ (1 ≤ p.1 ∧ p.1 ≤ 5)
  big : ∀ s, (3, s) ∈ l → ∃ v, s ≠ [] ∧ ValInt.valI s = .ok (v, 0)
  out : ∀ s, (5, s) ∈ l → s ≠ []

theorem Plain.tail {p : Param} {l : List Param} (h : Plain (p :: l)) : Plain l :=
  ⟨fun q hq => h.key q (by simp [hq]), fun s hs => h.big s (by simp [hs]), fun s hs => h.out s (by simp [hs])⟩

/-- what the loop does to the options -/
structure Stepped (c c' : Conf) (l : List Param) (b : Bool) : Prop where
  incl : c'.incl = c.incl ++ allIdents l 1
  excl : c'.excl = c.excl ++ allIdents l 2
  big : (¬ DiffOpts.Given l 3 ∧ c'.big = c.big) ∨ ∃ s v, Last l 3 s ∧ ValInt.valI s = .ok (v, 0) ∧ c'.big = some v
  strict : c'.strict = true ↔ c.strict = true ∨ ∃ s, (4, s) ∈ l ∧ SameNoCase s (str "true")
  out : c'.out = (outs c l).head?.getD []
  ok : b = true ↔ (outs c l).length ≤ 1
  pats : c'.pats = c.pats ++ words l

theorem steps_ok : ∀ (l : List Param) (c : Conf), Plain l → ∃ c' b, steps c l = .ok (c', b) ∧ Stepped c c' l b
  | [], c, _ => by
    refine ⟨c, true, rfl, ?_⟩
    constructor
    · simp [allIdents]
    · simp [allIdents]
    · exact .inl ⟨by rintro ⟨s, hs⟩; simp at hs, rfl⟩
    · simp
    · by_cases h : c.out = [] <;> simp [outs, valuesOf, h]
    · by_cases h : c.out = [] <;> simp [outs, valuesOf, h]
    · simp [words]
  | (k, s) :: l, c, h => by
    have hk := h.key (k, s) (by simp)
    have ih := fun c => steps_ok l c h.tail
    have notbig : k ≠ 3 → ∀ {c1 c' : Conf}, c1.big = c.big → ((¬ DiffOpts.Given l 3 ∧ c'.big = c1.big) ∨ ∃ s v, Last l 3 s ∧ ValInt.valI s = .ok (v, 0) ∧ c'.big = some v) →
        ((¬ DiffOpts.Given ((k, s) :: l) 3 ∧ c'.big = c.big) ∨ ∃ t v, Last ((k, s) :: l) 3 t ∧ ValInt.valI t = .ok (v, 0) ∧ c'.big = some v) := by
      rintro hk3 c1 c' e (⟨h1, h2⟩ | ⟨t, v, ⟨a, b, h1, h2⟩, h3, h4⟩)
      · refine .inl ⟨?_, by rw [h2, e]⟩
        rintro ⟨t, ht⟩
        rcases List.mem_cons.mp ht with ht | ht
        · exact hk3 (congrArg Prod.fst ht).symm
        · exact h1 ⟨t, ht⟩
      · exact .inr ⟨t, v, ⟨(k, s) :: a, b, by rw [h1]; rfl, h2⟩, h3, h4⟩
    have notstrict : k ≠ 4 → ((∃ t, (4, t) ∈ (k, s) :: l ∧ SameNoCase t (str "true")) ↔ ∃ t, (4, t) ∈ l ∧ SameNoCase t (str "true")) := by
      intro hk4
      constructor
      · rintro ⟨t, ht, h⟩
        rcases List.mem_cons.mp ht with ht | ht
        · exact absurd (congrArg Prod.fst ht).symm hk4
        · exact ⟨t, ht, h⟩
      · rintro ⟨t, ht, h⟩; exact ⟨t, by simp [ht], h⟩
    have other : ∀ v, k ≠ v → allIdents ((k, s) :: l) v = allIdents l v ∧ valuesOf ((k, s) :: l) v = valuesOf l v := by
      intro v hv; simp [allIdents, valuesOf, hv]
    have word : k ≠ 0 → k ≠ -2 → words ((k, s) :: l) = words l := by intro h1 h2; simp [words, h1, h2]
    have hor : k = 1 ∨ k = 2 ∨ k = 3 ∨ k = 4 ∨ k = 5 ∨ (k = 0 ∨ k = -2) := by dsimp only at hk; omega
    rcases hor with rfl | rfl | rfl | rfl | rfl | hw
    · obtain ⟨c', b, h1, h2⟩ := ih { c with incl := c.incl ++ idents s }
      refine ⟨c', b, ?_, ?_⟩
      · unfold steps step
        simp [idParse_eq _ _ (Nat.lt_succ_self _), h1]
      · refine ⟨?_, ?_, notbig (by decide) rfl h2.big, ?_, ?_, ?_, ?_⟩
        · rw [h2.incl]; simp [allIdents]
        · rw [h2.excl, (other 2 (by decide)).1]
        · rw [h2.strict, notstrict (by decide)]
        · rw [h2.out]; unfold outs; rw [(other 5 (by decide)).2]
        · rw [h2.ok]; unfold outs; rw [(other 5 (by decide)).2]
        · rw [h2.pats, word (by decide) (by decide)]
    · obtain ⟨c', b, h1, h2⟩ := ih { c with excl := c.excl ++ idents s }
      refine ⟨c', b, ?_, ?_⟩
      · unfold steps step
        simp [idParse_eq _ _ (Nat.lt_succ_self _), h1]
      · refine ⟨?_, ?_, notbig (by decide) rfl h2.big, ?_, ?_, ?_, ?_⟩
        · rw [h2.incl, (other 1 (by decide)).1]
        · rw [h2.excl]; simp [allIdents]
        · rw [h2.strict, notstrict (by decide)]
        · rw [h2.out]; unfold outs; rw [(other 5 (by decide)).2]
        · rw [h2.ok]; unfold outs; rw [(other 5 (by decide)).2]
        · rw [h2.pats, word (by decide) (by decide)]
    · obtain ⟨v, hs, hv⟩ := h.big s (by simp)
      obtain ⟨c', b, h1, h2⟩ := ih { c with big := some v }
      refine ⟨c', b, ?_, ?_⟩
      · unfold steps step
        simp [hs, hv, h1]
      · refine ⟨?_, ?_, ?_, ?_, ?_, ?_, ?_⟩
        · rw [h2.incl, (other 1 (by decide)).1]
        · rw [h2.excl, (other 2 (by decide)).1]
        · right
          rcases h2.big with ⟨h3, h4⟩ | ⟨t, w, ⟨a, b, h5, h6⟩, h3, h4⟩
          · exact ⟨s, v, ⟨[], l, rfl, fun p hp hp' => h3 ⟨p.2, by rw [← hp']; exact hp⟩⟩, hv, h4⟩
          · exact ⟨t, w, ⟨(3, s) :: a, b, by rw [h5]; rfl, h6⟩, h3, h4⟩
        · rw [h2.strict, notstrict (by decide)]
        · rw [h2.out]; unfold outs; rw [(other 5 (by decide)).2]
        · rw [h2.ok]; unfold outs; rw [(other 5 (by decide)).2]
        · rw [h2.pats, word (by decide) (by decide)]
    · obtain ⟨c', b, h1, h2⟩ := ih { c with strict := c.strict || uEqual s (str "true") }
      refine ⟨c', b, ?_, ?_⟩
      · unfold steps step
        simp [h1]
      · refine ⟨?_, ?_, notbig (by decide) rfl h2.big, ?_, ?_, ?_, ?_⟩
        · rw [h2.incl, (other 1 (by decide)).1]
        · rw [h2.excl, (other 2 (by decide)).1]
        · rw [h2.strict]
          simp only [Bool.or_eq_true, DiffOpts.uEqual_iff, or_assoc]
          refine or_congr_right ?_
          constructor
          · rintro (h | ⟨t, ht, h⟩)
            · exact ⟨s, by simp, h⟩
            · exact ⟨t, by simp [ht], h⟩
          · rintro ⟨t, ht, h⟩
            rcases List.mem_cons.mp ht with ht | ht
            · have : t = s := congrArg Prod.snd ht
              exact .inl (this ▸ h)
            · exact .inr ⟨t, ht, h⟩
        · rw [h2.out]; unfold outs; rw [(other 5 (by decide)).2]
        · rw [h2.ok]; unfold outs; rw [(other 5 (by decide)).2]
        · rw [h2.pats, word (by decide) (by decide)]
    · have hs := h.out s (by simp)
      by_cases ho : c.out = []
      · obtain ⟨c', b, h1, h2⟩ := ih { c with out := s }
        have he : outs c ((5, s) :: l) = outs { c with out := s } l := by simp [outs, valuesOf, ho, hs]
        refine ⟨c', b, ?_, ?_⟩
        · unfold steps step
          simp [ho, h1]
        · refine ⟨?_, ?_, notbig (by decide) rfl h2.big, ?_, ?_, ?_, ?_⟩
          · rw [h2.incl, (other 1 (by decide)).1]
          · rw [h2.excl, (other 2 (by decide)).1]
          · rw [h2.strict, notstrict (by decide)]
          · rw [h2.out, he]
          · rw [h2.ok, he]
          · rw [h2.pats, word (by decide) (by decide)]
      · obtain ⟨c', b, h1, h2⟩ := ih c
        refine ⟨c', false, ?_, ?_⟩
        · unfold steps step
          simp [ho, h1]
        · refine ⟨?_, ?_, notbig (by decide) rfl h2.big, ?_, ?_, ?_, ?_⟩
          · rw [h2.incl, (other 1 (by decide)).1]
          · rw [h2.excl, (other 2 (by decide)).1]
          · rw [h2.strict, notstrict (by decide)]
          · rw [h2.out]; simp [outs, ho]
          · simp [outs, valuesOf, ho]
          · rw [h2.pats, word (by decide) (by decide)]
    · have hn : k ≠ 1 ∧ k ≠ 2 ∧ k ≠ 3 ∧ k ≠ 4 ∧ k ≠ 5 := by omega
      obtain ⟨n1, n2, n3, n4, n5⟩ := hn
      obtain ⟨c', b, h1, h2⟩ := ih { c with pats := c.pats ++ [s] }
      refine ⟨c', b, ?_, ?_⟩
      · unfold steps step
        simp [n1, n2, n3, n4, n5, h1]
      · refine ⟨?_, ?_, notbig n3 rfl h2.big, ?_, ?_, ?_, ?_⟩
        · rw [h2.incl, (other 1 n1).1]
        · rw [h2.excl, (other 2 n2).1]
        · rw [h2.strict, notstrict n4]
        · rw [h2.out]; unfold outs; rw [(other 5 n5).2]
        · rw [h2.ok]; unfold outs; rw [(other 5 n5).2]
        · rw [h2.pats]; simp [words, hw]

/-! ### input files -/

theorem pathOf_dir (p : Str) : Dir p (pathOf p) := by
  unfold Dir pathOf
  refine ⟨(p.reverse.takeWhile (· ≠ 47)).reverse, ?_, ?_, ?_⟩
  · rw [← List.reverse_append, List.takeWhile_append_dropWhile, List.reverse_reverse]
  · intro h
    have := DiffOpts.mem_tw (List.mem_reverse.mp h)
    simp at this
  · by_cases h : p.reverse.dropWhile (· ≠ 47) = []
    · left; rw [h]; rfl
    · right
      rw [List.getLast?_reverse]
      have := List.head?_dropWhile_not (p := (· ≠ 47)) p.reverse
      cases e : p.reverse.dropWhile (· ≠ 47) with
      | nil => exact absurd e h
      | cons c t => rw [e] at this; simp at this; simp [this]

theorem Dir.unique {p d d' : Str} (h : Dir p d) (h' : Dir p d') : d = d' := by
  obtain ⟨b, h1, h2, h3⟩ := h
  obtain ⟨b', h1', h2', h3'⟩ := h'
  have key : ∀ {d b d' b' : Str}, d ++ b = d' ++ b' → 47 ∉ b → (d' = [] ∨ d'.getLast? = some 47) → ∃ u, d = d' ++ u := by
    intro d b d' b' e hb hd
    rcases List.append_eq_append_iff.mp e with ⟨u, rfl, rfl⟩ | ⟨u, rfl, rfl⟩
    · rcases u.eq_nil_or_concat with rfl | ⟨v, c, rfl⟩
      · exact ⟨[], by simp⟩
      · exfalso
        rcases hd with hd | hd
        · simp at hd
        · simp at hd; subst hd; simp at hb
    · exact ⟨u, rfl⟩
  have e : d ++ b = d' ++ b' := by rw [← h1, h1']
  obtain ⟨u, hu⟩ := key e h2 h3'
  obtain ⟨w, hw⟩ := key e.symm h2' h3
  have : u = [] := by
    rw [hw, List.append_assoc] at hu
    have := List.self_eq_append_right.mp hu
    simp at this; exact this.2
  rw [hu, this]; simp

theorem noExt_stem {b : Str} (h : 47 ∉ b) : Stem b (noExt b) := by
  unfold noExt
  by_cases e : hasExt b = true
  · rw [if_pos e]
    obtain ⟨x, y, rfl, h1, h2⟩ := (Ext_iff b).mp e
    left
    refine ⟨y, ?_, h1⟩
    have : (x ++ 46 :: y).reverse.dropWhile (· ≠ 46) = 46 :: x.reverse := by
      simp only [List.reverse_append, List.reverse_cons, List.append_assoc, List.cons_append, List.nil_append]
      rw [List.dropWhile_append_of_pos (by
        intro c hc
        have : c ≠ 46 := by rintro rfl; exact h1 (List.mem_reverse.mp hc)
        simpa using this)]
      simp
    rw [this]; simp
  · rw [if_neg e]
    right
    refine ⟨fun hm => e ((Ext_iff b).mpr ?_), rfl⟩
    obtain ⟨x, y, hx⟩ := List.append_of_mem (List.mem_reverse.mpr hm)
    -- the last point
    have hne : b.reverse.dropWhile (· ≠ 46) ≠ [] := by
      intro h0
      have := List.takeWhile_append_dropWhile (p := (· ≠ 46)) (l := b.reverse)
      rw [h0, List.append_nil] at this
      rw [← List.mem_reverse, ← this] at hm
      have := DiffOpts.mem_tw hm
      simp at this
    cases hd : b.reverse.dropWhile (· ≠ 46) with
    | nil => exact absurd hd hne
    | cons c t =>
      have hc : c = 46 := by
        have := List.head?_dropWhile_not (p := (· ≠ 46)) b.reverse
        rw [hd] at this; simpa using this
      have happ := List.takeWhile_append_dropWhile (p := (· ≠ 46)) (l := b.reverse)
      rw [hd, hc] at happ
      have hb : b = t.reverse ++ 46 :: (b.reverse.takeWhile (· ≠ 46)).reverse := by
        have := congrArg List.reverse happ
        rw [List.reverse_reverse] at this
        rw [List.reverse_append, List.reverse_cons, List.append_assoc] at this
        exact this.symm
      refine ⟨_, _, hb, ?_, ?_⟩
      · intro h; have := DiffOpts.mem_tw (List.mem_reverse.mp h); simp at this
      · intro h'; exact h (by rw [hb]; simp at h' ⊢; exact .inr h')

theorem usable_iff (s : Str) : (!goodUEL s || trim s = []) = false ↔ Usable s := by
  have h1 : goodUEL s = true ↔ s.length < 64 ∧ (∀ c ∈ s, 32 ≤ c) ∧ ¬ (39 ∈ s ∧ 34 ∈ s) := by
    unfold goodUEL canBeQuoted
    rw [Bool.and_eq_true, Props.canBeQuotedLoop_iff]
    simp
  have h2 : trim s = [] ↔ ∀ c ∈ s, White c := by
    constructor
    · intro h
      obtain ⟨u, w, h3, h4, h5, _⟩ := trimmed_trim s
      rw [h] at h3
      intro c hc
      rw [h3] at hc
      simp at hc
      exact hc.elim (h4 c) (h5 c)
    · intro h
      unfold trim
      have : s.dropWhile isWs = [] := by
        exact (ValInt.tw_all fun c hc => (DiffOpts.isWs_iff c).mpr (h c hc)).2
      rw [this]; rfl
  rw [Bool.or_eq_false_iff, decide_eq_false_iff_not, Bool.not_eq_false', h1, h2]
  unfold Usable
  push Not
  tauto

theorem digits_decimal : ∀ (fuel n : Nat), n < 10 ^ (fuel + 1) → Decimal (digits (fuel + 1) n) n := by
  have hd : ∀ m : Nat, m < 10 → ValInt.digit (UInt8.ofNat (48 + m)) = some m := by intro m hm; interval_cases m <;> decide
  intro fuel
  induction fuel with
  | zero =>
    intro n hn
    have hn : n < 10 := by simpa using hn
    unfold digits
    rw [if_pos hn]
    refine ⟨(ValInt.numeral_iff _ _ _).mpr ⟨by simp, ?_, ?_⟩, ?_⟩
    · intro c hc; rw [List.mem_singleton.mp hc]; exact (ValInt.isDig_iff _ _).mpr ⟨n, hd n hn, hn⟩
    · rw [ValInt.number, List.foldl_cons, List.foldl_nil, hd n hn]; simp
    · intro h; simp at h; simp [h]
  | succ fuel ih =>
    intro n hn
    by_cases h : n < 10
    · unfold digits
      rw [if_pos h]
      refine ⟨(ValInt.numeral_iff _ _ _).mpr ⟨by simp, ?_, ?_⟩, ?_⟩
      · intro c hc; rw [List.mem_singleton.mp hc]; exact (ValInt.isDig_iff _ _).mpr ⟨n, hd n h, h⟩
      · rw [ValInt.number, List.foldl_cons, List.foldl_nil, hd n h]; simp
      · intro h; simp at h; simp [h]
    · rw [digits, if_neg h]
      obtain ⟨h1, h2⟩ := ih (n / 10) (by rw [pow_succ] at hn; omega)
      obtain ⟨h3, h4, h5⟩ := (ValInt.numeral_iff _ _ _).mp h1
      have hm := hd (n % 10) (Nat.mod_lt _ (by decide))
      refine ⟨(ValInt.numeral_iff _ _ _).mpr ⟨by simp, ?_, ?_⟩, ?_⟩
      · intro c hc
        rcases List.mem_append.mp hc with hc | hc
        · exact h4 c hc
        · rw [List.mem_singleton.mp hc]; exact (ValInt.isDig_iff _ _).mpr ⟨_, hm, Nat.mod_lt _ (by decide)⟩
      · rw [ValInt.number_snoc, ← h5, hm]; simp; omega
      · intro h6
        exfalso
        have h7 : (digits (fuel + 1) (n / 10)).head? = some 48 := by
          cases e : digits (fuel + 1) (n / 10) with
          | nil => exact absurd e h3
          | cons c t => rw [e] at h6; simpa using h6
        rw [h2 h7] at h5
        simp [ValInt.number, show ValInt.digit 48 = some 0 by decide] at h5
        omega

theorem entry_id (sys : Sys) {path x : Str} (hp : path = [] ∨ path.getLast? = some 47) (hx : 47 ∉ x) {n : Nat} (hn : n < 2147483647) :
    IdIs n (entry sys path x n).name (entry sys path x n).id := by
  refine ⟨path, noExt x, x, rfl, hx, hp, noExt_stem hx, ?_⟩
  by_cases h : (!goodUEL (noExt x) || trim (noExt x) = []) = false
  · refine .inl ⟨(usable_iff _).mp h, ?_⟩
    simp [entry, h]
  · refine .inr ⟨fun hu => h ((usable_iff _).mpr hu), digits 20 (n + 1), digits_decimal 19 _ (by omega), ?_⟩
    rw [Bool.not_eq_false] at h
    simp only [entry, h, if_true]
    rw [← Merge.intToStr_nat]; rfl

/-- what is found for the names of one pattern -/
theorem addNames_ok (sys : Sys) (out path : Str) (hp : path = [] ∨ path.getLast? = some 47) : ∀ (xs : List Str) (fs : List Found), (∀ x ∈ xs, 47 ∉ x) →
    fs.length + xs.length < 2147483647 → (∀ n f, fs[n]? = some f → IdIs n f.name f.id) → (∀ f ∈ fs, f.info = sys.date f.name ++ str "  " ++ f.name) →
    ((addNames sys out path xs fs).1.map Found.name = fs.map Found.name ++ (xs.filter fun x => x ≠ str "." ∧ x ≠ str ".." ∧ path ++ x ≠ out).map (path ++ ·)) ∧
    ((addNames sys out path xs fs).2 = false ↔ ∃ x ∈ xs, x ≠ str "." ∧ x ≠ str ".." ∧ out = path ++ x) ∧
    (∀ n f, (addNames sys out path xs fs).1[n]? = some f → IdIs n f.name f.id) ∧ (∀ f ∈ (addNames sys out path xs fs).1, f.info = sys.date f.name ++ str "  " ++ f.name) ∧
    (addNames sys out path xs fs).1.length ≤ fs.length + xs.length
  | [], fs, _, _, h1, h2 => ⟨by simp [addNames], by simp [addNames], h1, h2, by simp [addNames]⟩
  | x :: xs, fs, hx, hl, h1, h2 => by
    have hx' : ∀ y ∈ xs, 47 ∉ y := fun y hy => hx y (by simp [hy])
    simp only [List.length_cons] at hl
    unfold addNames
    by_cases e1 : x = str "." ∨ x = str ".."
    · rw [if_pos e1]
      obtain ⟨a1, a2, a3, a4, a5⟩ := addNames_ok sys out path hp xs fs hx' (by omega) h1 h2
      have hf : decide (x ≠ str "." ∧ x ≠ str ".." ∧ path ++ x ≠ out) = false := by
        rw [decide_eq_false_iff_not]; rintro ⟨g1, g2, _⟩; exact e1.elim g1 g2
      refine ⟨?_, ?_, a3, a4, by simp; omega⟩
      · rw [a1, List.filter_cons, hf]; rfl
      · rw [a2]
        constructor
        · rintro ⟨y, hy, h⟩; exact ⟨y, by simp [hy], h⟩
        · rintro ⟨y, hy, h⟩
          rcases List.mem_cons.mp hy with rfl | hy
          · exact absurd e1 (by rintro (g | g); exacts [h.1 g, h.2.1 g])
          · exact ⟨y, hy, h⟩
    · rw [if_neg e1]
      push Not at e1
      by_cases e2 : out = path ++ x
      · rw [if_pos e2]
        obtain ⟨a1, a2, a3, a4, a5⟩ := addNames_ok sys out path hp xs fs hx' (by omega) h1 h2
        have hf : decide (x ≠ str "." ∧ x ≠ str ".." ∧ path ++ x ≠ out) = false := by
          rw [decide_eq_false_iff_not]; rintro ⟨_, _, g⟩; exact g e2.symm
        refine ⟨?_, ?_, a3, a4, by simp; omega⟩
        · rw [a1, List.filter_cons, hf]; rfl
        · simp only [true_iff]
          exact ⟨x, by simp, e1.1, e1.2, e2⟩
      · rw [if_neg e2]
        obtain ⟨a1, a2, a3, a4, a5⟩ := addNames_ok sys out path hp xs (fs ++ [entry sys path x fs.length]) hx' (by simp; omega)
          (by
            intro n f hf
            rw [List.getElem?_append] at hf
            split at hf
            · exact h1 n f hf
            · next hn =>
              rw [List.getElem?_singleton] at hf
              split at hf
              · next h0 =>
                have : n = fs.length := by omega
                subst this
                cases hf
                exact entry_id sys hp (hx x (by simp)) (by omega)
              · simp at hf)
          (by
            intro f hf
            rcases List.mem_append.mp hf with hf | hf
            · exact h2 f hf
            · simp at hf; subst hf
              have : str "  " = [32, 32] := by decide +kernel
              simp [entry, this])
        have hf : decide (x ≠ str "." ∧ x ≠ str ".." ∧ path ++ x ≠ out) = true := by
          rw [decide_eq_true_iff]; exact ⟨e1.1, e1.2, fun g => e2 g.symm⟩
        refine ⟨?_, ?_, a3, a4, by simp at a5 ⊢; omega⟩
        · rw [a1, List.filter_cons, hf]; simp [entry]
        · rw [a2]
          constructor
          · rintro ⟨y, hy, h⟩; exact ⟨y, by simp [hy], h⟩
          · rintro ⟨y, hy, h⟩
            rcases List.mem_cons.mp hy with rfl | hy
            · exact absurd h.2.2 e2
            · exact ⟨y, hy, h⟩

/-- the file system is sensible: names in directories are without a slash, and there are not too many -/
structure Tidy (sys : Sys) (ps : List Str) : Prop where
  slash : ∀ p ∈ ps, ∀ x ∈ sys.find p, 47 ∉ x
  number : (ps.map fun p => (sys.find p).length).sum < 2147483647

/-- a pattern that ends the program in strict mode -/
def Fault (sys : Sys) (out p : Str) : Prop := sys.find p = [] ∨ ∃ d x, Dir p d ∧ x ∈ sys.find p ∧ x ≠ str "." ∧ x ≠ str ".." ∧ out = d ++ x

theorem findAll_ok (sys : Sys) (c : Conf) : ∀ (ps : List Str) (fs : List Found), (∀ p ∈ ps, ∀ x ∈ sys.find p, 47 ∉ x) →
    fs.length + (ps.map fun p => (sys.find p).length).sum < 2147483647 → (∀ n f, fs[n]? = some f → IdIs n f.name f.id) →
    (∀ f ∈ fs, f.info = sys.date f.name ++ str "  " ++ f.name) →
    (findAll sys c fs ps = none ∧ c.strict = true ∧ ∃ p ∈ ps, Fault sys c.out p) ∨
    ((c.strict = true → ∀ p ∈ ps, ¬ Fault sys c.out p) ∧ ∃ gs ns, findAll sys c fs ps = some gs ∧ gs.map Found.name = fs.map Found.name ++ ns ∧ Files sys c.out ps ns ∧
      (∀ n f, gs[n]? = some f → IdIs n f.name f.id) ∧ ∀ f ∈ gs, f.info = sys.date f.name ++ str "  " ++ f.name)
  | [], fs, _, _, h1, h2 => .inr ⟨by simp, fs, [], rfl, by simp, .nil, h1, h2⟩
  | p :: ps, fs, hx, hl, h1, h2 => by
    simp only [List.map_cons, List.sum_cons] at hl
    have hd := pathOf_dir p
    have hpath : pathOf p = [] ∨ (pathOf p).getLast? = some 47 := by obtain ⟨_, _, _, h⟩ := hd; exact h
    obtain ⟨gs, ok, hg, g1, g2, g3, g4, g5⟩ : ∃ gs ok, findFiles sys c.out fs p = (gs, ok) ∧
        gs.map Found.name = fs.map Found.name ++ ((sys.find p).filter fun x => x ≠ str "." ∧ x ≠ str ".." ∧ pathOf p ++ x ≠ c.out).map (pathOf p ++ ·) ∧
        (ok = false ↔ Fault sys c.out p) ∧ (∀ n f, gs[n]? = some f → IdIs n f.name f.id) ∧ (∀ f ∈ gs, f.info = sys.date f.name ++ str "  " ++ f.name) ∧
        gs.length ≤ fs.length + (sys.find p).length := by
      unfold findFiles
      by_cases h0 : sys.find p = []
      · rw [if_pos h0]
        exact ⟨fs, false, rfl, by simp [h0], by simp [Fault, h0], h1, h2, by omega⟩
      · rw [if_neg h0]
        obtain ⟨a1, a2, a3, a4, a5⟩ := addNames_ok sys c.out (pathOf p) hpath (sys.find p) fs (hx p (by simp)) (by omega) h1 h2
        refine ⟨_, _, rfl, a1, ?_, a3, a4, a5⟩
        rw [a2]
        constructor
        · rintro ⟨x, h⟩; exact .inr ⟨_, x, hd, h⟩
        · rintro (h | ⟨d, x, hd', h⟩)
          · exact absurd h h0
          · rw [hd'.unique hd] at h; exact ⟨x, h⟩
    unfold findAll
    rw [hg]
    dsimp only
    by_cases hs : (!ok && c.strict) = true
    · rw [if_pos hs]
      simp only [Bool.and_eq_true, Bool.not_eq_true'] at hs
      exact .inl ⟨rfl, hs.2, p, by simp, g2.mp hs.1⟩
    · rw [if_neg hs]
      have hs' : c.strict = true → ¬ Fault sys c.out p := by
        intro h hf
        apply hs
        simp [h, g2.mpr hf]
      rcases findAll_ok sys c ps gs (fun q hq => hx q (by simp [hq])) (by omega) g3 g4 with ⟨b1, b2, q, hq, b3⟩ | ⟨b1, gs', ns, b2, b3, b4, b5⟩
      · exact .inl ⟨b1, b2, q, by simp [hq], b3⟩
      · refine .inr ⟨?_, gs', _, b2, ?_, .cons hd b4, b5⟩
        · intro h q hq
          rcases List.mem_cons.mp hq with rfl | hq
          · exact hs' h
          · exact b1 h q hq
        · rw [b3, g1, List.append_assoc]

end Gdx.MergeOpts
