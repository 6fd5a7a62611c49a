import Verif.Proofs.DiffOpts

/-! C74: gdxdiff works with the options that are given, and stops with the usage text if one of them is not valid. -/

namespace Gdx.DiffOpts
open Gdx CmdLine CmdPar Spec

theorem inName_out {d : Str} (h : d.length ≤ 251) : ∃ c, (if hasExt d then (.ok d : Res Str) else short (d ++ gdx)) = .ok c ∧ InName (fun _ => false) d c := by
  by_cases e : hasExt d = true
  · rw [if_pos e]
    exact ⟨d, rfl, .inl ⟨.inr ((Ext_iff d).mp e), rfl⟩⟩
  · rw [if_neg e]
    refine ⟨d ++ gdx, ?_, .inr ⟨?_, rfl⟩⟩
    · unfold short; rw [if_pos]
      have : gdx.length = 4 := by decide +kernel
      simp; omega
    · rintro (h | h)
      · simp at h
      · exact e ((Ext_iff d).mpr h)

theorem checkFile_name (ex : Str → Bool) (f : Str) : InName ex f (checkFile ex f) := by
  unfold checkFile
  by_cases e : ex f = true
  · exact .inl ⟨.inl e, by simp [e]⟩
  · by_cases e' : hasExt f = true
    · exact .inl ⟨.inr ((Ext_iff f).mp e'), by simp [e']⟩
    · refine .inr ⟨?_, by simp [e, e']; rfl⟩
      rintro (h | h)
      · exact e h
      · exact e' ((Ext_iff f).mpr h)

theorem outOf_ok {l : List Param} (h : ∀ p ∈ l, p.2.length ≤ 251) : ∃ c, outOf l = .ok c ∧ ∃ d, OutWord l d ∧ InName (fun _ => false) d c := by
  have h' : ∀ p ∈ l, p.2.length ≤ 255 := fun p hp => by have := h p hp; omega
  have hd : (str "diffile").length ≤ 251 := by decide +kernel
  have len : ∀ s : Str, s.length ≤ 251 → (if s = [] then str "diffile" else s).length ≤ 251 := by
    intro s hs; split
    · exact hd
    · exact hs
  unfold outOf
  rw [hasParam_short h']
  cases e : findKey l 3 with
  | some s =>
    obtain ⟨c, hc, hn⟩ := inName_out (len s (h _ (mem_of_find e)))
    exact ⟨c, by simpa using hc, _, .inl ⟨s, last_iff.mp e, rfl⟩, hn⟩
  | none =>
    by_cases hp : (param l 2).1 = -2
    · have hl : l[2]? = some (-2, (param l 2).2) := by
        unfold param at hp ⊢
        cases hg : l[2]? with
        | none => rw [hg] at hp; simp at hp
        | some x => rw [hg] at hp; simp at hp ⊢; rw [← hp]
      have hs := h _ (List.mem_of_getElem? hl)
      dsimp only at hs
      obtain ⟨c, hc, hn⟩ := inName_out (len _ hs)
      refine ⟨c, ?_, _, .inr (.inl ⟨none_iff.mp e, _, hl, rfl⟩), hn⟩
      have : short (param l 2).2 = .ok (param l 2).2 := by unfold short; rw [if_pos (by omega)]
      simpa [hp, this] using hc
    · obtain ⟨c, hc, hn⟩ := inName_out hd
      refine ⟨c, by simpa [hp] using hc, _, .inr (.inr ⟨none_iff.mp e, ?_, rfl⟩), hn⟩
      intro s hs
      apply hp
      unfold param; rw [hs]; rfl

theorem epsOf_ok {num : Str → Option Dbl} {l : List Param} (h : ∀ p ∈ l, p.2.length ≤ 255) (v : Int) :
    ∃ b d, epsOf num l v = .ok (b, d) ∧ (b = true ↔ ∃ s, Last l v s ∧ num s = none) ∧ (b = false → Number num l v d) := by
  unfold epsOf
  rw [hasParam_short h]
  cases e : findKey l v with
  | none =>
    refine ⟨false, Dbl.zero, rfl, ⟨by simp, ?_⟩, fun _ => .inl ⟨none_iff.mp e, rfl⟩⟩
    rintro ⟨s, hs, _⟩; exact absurd hs.given (none_iff.mp e)
  | some s =>
    have hl := last_iff.mp e
    cases en : num s with
    | some d =>
      refine ⟨false, d, by simp [en], ⟨by simp, ?_⟩, fun _ => .inr ⟨s, hl, en⟩⟩
      rintro ⟨t, ht, hn⟩; rw [ht.unique hl, en] at hn; simp at hn
    | none => exact ⟨true, Dbl.zero, by simp [en], ⟨fun _ => ⟨s, hl, en⟩, by simp⟩, by simp⟩

theorem fieldName_all {s : Str} {f : Nat} (h : FieldName s f) : ¬ SameNoCase s (str "All") := by
  intro ha
  have key : ∀ t, SameNoCase s t → SameNoCase t (str "All") := fun t ht => by unfold SameNoCase at *; rw [← ht, ha]
  cases h with
  | level h => exact absurd (key _ h) (by decide +kernel)
  | marginal h => exact absurd (key _ h) (by decide +kernel)
  | lower h => exact absurd (key _ h) (by decide +kernel)
  | upper h => exact absurd (key _ h) (by decide +kernel)
  | prior h => exact absurd (key _ h) (by decide +kernel)
  | scale h => exact absurd (key _ h) (by decide +kernel)

theorem fieldOf_ok {l : List Param} (h : ∀ p ∈ l, p.2.length ≤ 255) :
    ∃ b o, fieldOf l = .ok (b, o) ∧ (b = true ↔ ∃ s, Last l 4 s ∧ ¬ SameNoCase s (str "All") ∧ ∀ f, ¬ FieldName s f) ∧
      (∀ f, o = some f → ∃ s, Last l 4 s ∧ FieldName s f) ∧ (o = none → ¬ ∃ s f, Last l 4 s ∧ FieldName s f) ∧
      (b = false → o = none → ¬ Given l 4 ∨ ∃ s, Last l 4 s ∧ SameNoCase s (str "All")) := by
  unfold fieldOf
  rw [hasParam_short h]
  cases e : findKey l 4 with
  | none =>
    refine ⟨false, none, rfl, ⟨by simp, ?_⟩, by simp, ?_, fun _ _ => .inl (none_iff.mp e)⟩
    · rintro ⟨s, hs, _⟩; exact absurd hs.given (none_iff.mp e)
    · rintro _ ⟨s, f, hs, _⟩; exact absurd hs.given (none_iff.mp e)
  | some s =>
    have hl := last_iff.mp e
    simp only [Res.bind_ok, uEqual_iff, Bool.or_eq_true]
    have found : ∀ f, FieldName s f → ∃ b o, (Res.ok (false, some f) : Res (Bool × Option Nat)) = .ok (b, o) ∧
        (b = true ↔ ∃ s, Last l 4 s ∧ ¬ SameNoCase s (str "All") ∧ ∀ f, ¬ FieldName s f) ∧
        (∀ f, o = some f → ∃ s, Last l 4 s ∧ FieldName s f) ∧ (o = none → ¬ ∃ s f, Last l 4 s ∧ FieldName s f) ∧
        (b = false → o = none → ¬ Given l 4 ∨ ∃ s, Last l 4 s ∧ SameNoCase s (str "All")) := by
      intro f hf
      refine ⟨false, some f, rfl, ⟨by simp, ?_⟩, ?_, by simp, by simp⟩
      · rintro ⟨t, ht, _, hn⟩; rw [ht.unique hl] at hn; exact absurd hf (hn f)
      · intro g hg; simp at hg; subst hg; exact ⟨s, hl, hf⟩
    split
    · next ha =>
      refine ⟨false, none, rfl, ⟨by simp, ?_⟩, by simp, ?_, fun _ _ => .inr ⟨s, hl, ha⟩⟩
      · rintro ⟨t, ht, hn, _⟩; rw [ht.unique hl] at hn; exact absurd ha hn
      · rintro _ ⟨t, f, ht, hf⟩; rw [ht.unique hl] at hf; exact fieldName_all hf ha
    split
    · next hx => exact found 0 (.level hx)
    split
    · next hx => exact found 1 (.marginal hx)
    split
    · next hx => exact found 3 (.upper hx)
    split
    · next hx => exact found 2 (.lower hx)
    split
    · next hx => exact found 4 (hx.elim .prior .scale)
    · next ha h0 h1 h3 h2 h4 =>
      have hn : ∀ f, ¬ FieldName s f := by
        intro f hf
        cases hf with
        | level h => exact h0 h
        | marginal h => exact h1 h
        | lower h => exact h2 h
        | upper h => exact h3 h
        | prior h => exact h4 (.inl h)
        | scale h => exact h4 (.inr h)
      refine ⟨true, none, rfl, ⟨fun _ => ⟨s, hl, ha, hn⟩, by simp⟩, by simp, ?_, by simp⟩
      rintro _ ⟨t, f, ht, hf⟩; rw [ht.unique hl] at hf; exact hn f hf

theorem upper_one {s : Str} {c : UInt8} (hc : upC c = c) : upper s = [c] ↔ ∃ d, s = [d] ∧ upC d = c := by
  unfold upper
  cases s with
  | nil => simp
  | cons d t => cases t <;> simp

theorem textOf_ok {l : List Param} (h : ∀ p ∈ l, p.2.length ≤ 255) :
    ∃ b o, textOf l = .ok (b, o) ∧ (b = true ↔ ∃ s, Last l 5 s ∧ s ∉ noText ∧ s ∉ yesText) ∧ (o = false ↔ ∃ s, Last l 5 s ∧ s ∈ noText) := by
  have hup : ∀ c d : UInt8, (upC d = c ∧ (c = 48 ∨ c = 49)) → d = c := by
    have : ∀ d : Fin 256, (upC (UInt8.ofFin d) = 48 → UInt8.ofFin d = 48) ∧ (upC (UInt8.ofFin d) = 49 → UInt8.ofFin d = 49) := by decide +kernel
    rintro c d ⟨h, rfl | rfl⟩
    · exact (this d.toFin).1 h
    · exact (this d.toFin).2 h
  have hlet : ∀ d : UInt8, (upC d = 78 ↔ d = 78 ∨ d = 110) ∧ (upC d = 70 ↔ d = 70 ∨ d = 102) ∧ (upC d = 89 ↔ d = 89 ∨ d = 121) ∧ (upC d = 84 ↔ d = 84 ∨ d = 116) ∧
      (upC d = 48 ↔ d = 48) ∧ (upC d = 49 ↔ d = 49) := by
    have : ∀ d : Fin 256, (upC (UInt8.ofFin d) = 78 ↔ UInt8.ofFin d = 78 ∨ UInt8.ofFin d = 110) ∧ (upC (UInt8.ofFin d) = 70 ↔ UInt8.ofFin d = 70 ∨ UInt8.ofFin d = 102) ∧
        (upC (UInt8.ofFin d) = 89 ↔ UInt8.ofFin d = 89 ∨ UInt8.ofFin d = 121) ∧ (upC (UInt8.ofFin d) = 84 ↔ UInt8.ofFin d = 84 ∨ UInt8.ofFin d = 116) ∧
        (upC (UInt8.ofFin d) = 48 ↔ UInt8.ofFin d = 48) ∧ (upC (UInt8.ofFin d) = 49 ↔ UInt8.ofFin d = 49) := by decide +kernel
    intro d; exact this d.toFin
  have hno : ∀ s : Str, (upper s = str "0" ∨ upper s = str "N" ∨ upper s = str "F") ↔ s ∈ noText := by
    intro s
    rw [show str "0" = [48] by decide +kernel, show str "N" = [78] by decide +kernel, show str "F" = [70] by decide +kernel,
      show noText = [[48], [78], [110], [70], [102]] by decide +kernel, upper_one (by decide), upper_one (by decide), upper_one (by decide)]
    simp only [hlet, List.mem_cons, List.not_mem_nil, or_false]
    constructor
    · rintro (⟨d, rfl, rfl⟩ | ⟨d, rfl, rfl | rfl⟩ | ⟨d, rfl, rfl | rfl⟩) <;> simp
    · rintro (rfl | rfl | rfl | rfl | rfl) <;> simp
  have hyes : ∀ s : Str, (upper s = [] ∨ upper s = str "1" ∨ upper s = str "Y" ∨ upper s = str "T") ↔ s ∈ yesText := by
    intro s
    rw [show str "1" = [49] by decide +kernel, show str "Y" = [89] by decide +kernel, show str "T" = [84] by decide +kernel,
      show yesText = [[], [49], [89], [121], [84], [116]] by decide +kernel, upper_one (by decide), upper_one (by decide), upper_one (by decide),
      show upper s = [] ↔ s = [] by simp [upper]]
    simp only [hlet, List.mem_cons, List.not_mem_nil, or_false]
    constructor
    · rintro (rfl | ⟨d, rfl, rfl⟩ | ⟨d, rfl, rfl | rfl⟩ | ⟨d, rfl, rfl | rfl⟩) <;> simp
    · rintro (rfl | rfl | rfl | rfl | rfl | rfl) <;> simp
  unfold textOf
  rw [hasParam_short h]
  cases e : findKey l 5 with
  | none =>
    refine ⟨false, true, rfl, ⟨by simp, ?_⟩, ⟨by simp, ?_⟩⟩
    · rintro ⟨s, hs, _⟩; exact absurd hs.given (none_iff.mp e)
    · rintro ⟨s, hs, _⟩; exact absurd hs.given (none_iff.mp e)
  | some s =>
    have hl := last_iff.mp e
    simp only [Res.bind_ok, hno, hyes]
    split
    · next hx =>
      refine ⟨false, false, rfl, ⟨by simp, ?_⟩, ⟨fun _ => ⟨s, hl, hx⟩, fun _ => rfl⟩⟩
      rintro ⟨t, ht, hn, _⟩; rw [ht.unique hl] at hn; contradiction
    split
    · next hx hy =>
      refine ⟨false, true, rfl, ⟨by simp, ?_⟩, ⟨by simp, ?_⟩⟩
      · rintro ⟨t, ht, _, hn⟩; rw [ht.unique hl] at hn; contradiction
      · rintro ⟨t, ht, hn⟩; rw [ht.unique hl] at hn; contradiction
    · next hx hy =>
      refine ⟨true, true, rfl, ⟨fun _ => ⟨s, hl, hx, hy⟩, by simp⟩, ⟨by simp, ?_⟩⟩
      rintro ⟨t, ht, hn⟩; rw [ht.unique hl] at hn; contradiction

theorem ideOf_ok {l : List Param} (h : ∀ p ∈ l, p.2.length ≤ 255) :
    ∃ b, ideOf l = .ok b ∧ (b = true ↔ ∃ s t, Last l 6 s ∧ (s = 89 :: t ∨ s = 121 :: t ∨ s = 49 :: t)) := by
  unfold ideOf
  rw [hasParam_short h]
  cases e : findKey l 6 with
  | none =>
    refine ⟨false, rfl, by simp, ?_⟩
    rintro ⟨s, t, hs, _⟩; exact absurd hs.given (none_iff.mp e)
  | some s =>
    have hl := last_iff.mp e
    refine ⟨_, rfl, ?_⟩
    simp only [Bool.or_eq_true, decide_eq_true_eq]
    constructor
    · intro h
      cases s with
      | nil => simp at h
      | cons c t => exact ⟨c :: t, t, hl, by simpa [or_assoc] using h⟩
    · rintro ⟨s', t, hs', h⟩
      rw [hs'.unique hl] at h
      rcases h with rfl | rfl | rfl <;> simp

theorem files_iff (l : List Param) : (((if (param l 0).1 = 0 then (param l 0).2 else []) ≠ []) ∧ ((if (param l 1).1 = -2 then (param l 1).2 else []) ≠ [])) ↔
    ∃ f₁ f₂ t, l = (0, f₁) :: (-2, f₂) :: t ∧ f₁ ≠ [] ∧ f₂ ≠ [] := by
  constructor
  · rintro ⟨h1, h2⟩
    split at h1
    swap; · simp at h1
    split at h2
    swap; · simp at h2
    next e1 e2 =>
    cases l with
    | nil => simp [param] at e1
    | cons p l =>
      cases l with
      | nil => simp [param] at e2
      | cons q l =>
        obtain ⟨a, s⟩ := p
        obtain ⟨b, t⟩ := q
        simp [param] at e1 e2 h1 h2
        subst e1; subst e2
        exact ⟨s, t, l, rfl, h1, h2⟩
  · rintro ⟨f₁, f₂, t, rfl, h1, h2⟩
    simp [param, h1, h2]

/-- for parameters without overlong values: the usage text if and only if one of them is not valid, and otherwise the options are the ones given -/
theorem C74_options_partial (num : Text → Option Dbl) (ex : Text → Bool) {l : List (Int × Text)} (h : ∀ p ∈ l, p.2.length ≤ 251) :
    (Bad num l ∧ optsOf num ex l = .ok .usage) ∨ (¬ Bad num l ∧ ∃ c, optsOf num ex l = .ok (.run c) ∧ Takes num ex l c) := by
  have h' : ∀ p ∈ l, p.2.length ≤ 255 := fun p hp => by have := h p hp; omega
  obtain ⟨out, ho, hout⟩ := outOf_ok h
  obtain ⟨e1, eps, hp1, hb1, hn1⟩ := epsOf_ok (num := num) h' 1
  obtain ⟨e2, rel, hp2, hb2, hn2⟩ := epsOf_ok (num := num) h' 2
  obtain ⟨e3, fld, hf, hb3, hf1, hf2, hf3⟩ := fieldOf_ok h'
  obtain ⟨ide, hi, hide⟩ := ideOf_ok h'
  obtain ⟨e5, txt, ht, hb5, htxt⟩ := textOf_ok h'
  obtain ⟨ids, hids, hids'⟩ := idList_eq h' 7
  obtain ⟨skip, hskip, hskip'⟩ := idList_eq h' 14
  have hfl := files_iff l
  have hb4 : (hasKey l 8 && (decide (fld = none) || hasKey l 9)) = true ↔ Given l 8 ∧ ((¬ ∃ s f, Last l 4 s ∧ FieldName s f) ∨ Given l 9) := by
    rw [Bool.and_eq_true, Bool.or_eq_true, decide_eq_true_eq, hasKey_iff, hasKey_iff]
    refine and_congr_right fun _ => or_congr_left ?_
    constructor
    · exact hf2
    · intro hn
      cases hfd : fld with
      | none => rfl
      | some f => obtain ⟨s, hs⟩ := hf1 f hfd; exact absurd ⟨s, f, hs⟩ hn
  unfold optsOf
  simp only [ho, hp1, hp2, hf, hi, ht, hids, hskip, Res.bind_ok]
  generalize hF1 : (if (param l 0).1 = 0 then (param l 0).2 else []) = f1 at hfl ⊢
  generalize hF2 : (if (param l 1).1 = -2 then (param l 1).2 else []) = f2 at hfl ⊢
  generalize hE4 : (hasKey l 8 && (decide (fld = none) || hasKey l 9)) = e4 at hb4 ⊢
  have hbad : (decide (f1 = []) || decide (f2 = []) || e1 || e2 || e3 || e4 || e5) = true ↔ Bad num l := by
    simp only [Bool.or_eq_true, hb4, hb1, hb2, hb3, hb5, decide_eq_true_eq]
    constructor
    · rintro ((((((h | h) | ⟨s, h1, h2⟩) | ⟨s, h1, h2⟩) | ⟨s, h1, h2, h3⟩) | ⟨h1, h2 | h2⟩) | ⟨s, h1, h2, h3⟩)
      · exact .files fun h' => (hfl.mpr h').1 h
      · exact .files fun h' => (hfl.mpr h').2 h
      · exact .eps h1 h2
      · exact .rel h1 h2
      · exact .field h1 h2 h3
      · exact .single h1 h2
      · exact .both h1 h2
      · exact .text h1 h2 h3
    · intro h
      cases h with
      | files h =>
        rw [← hfl] at h
        by_cases h1 : f1 = []
        · simp [h1]
        · by_cases h2 : f2 = []
          · simp [h2]
          · exact absurd ⟨h1, h2⟩ h
      | eps h1 h2 => exact .inl (.inl (.inl (.inl (.inr ⟨_, h1, h2⟩))))
      | rel h1 h2 => exact .inl (.inl (.inl (.inr ⟨_, h1, h2⟩)))
      | field h1 h2 h3 => exact .inl (.inl (.inr ⟨_, h1, h2, h3⟩))
      | single h1 h2 => exact .inl (.inr ⟨h1, .inl h2⟩)
      | both h1 h2 => exact .inl (.inr ⟨h1, .inr h2⟩)
      | text h1 h2 h3 => exact .inr ⟨_, h1, h2, h3⟩
  by_cases hB : Bad num l
  · exact .inl ⟨hB, by rw [if_pos (hbad.mpr hB)]; rfl⟩
  · refine .inr ⟨hB, ?_⟩
    have hg : ¬ (decide (f1 = []) || decide (f2 = []) || e1 || e2 || e3 || e4 || e5) = true := fun h => hB (hbad.mp h)
    rw [if_neg hg]
    refine ⟨_, rfl, ?_⟩
    simp only [Bool.or_eq_true, decide_eq_true_eq, not_or, Bool.not_eq_true] at hg
    obtain ⟨⟨⟨⟨⟨⟨g1, g2⟩, g3⟩, g4⟩, g5⟩, g6⟩, g7⟩ := hg
    obtain ⟨x₁, x₂, t, hl, _, _⟩ := hfl.mp ⟨g1, g2⟩
    have hx1 : f1 = x₁ := by rw [← hF1, hl]; simp [param]
    have hx2 : f2 = x₂ := by rw [← hF2, hl]; simp [param]
    refine ⟨?_, hout, hn1 g3, hn2 g4, ?_, ?_, hasKey_iff, htxt, hasKey_iff, hasKey_iff, hasKey_iff, hasKey_iff, hids', hskip', hide⟩
    · exact ⟨x₁, x₂, t, hl, hx1 ▸ checkFile_name ex f1, hx2 ▸ checkFile_name ex f2⟩
    · cases hfd : fld with
      | none => exact .inl ⟨rfl, hf3 g5 hfd⟩
      | some f => obtain ⟨s, hs, hf⟩ := hf1 f hfd; exact .inr ⟨s, f, hs, hf, rfl⟩
    · by_cases h8 : hasKey l 8 = true
      · right
        refine ⟨hasKey_iff.mp h8, ?_⟩
        cases hfd : fld with
        | none => rw [h8, hfd] at hE4; simp at hE4; rw [g6] at hE4; simp at hE4
        | some f => obtain ⟨s, hs, hf⟩ := hf1 f hfd; exact ⟨s, f, hs, hf, by simp [h8]⟩
      · exact .inl ⟨fun h => h8 (hasKey_iff.mpr h), by simp [h8]⟩

theorem keys_names : Names keys := by
  constructor
  · decide +kernel
  · decide +kernel

/-- the order of the names has no influence on the meaning -/
theorem means_congr {ks ks' : List (Text × Int)} (h : ∀ k, k ∈ ks ↔ k ∈ ks') {a : List Text} {r : List (Int × Text)} (hm : Means ks a r) : Means ks' a r := by
  induction hm with
  | nil => exact .nil
  | other h1 h2 _ ih => exact .other h1 (fun k hk => h2 k ((h k).mpr hk)) ih
  | keyword h1 h2 h3 h4 h5 _ ih => exact .keyword h1 h2 ((h _).mp h3) h4 h5 ih
  | param h1 h2 h3 h4 h5 h6 h7 _ ih => exact .param h1 h2 ((h _).mp h3) h4 h5 h6 h7 ih

theorem keys_documented : ∀ k, k ∈ documented ↔ k ∈ keys := by
  have h1 : documented ⊆ keys := by decide +kernel
  have h2 : keys ⊆ documented := by decide +kernel
  exact fun k => ⟨fun h => h1 h, fun h => h2 h⟩

/-- the same for a command line -/
theorem C74_main_partial (num : Text → Option Dbl) (ex : Text → Bool) {fs : Text → Option (List Text)} {args a : List Text} {r l : List (Int × Text)}
    (ha : ∀ x, args.head? = some x → ¬ SameNoCase x (str "AUDIT")) (he : Expand fs args a) (hr : Means documented a r) (hi : Input r l) (h : ∀ p ∈ l, p.2.length ≤ 251) :
    (Bad num l ∧ main num ex fs args = .ok .usage) ∨ (¬ Bad num l ∧ ∃ c, main num ex fs args = .ok (.run c) ∧ Takes num ex l c) := by
  obtain ⟨l', hc, hi'⟩ := C73_crack_partial keys_names he (means_congr keys_documented hr)
  have e : l' = l := Input.unique hi' hi
  subst e
  have hm : main num ex fs args = optsOf num ex l' := by
    unfold main
    cases args with
    | nil => simp [hc]
    | cons x t => simp [hc, uEqual_iff, ha x rfl]
  rw [hm]
  exact C74_options_partial num ex h

/-- `AUDIT` as the first argument: nothing is compared -/
theorem C74_audit (num : Text → Option Dbl) (ex : Text → Bool) (fs : Text → Option (List Text)) (x : Text) (t : List Text) (h : SameNoCase x (str "AUDIT")) :
    main num ex fs (x :: t) = .ok .audit := by
  simp [main, uEqual_iff, h]

/-- a parameter file that is not there: the usage text -/
theorem C74_nofile (num : Text → Option Dbl) (ex : Text → Bool) {fs : Text → Option (List Text)} {args : List Text} {l : List (Int × Text)}
    (ha : ∀ x, args.head? = some x → ¬ SameNoCase x (str "AUDIT")) (h : crack keys fs args = .ok (false, l)) : main num ex fs args = .ok .usage := by
  unfold main
  cases args with
  | nil => simp [h]
  | cons x t => simp [h, uEqual_iff, ha x rfl]

/-- a value that is too long for its buffer: undefined -/
theorem C74_long (num : Text → Option Dbl) (ex : Text → Bool) {l : List (Int × Text)} {s : Text} (h : Last l 1 s) (hs : 255 < s.length) : optsOf num ex l = .ub := by
  have he : epsOf num l 1 = .ub := by
    unfold epsOf
    rw [C73_value_long (last_iff.mpr h) hs]; rfl
  unfold optsOf
  cases outOf l with
  | ub => rfl
  | ok x => simp [he]

/-- the name of the difference file, too long with its extension: undefined -/
theorem C74_longname (num : Text → Option Dbl) (ex : Text → Bool) {l : List (Int × Text)} {s : Text} (h : Last l 3 s) (hs : 251 < s.length) (hx : ¬ Extended s) :
    optsOf num ex l = .ub := by
  have ho : outOf l = .ub := by
    unfold outOf
    by_cases hl : 255 < s.length
    · rw [C73_value_long (last_iff.mpr h) hl]; rfl
    · rw [C73_value_partial (last_iff.mpr h) (by omega)]
      have h0 : s ≠ [] := by rintro rfl; simp at hs
      have h1 : hasExt s = false := by
        cases e : hasExt s with
        | false => rfl
        | true => exact absurd ((Ext_iff s).mp e) hx
      have : gdx.length = 4 := by decide +kernel
      simp [h0, h1, short, this]; omega
  unfold optsOf
  simp [ho]

/-! ### Examples -/

/-- the files, the difference file, Eps, the fields, DiffOnly, SetDesc and the identifiers that the program goes on with -/
structure Seen where
  files : List (List UInt8)
  eps : UInt64
  fields : List Nat
  flags : Bool × Bool
  ids : Option (List (List UInt8))
deriving DecidableEq

def shown : Res Outcome → Option Seen
  | .ok (.run c) => some ⟨[c.file1, c.file2, c.diff], c.opt.eps, c.opt.active, (c.opt.diffOnly, c.opt.compText), c.opt.ids⟩
  | _ => none

/-- a number for the examples -/
def exNum : Text → Option Dbl := fun s => if s = str "0.1" then some 4591870180066957722 else none

/-- `gdxdiff a b.gdx Eps=0.1 Field = l DiffOnly SetDesc n "ID=x, Y,X" ID=z` -/
def exLine : List Text := [str "a", str "b.gdx", str "Eps=0.1", str "Field", str "=", str "l", str "DiffOnly", str "SetDesc", str "n", str "ID=x, Y,X", str "ID=z"]

example : shown (main exNum (fun _ => false) noFiles exLine) =
    some ⟨[str "a.gdx", str "b.gdx", str "diffile.gdx"], 4591870180066957722, [0], (true, false), some [str "x", str "Y", str "z"]⟩ := by decide +kernel

/-- a list of parameters that is not bad, and one that is -/
example : ¬ Bad exNum [(0, str "a"), (-2, str "b"), (9, [])] := by
  rcases C74_options_partial exNum (fun _ => false) (l := [(0, str "a"), (-2, str "b"), (9, [])]) (by decide +kernel) with ⟨_, h⟩ | ⟨h, _⟩
  · exact absurd (congrArg (fun r => (shown r).isSome) h) (by decide +kernel)
  · exact h
example : Bad exNum [(0, str "a"), (-2, str "b"), (1, str "x")] := .eps ⟨[(0, str "a"), (-2, str "b")], [], rfl, by simp⟩ (by decide +kernel)

/-! ### Options that are not noticed -/

/-- the name of an option with a typing error: it is the name of the difference file, the comparison is done without the option, and there is no message -/
theorem C74_misspelled : shown (main exNum (fun _ => false) noFiles [str "a", str "b", str "Esp=0.1"]) =
    some ⟨[str "a.gdx", str "b.gdx", str "Esp.gdx"], 0, [0, 1, 2, 3, 4], (false, true), none⟩ := by decide +kernel

/-- further words are ignored -/
theorem C74_ignored : shown (main exNum (fun _ => false) noFiles [str "a", str "b", str "c", str "DifOnly"]) =
    some ⟨[str "a.gdx", str "b.gdx", str "c.gdx"], 0, [0, 1, 2, 3, 4], (false, true), none⟩ := by decide +kernel

/-- an option without its value is ignored at the end of the line -/
theorem C74_novalue : shown (main exNum (fun _ => false) noFiles [str "a", str "b", str "Eps="]) =
    some ⟨[str "a.gdx", str "b.gdx", str "diffile.gdx"], 0, [0, 1, 2, 3, 4], (false, true), none⟩ := by decide +kernel

#print axioms C74_options_partial
#print axioms C74_main_partial
#print axioms C74_long
#print axioms C74_misspelled

end Gdx.DiffOpts
