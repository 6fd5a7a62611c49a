import Verif.Proofs.GamsDecl
import Verif.Proofs.GamsProg
import Verif.Spec.GamsLoad

/-!
Proofs about the reader of GAMS programs that load data.
-/

namespace Gdx.Gams
open Gdx

/-! ### comments at the ends of lines -/

theorem noEol_plain : ∀ {s : Str} (_ : ∀ a b, s ≠ a ++ 33 :: 33 :: b) {r : Str} (_ : r.head? ≠ some 33), noEol false (s ++ r) = s ++ noEol false r
  | [], _, _, _ => rfl
  | c :: s, h, r, hr => by
    have hc : ¬ (c = 33 ∧ (s ++ r).head? = some 33) := by
      rintro ⟨rfl, h2⟩
      cases s with
      | nil => exact hr h2
      | cons d s =>
        cases h2
        exact h [] s rfl
    rw [List.cons_append, noEol, if_neg hc, noEol_plain (s := s) (fun a b hab => h (c :: a) b (by rw [hab]; rfl)) hr]
    rfl

theorem noEol_newline (r : Str) : noEol false (10 :: r) = 10 :: noEol false r := by
  rw [noEol, if_neg (by rintro ⟨h, _⟩; cases h)]

theorem noMark_of {s : Str} (h : (33 : UInt8) ∉ s) : ∀ a b, s ≠ a ++ 33 :: 33 :: b := by
  rintro a b rfl
  exact h (by simp)

/-- in front of a text without the character -/
theorem noMark_append {p s : Str} (hp : (33 : UInt8) ∉ p) (h : ∀ a b, s ≠ a ++ 33 :: 33 :: b) : ∀ a b, p ++ s ≠ a ++ 33 :: 33 :: b := by
  induction p with
  | nil => exact h
  | cons c p ih =>
    intro a b hab
    cases a with
    | nil =>
      injection hab with h1 _
      exact hp (by rw [h1]; simp)
    | cons d a =>
      injection hab with _ h2
      exact ih (fun hc => hp (by simp [hc])) a b h2

/-- behind such a text -/
theorem noMark_snoc {s : Str} {q : UInt8} (hq : q ≠ 33) (h : ∀ a b, s ≠ a ++ 33 :: 33 :: b) : ∀ a b, s ++ [q] ≠ a ++ 33 :: 33 :: b := by
  intro a b hab
  rcases List.eq_nil_or_concat b with rfl | ⟨b, d, rfl⟩
  · have := congrArg List.getLast? hab
    simp at this
    exact hq this
  · have e : a ++ 33 :: 33 :: (b ++ [d]) = (a ++ 33 :: 33 :: b) ++ [d] := by simp
    rw [List.concat_eq_append, e] at hab
    exact h a b (List.append_inj_left' hab rfl)

/-! ### declarations -/

theorem bareDecl_ok {kt nm tt tx : Str} {ks ds : List Str} (hk : IsKind kt ks) (hn : isGoodIdent nm = true) (hd : ∀ d ∈ ds, IsDom d) (ht : IsText (ds = []) tt tx)
    (hh : ∀ c, tt.head? = some c → c = 32) (x : Str) :
    bareDecl (10 :: (kt ++ 32 :: (nm ++ (domText ds ++ (tt ++ 32 :: 59 :: x))))) = some (⟨ks, nm, ds, tx, []⟩, x) := by
  obtain ⟨t1, r, t2, t3⟩ := ht 59 (Or.inr rfl) x
  have hhead : ∀ c, (tt ++ 32 :: 59 :: x).head? = some c → c = 32 := by
    intro c hc
    cases tt with
    | nil => cases hc; rfl
    | cons d tt => exact hh c hc
  have hnm : name (skip (32 :: (nm ++ (domText ds ++ (tt ++ 32 :: 59 :: x))))) = some (nm, domText ds ++ (tt ++ 32 :: 59 :: x)) := by
    obtain ⟨n1, n2⟩ := ident_chars hn
    rw [skip_blank, skip_head]
    · refine name_ok hn ?_
      intro c hc
      unfold domText at hc
      split at hc
      · rw [hhead c hc]
        rfl
      · cases hc
        rfl
    · cases nm with
      | nil => exact absurd rfl n1
      | cons c nm => exact ⟨c, rfl, (name_blank (n2 c (by simp))).1⟩
  have hdm : ∃ q, optDomains (skip (domText ds ++ (tt ++ 32 :: 59 :: x))) = some (ds, q) ∧ skip q = skip (tt ++ 32 :: 59 :: x) := by
    by_cases h0 : ds = []
    · subst h0
      refine ⟨skip (tt ++ 32 :: 59 :: x), ?_, skip_skip _⟩
      show optDomains (skip (tt ++ 32 :: 59 :: x)) = _
      unfold optDomains
      split
      · rename_i heq
        rw [heq] at t1
        exact absurd rfl (t1 rfl)
      · rfl
    · exact ⟨_, optDomains_ok h0 hd _, rfl⟩
  obtain ⟨q, q1, q2⟩ := hdm
  unfold bareDecl
  rw [hk]
  simp only [Option.bind_eq_bind, Option.bind_some, hnm, q1, q2, t2, t3]

theorem bareDecl_skip (s : Str) : bareDecl (skip s) = bareDecl s := by
  unfold bareDecl
  congr 1
  unfold kindWords
  rw [skip_skip]

/-- a declaration starts with the first of its words -/
theorem bareDecl_word {s : Str} {D : Decl} {r : Str} (h : bareDecl s = some (D, r)) : ∃ w q, name (skip s) = some (w, q) ∧ D.kind.head? = some w := by
  unfold bareDecl at h
  obtain ⟨⟨ks, r1⟩, h1, h⟩ := Option.bind_eq_some_iff.mp h
  obtain ⟨⟨nm, r2⟩, h2, h⟩ := Option.bind_eq_some_iff.mp h
  obtain ⟨⟨ds, r3⟩, h3, h⟩ := Option.bind_eq_some_iff.mp h
  obtain ⟨⟨tx, r4⟩, h4, h⟩ := Option.bind_eq_some_iff.mp h
  dsimp only at h
  have hk : D.kind = ks := by
    split at h
    · cases h
      rfl
    · cases h
  unfold kindWords at h1
  obtain ⟨⟨w, q⟩, h5, h6⟩ := Option.bind_eq_some_iff.mp h1
  refine ⟨w, q, h5, ?_⟩
  dsimp only at h6
  rw [hk]
  by_cases hw : w ∈ kinds
  · rw [if_pos hw] at h6
    cases h6
    rfl
  · rw [if_neg hw] at h6
    obtain ⟨⟨ws, q'⟩, _, h4⟩ := Option.bind_eq_some_iff.mp h6
    cases h4
    rfl

/-! ### programs -/

theorem loads_newline (f : Nat) (b e : Bool) (s : Str) : loads f b e (10 :: s) = loads f true e s := by
  cases f with
  | zero => rfl
  | succ f =>
    unfold loads
    rfl

/-- blanks at the end of a line -/
theorem loads_blank (f : Nat) (b e : Bool) (s : Str) : loads f b e (32 :: 10 :: s) = loads f true e s := by
  cases f with
  | zero => rfl
  | succ f =>
    unfold loads
    rfl

theorem loads_decl {f : Nat} {b e : Bool} {s : Str} {D : Decl} {r : Str} (h : bareDecl s = some (D, r)) (h1 : D.kind.head? ≠ some wAlias) (h2 : D.kind.head? ≠ some wAcronym) :
    loads (f + 1) b e s = (loads f false e r).map (LStmt.decl D :: ·) := by
  obtain ⟨w, q, hw, hk⟩ := bareDecl_word h
  rw [hk] at h1 h2
  have hd := bareDecl_skip s
  rw [h] at hd
  conv => lhs; unfold loads
  have e : skipL b s = ((skipL b s).1, skip s) := by rw [← skipL_snd]
  rw [e]
  generalize skip s = u at hw hd ⊢
  cases u with
  | nil => cases hw
  | cons c u =>
    dsimp only
    have hc : c ≠ 36 := by
      rintro rfl
      have := name_head hw
      revert this
      decide
    rw [if_neg hc, hw]
    simp only [Option.bind_eq_bind, Option.bind_some]
    rw [if_neg (fun hc => h1 (by rw [hc])), if_neg (fun hc => h2 (by rw [hc])), hd]
    simp only [Option.bind_some]
    cases loads f false _ r <;> rfl

theorem isPrefixOf_append (k r : Str) : k.isPrefixOf (k ++ r) = true := by
  rw [List.isPrefixOf_iff_prefix]
  exact List.prefix_append _ _

/-- one word after the other, with blanks behind it -/
theorem dollar_ok {k w : Str} (hw : w ≠ []) (h32 : (32 : UInt8) ∉ w) (n : Nat) : dollar k (k ++ 32 :: (w ++ List.replicate n 32)) = some w := by
  have e : k ++ 32 :: (w ++ List.replicate n 32) = (k ++ [32]) ++ (w ++ List.replicate n 32) := by simp
  have h1 : (w ++ List.replicate n 32).dropWhile (· == 32) = w ++ List.replicate n 32 := by
    cases w with
    | nil => exact absurd rfl hw
    | cons c w => rw [List.cons_append, List.dropWhile_cons_of_neg (by simp; rintro rfl; exact h32 (by simp))]
  have h2 : (w ++ List.replicate n 32).takeWhile (· != 32) = w ∧ (w ++ List.replicate n 32).dropWhile (· != 32) = List.replicate n 32 := by
    refine takeWhile_append_stop ?_ ?_
    · intro c hc
      simp
      rintro rfl
      exact h32 hc
    · intro c hc
      cases n with
      | zero => cases hc
      | succ n => cases hc; decide
  have hd : ((k ++ [32]) ++ (w ++ List.replicate n 32)).drop (k.length + 1) = w ++ List.replicate n 32 := by
    rw [List.drop_append_of_le_length (by simp)]
    simp
  unfold dollar
  rw [e, if_pos (isPrefixOf_append _ _), hd, h1]
  dsimp only
  rw [h2.1, h2.2, if_neg]
  rintro (h | h)
  · exact hw h
  · rw [List.any_eq_true] at h
    obtain ⟨c, hc, h⟩ := h
    rw [List.eq_of_mem_replicate hc] at h
    exact absurd h (by decide)

theorem line_take {l r : Str} (hl : (10 : UInt8) ∉ l) : (l ++ 10 :: r).takeWhile (· != 10) = l ∧ (l ++ 10 :: r).dropWhile (· != 10) = 10 :: r := by
  refine takeWhile_append_stop ?_ ?_
  · intro c hc
    simp
    rintro rfl
    exact hl hc
  · intro c hc
    cases hc
    decide

/-- `$gdxIn file` or `$loadDC name` -/
theorem loads_dollar {k w : Str} {st : LStmt} (hk : k = wGdxIn ∧ st = .gdxIn w ∨ k = wLoadDC ∧ st = .load w) (hw : w ≠ []) (h32 : (32 : UInt8) ∉ w) (h10 : (10 : UInt8) ∉ w) (n f : Nat) (e : Bool) (r : Str) :
    loads (f + 1) true e (k ++ 32 :: (w ++ List.replicate n 32) ++ 10 :: r) = (loads f true e r).map (st :: ·) := by
  have hl : (10 : UInt8) ∉ k ++ 32 :: (w ++ List.replicate n 32) := by
    intro hc
    rcases List.mem_append.mp hc with hc | hc
    · rcases hk with ⟨rfl, _⟩ | ⟨rfl, _⟩ <;> revert hc <;> decide
    · rcases List.mem_cons.mp hc with hc | hc
      · exact absurd hc (by decide)
      · rcases List.mem_append.mp hc with hc | hc
        · exact h10 hc
        · exact absurd (List.eq_of_mem_replicate hc) (by decide)
  obtain ⟨t1, t2⟩ := line_take (r := r) hl
  have hd := dollar_ok (k := k) hw h32 n
  generalize hL : k ++ 32 :: (w ++ List.replicate n 32) = l at *
  have hne : l ≠ wOnEmpty ∧ l ≠ wOffEmpty ∧ l ≠ wOffEolCom ∧ l ≠ wEolCom ∧ (k = wLoadDC → dollar wGdxIn l = none) ∧ ∃ q, l = 36 :: q := by
    rcases hk with ⟨rfl, _⟩ | ⟨rfl, _⟩
    · refine ⟨?_, ?_, ?_, ?_, (fun h => absurd h (by decide)), ⟨_, hL.symm⟩⟩ <;> (rintro rfl; revert hL; unfold wGdxIn; simp [wOnEmpty, wOffEmpty, wOffEolCom, wEolCom])
    · refine ⟨?_, ?_, ?_, ?_, (fun h => ?_), ⟨_, hL.symm⟩⟩
      · rintro rfl; revert hL; unfold wLoadDC; simp [wOnEmpty]
      · rintro rfl; revert hL; unfold wLoadDC; simp [wOffEmpty]
      · rintro rfl; revert hL; unfold wLoadDC; simp [wOffEolCom]
      · rintro rfl; revert hL; unfold wLoadDC; simp [wEolCom]
      · rw [← hL]
        rfl
  obtain ⟨n1, n2, n3, n4, n5, q, rfl⟩ := hne
  conv => lhs; unfold loads
  rw [show skipL true (36 :: q ++ 10 :: r) = (true, 36 :: (q ++ 10 :: r)) from rfl]
  dsimp only
  rw [List.cons_append] at t1 t2
  rw [if_pos rfl, t1, t2, if_neg (by decide), if_neg (by rintro (h | h); exacts [n1 h, n2 h]), if_neg (fun h => n3 h.1), if_neg (fun h => n4 h.1)]
  rcases hk with ⟨rfl, rfl⟩ | ⟨rfl, rfl⟩
  · rw [hd]
    simp only [loads_newline]
  · rw [n5 rfl, hd]
    simp only [loads_newline]

/-- more statements than needed may be looked for -/
theorem loads_mono : ∀ {f f' : Nat} {b e : Bool} {s : Str} {l : List LStmt}, loads f b e s = some l → f ≤ f' → loads f' b e s = some l := by
  intro f
  induction f with
  | zero =>
    intro f' b e s l h _
    cases h
  | succ f ih =>
    intro f' b e s l h hf
    obtain ⟨f', rfl⟩ : ∃ k, f' = k + 1 := ⟨f' - 1, by omega⟩
    have ih' : ∀ {b e : Bool} {s : Str} {l : List LStmt}, loads f b e s = some l → loads f' b e s = some l := fun h => ih h (by omega)
    clear ih hf
    unfold loads at h ⊢
    generalize skipL b s = u at h ⊢
    obtain ⟨st, u⟩ := u
    cases u with
    | nil => exact h
    | cons c u =>
      dsimp only at h ⊢
      by_cases hc : c = 36
      · rw [if_pos hc] at h ⊢
        split at h
        · cases h
        rename_i h1
        rw [if_neg h1]
        split at h
        · rename_i h2
          rw [if_pos h2]
          exact ih' h
        rename_i h2
        rw [if_neg h2]
        split at h
        · rename_i h3
          rw [if_pos h3]
          exact ih' h
        rename_i h3
        rw [if_neg h3]
        split at h
        · rename_i h4
          rw [if_pos h4]
          exact ih' h
        rename_i h4
        rw [if_neg h4]
        split at h
        · obtain ⟨l', h5, h6⟩ := Option.map_eq_some_iff.mp h
          rw [ih' h5, Option.map_some, h6]
        split at h
        · obtain ⟨l', h5, h6⟩ := Option.map_eq_some_iff.mp h
          rw [ih' h5, Option.map_some, h6]
        cases h
      · rw [if_neg hc] at h ⊢
        obtain ⟨⟨w, r⟩, h1, h⟩ := Option.bind_eq_some_iff.mp h
        rw [h1]
        simp only [Option.bind_eq_bind, Option.bind_some] at h ⊢
        by_cases hw : w = wAlias
        · rw [if_pos hw] at h ⊢
          obtain ⟨⟨p, r⟩, h2, h⟩ := Option.bind_eq_some_iff.mp h
          obtain ⟨l', h3, h⟩ := Option.bind_eq_some_iff.mp h
          rw [h2]
          simp only [Option.bind_some]
          rw [ih' h3]
          exact h
        · rw [if_neg hw] at h ⊢
          by_cases hw : w = wAcronym
          · rw [if_pos hw] at h ⊢
            obtain ⟨⟨p, r⟩, h2, h⟩ := Option.bind_eq_some_iff.mp h
            obtain ⟨l', h3, h⟩ := Option.bind_eq_some_iff.mp h
            rw [h2]
            simp only [Option.bind_some]
            rw [ih' h3]
            exact h
          · rw [if_neg hw] at h ⊢
            obtain ⟨⟨p, r⟩, h2, h⟩ := Option.bind_eq_some_iff.mp h
            obtain ⟨l', h3, h⟩ := Option.bind_eq_some_iff.mp h
            rw [h2]
            simp only [Option.bind_some]
            rw [ih' h3]
            exact h

end Gdx.Gams
