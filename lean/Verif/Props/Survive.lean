import Verif.Props.Domains
import Verif.Props.Texts
import Verif.Props.SymbolTable
import Verif.Proofs.Ieee

/-! C33, C35: texts and comments after closing and reopening, files with repeated texts, comments that are not added. -/

namespace Gdx.Props
open Gdx Gdx.Spec

/-! ### C33 -/

/-- C33, reopening: every text number handed out gives the same text after closing the file and opening it again, and there are no others.
    For histories that open only files of the library. -/
theorem C33_reopen {e : Env} {z : Cz} (hz : z.Good) {cs : List Call} (hc : ∀ c ∈ cs, c.WF) (hi : OpensOwn z cs) {g g' : Gx} {r : Int}
    (hr : run e z Gx.new cs = .ok g) (hm : g.mode = .wInit) (hcl : gdxClose z g = .ok (g', r)) (hf : FileFits g)
    (hl : (g'.file.length : Int) ≤ 9223372036854775807) {g0 : Gx} (h0 : g0.mode = .notOpen) :
    ∃ g2, openRead z g0 (.content g'.file) = .ok (g2, (true, 0)) ∧
      ∀ n s, (∃ d, getElemText g n = (true, s, d)) ↔ getElemText g2 n = (true, s, 0) := by
  obtain ⟨_, g2, h1, _, h2⟩ := C06_own hz hc hi hr hm hcl hf hl h0
  refine ⟨g2, h1, fun n s => ⟨fun ⟨d, hd⟩ => h2.text n s d hd, fun h => ?_⟩⟩
  rcases hg : getElemText g n with ⟨b, t, d⟩
  cases b with
  | true =>
    have := h2.text n t d hg
    rw [h] at this
    cases this
    exact ⟨d, rfl⟩
  | false =>
    have := h2.textEnd n (by rw [hg])
    rw [h] at this
    cases this

/-- small numbers become different doubles -/
theorem intDbl_inj {a b : Int} (ha : 0 ≤ a) (hb : 0 ≤ b) (ha2 : a < 2147483648) (hb2 : b < 2147483648) (h : intDbl a = intDbl b) : a = b := by
  have bits : ∀ n : Int, 1 ≤ n → n < 2147483648 → (toDbl (n : ℚ)).toRat = rne n ∧ (toDbl (n : ℚ)).toNat ≠ 0 := by
    intro n h1 h2
    have hq : (1 : ℚ) ≤ n := by exact_mod_cast h1
    obtain ⟨s1, s2⟩ := signif_bounds (n : ℚ) hq
    have hexp : binExp (n : ℚ) < 31 := by
      unfold binExp
      rw [show ⌊(n : ℚ)⌋₊ = n.toNat by
        rw [show (n : ℚ) = ((n.toNat : Nat) : ℚ) by
          rw [show ((n.toNat : Nat) : ℚ) = ((n.toNat : Int) : ℚ) by push_cast; rfl, Int.toNat_of_nonneg (by omega)]]
        exact Nat.floor_natCast _]
      exact Nat.log_lt_of_lt_pow (by omega) (by omega)
    have hb : (binExp (n : ℚ) + 1022) * 4503599627370496 + (signif (n : ℚ)).toNat < 9218868437227405312 := by omega
    refine ⟨toRat_toDbl _ hq hb, ?_⟩
    unfold toDbl
    simp only
    rw [if_pos hb, UInt64.toNat_ofNat']
    omega
  have key : ∀ n : Int, 1 ≤ n → n < 2147483648 → |rne (n : ℚ) - n| < 1 / 2 := by
    intro n h1 h2
    have hq : (1 : ℚ) ≤ n := by exact_mod_cast h1
    have hq2 : (n : ℚ) < 2147483648 := by exact_mod_cast h2
    have := rne_err (n : ℚ) hq
    refine lt_of_le_of_lt this ?_
    rw [div_lt_iff₀ (by norm_num)]
    linarith
  unfold intDbl at h
  by_cases h1 : a ≤ 0
  · by_cases h2 : b ≤ 0
    · omega
    · rw [if_pos h1, if_neg h2] at h
      exact absurd (by rw [← h]; rfl) (bits b (by omega) hb2).2
  · by_cases h2 : b ≤ 0
    · rw [if_neg h1, if_pos h2] at h
      exact absurd (by rw [h]; rfl) (bits a (by omega) ha2).2
    · rw [if_neg h1, if_neg h2] at h
      have e1 := (bits a (by omega) ha2).1
      have e2 := (bits b (by omega) hb2).1
      rw [h, e2] at e1
      have k1 := key a (by omega) ha2
      have k2 := key b (by omega) hb2
      rw [← e1] at k1
      rw [abs_lt] at k1 k2
      have d1 : (a : ℚ) - b < 1 := by linarith
      have d2 : (b : ℚ) - a < 1 := by linarith
      have d3 : a - b < 1 := by exact_mod_cast d1
      have d4 : b - a < 1 := by exact_mod_cast d2
      omega

/-- the number under which the `n`th text of the file is kept, given MapSetText -/
def textNr (m : Option (List Int)) (n : Nat) : Int :=
  match m with
  | none => n
  | some l => (l[n]?).getD 0

/-- state of the loop: `ss` are the texts read so far -/
structure TextsSoFar (cnt : Nat) (ss : List Str) (l : List (Str × Int)) (m : Option (List Int)) : Prop where
  le : l.length ≤ ss.length
  same : m = none → l.length = ss.length
  full : ∀ x, m = some x → x.length = cnt ∧ l.length < ss.length
  nr : ∀ (n : Nat) (s : Str), ss[n]? = some s → ∃ k : Nat, textNr m n = k ∧ l[k]? = some (s, 0)
  zero : ∀ e ∈ l, e.2 = 0

theorem textNr_set {x : List Int} {n k : Nat} (v : Int) (h : k < n) : textNr (some (x.set n v)) k = textNr (some x) k := by
  unfold textNr
  simp only
  rw [List.getElem?_set_ne (by omega)]

theorem addTexts_spec (cnt : Nat) : ∀ (ss pre : List Str) (l : List (Str × Int)) (m : Option (List Int)), TextsSoFar cnt pre l m →
    pre.length + ss.length = cnt → ∃ l' m', addTexts cnt pre.length ss l m = .ok (l', m') ∧ TextsSoFar cnt (pre ++ ss) l' m'
  | [], pre, l, m, h, _ => ⟨l, m, rfl, by rw [List.append_nil]; exact h⟩
  | s :: ss, pre, l, m, h, hc => by
    unfold addTexts
    have main : ∀ (l1 : List (Str × Int)) (k : Nat), l <+: l1 ∧ l1[k]? = some (s, 0) ∧ k ≤ l.length ∧
        (k = l.length → l1.length = l.length + 1) ∧ (k ≠ l.length → l1 = l) ∧ (∀ e ∈ l1, e.2 = 0) → ∃ l' m',
        (if k = pre.length then addTexts cnt (pre.length + 1) ss l1 m
         else
          if pre.length < (m.getD ((List.range pre.length).map (fun (d : Nat) => (d : Int)) ++ List.replicate (cnt - pre.length) 0)).length then
            addTexts cnt (pre.length + 1) ss l1
              (some ((m.getD ((List.range pre.length).map (fun (d : Nat) => (d : Int)) ++ List.replicate (cnt - pre.length) 0)).set pre.length k))
          else .ub) = .ok (l', m') ∧ TextsSoFar cnt (pre ++ s :: ss) l' m' := by
      rintro l1 k ⟨e2, e3, e4, e5, e6, e7⟩
      have hpre : ∀ (n : Nat) (t : Str), (pre ++ [s])[n]? = some t → (n < pre.length ∧ pre[n]? = some t) ∨ (n = pre.length ∧ t = s) := by
        intro n t hn
        rcases Nat.lt_or_ge n pre.length with hlt | hge
        · rw [List.getElem?_append_left hlt] at hn
          exact Or.inl ⟨hlt, hn⟩
        · rw [List.getElem?_append_right hge] at hn
          cases hnn : n - pre.length with
          | zero =>
            rw [hnn] at hn
            cases hn
            exact Or.inr ⟨by omega, rfl⟩
          | succ j => rw [hnn] at hn; cases hn
      have hcont : ∀ m1, TextsSoFar cnt (pre ++ [s]) l1 m1 →
          ∃ l' m', addTexts cnt (pre.length + 1) ss l1 m1 = .ok (l', m') ∧ TextsSoFar cnt (pre ++ s :: ss) l' m' := by
        intro m1 h1
        have := addTexts_spec cnt ss (pre ++ [s]) l1 m1 h1 (by simp at hc ⊢; omega)
        rw [show (pre ++ [s]).length = pre.length + 1 by simp] at this
        rw [show pre ++ s :: ss = pre ++ [s] ++ ss by simp]
        exact this
      have hold : ∀ (k : Nat) (t : Str), l[k]? = some (t, 0) → l1[k]? = some (t, 0) := by
        intro k t hk
        obtain ⟨q, rfl⟩ := e2
        rw [List.getElem?_append_left (List.getElem?_eq_some_iff.mp hk).1]
        exact hk
      by_cases hk : k = pre.length
      · rw [if_pos hk]
        apply hcont
        have hle := h.le
        have hl : k = l.length := by omega
        refine ⟨by rw [e5 hl]; simp; omega, fun hm => by rw [e5 hl]; simp; omega, ?_, ?_, e7⟩
        · intro x hx
          have := (h.full x hx).2
          omega
        · intro n t hn
          rcases hpre n t hn with ⟨_, h1⟩ | ⟨h1, h2⟩
          · obtain ⟨j, j1, j2⟩ := h.nr n t h1
            exact ⟨j, j1, hold j t j2⟩
          · subst h1 h2
            have hm : m = none := by
              cases hm : m with
              | none => rfl
              | some x =>
                have := (h.full x hm).2
                omega
            subst hm
            exact ⟨k, by unfold textNr; simp only; omega, e3⟩
      · rw [if_neg hk]
        have hle := h.le
        -- the map that is written to
        have hmap : ∃ x : List Int, m.getD ((List.range pre.length).map (fun (d : Nat) => (d : Int)) ++ List.replicate (cnt - pre.length) 0) = x ∧
            x.length = cnt ∧ ∀ (n : Nat) (t : Str), pre[n]? = some t → textNr (some x) n = textNr m n := by
          cases m with
          | none =>
            simp only [List.length_cons] at hc
            refine ⟨_, rfl, by simp; omega, ?_⟩
            intro n t hn
            have hlt := (List.getElem?_eq_some_iff.mp hn).1
            unfold textNr
            simp only [Option.getD_none]
            rw [List.getElem?_append_left (by simpa using hlt)]
            simp [List.getElem?_range hlt]
          | some x => exact ⟨x, rfl, (h.full x rfl).1, fun _ _ _ => rfl⟩
        obtain ⟨x, x1, x2, x3⟩ := hmap
        rw [x1]
        simp only [List.length_cons] at hc
        rw [if_pos (by omega)]
        apply hcont
        have hk2 : k < pre.length := by omega
        refine ⟨?_, fun hm => (by cases hm), ?_, ?_, e7⟩
        · simp only [List.length_append, List.length_singleton]
          by_cases hkl : k = l.length
          · rw [e5 hkl]; omega
          · rw [e6 hkl]; omega
        · intro y hy
          cases hy
          refine ⟨by rw [List.length_set]; exact x2, ?_⟩
          simp only [List.length_append, List.length_singleton]
          by_cases hkl : k = l.length
          · rw [e5 hkl]; omega
          · rw [e6 hkl]
            omega
        · intro n t hn
          rcases hpre n t hn with ⟨hlt, h1⟩ | ⟨h1, h2⟩
          · obtain ⟨j, j1, j2⟩ := h.nr n t h1
            exact ⟨j, by rw [textNr_set _ hlt, x3 n t h1]; exact j1, hold j t j2⟩
          · subst h1 h2
            refine ⟨k, ?_, e3⟩
            unfold textNr
            simp only
            rw [List.getElem?_set_self (by omega)]
            rfl
    cases hlk : lookup true s (l.map Prod.fst) with
    | some k =>
      obtain ⟨x, h1, h2⟩ := lookup_some hlk
      have hlt := lookup_lt hlk
      rw [List.length_map] at hlt
      rw [List.getElem?_map] at h1
      obtain ⟨⟨y, d⟩, hy, hyx⟩ := Option.map_eq_some_iff.mp h1
      simp only at hyx
      subst hyx
      have hxs : y = s := by
        have := h2
        simpa [SameName] using this
      subst hxs
      have hd : d = 0 := h.zero _ (List.mem_of_getElem? hy)
      subst hd
      exact main l k ⟨List.prefix_refl _, hy, by omega, fun hk => by omega, fun _ => rfl, h.zero⟩
    | none =>
      refine main (l ++ [(s, 0)]) l.length ⟨List.prefix_append _ _, by simp, by omega, fun _ => by simp, fun hk => absurd rfl hk, ?_⟩
      intro e he
      rcases List.mem_append.mp he with he | he
      · exact h.zero e he
      · rw [List.mem_singleton.mp he]

/-- C33, files in which texts are repeated (other programs may write them): the texts of the file are accepted whatever they are and the
    `n`th text is found under the number to which `n` is mapped. -/
theorem C33_repeated (ss : List Str) : ∃ l m, addTexts ss.length 0 ss [] none = .ok (l, m) ∧
    (∀ (n : Nat) (s : Str), ss[n]? = some s → ∃ k : Nat, textNr m n = k ∧ l[k]? = some (s, 0)) ∧
    (m = none ∨ ∃ x, m = some x ∧ x.length = ss.length) := by
  obtain ⟨l, m, h1, h2⟩ := addTexts_spec ss.length ss [] [] none
    ⟨Nat.le_refl _, fun _ => rfl, fun _ h => (by cases h), fun n s h => (by cases h), fun _ h => (by cases h)⟩ (by simp)
  refine ⟨l, m, h1, fun n s hn => h2.nr n s (by simpa using hn), ?_⟩
  cases m with
  | none => exact Or.inl rfl
  | some x => exact Or.inr ⟨x, rfl, by simpa using (h2.full x rfl).1⟩

/-- C33: reading translates the text number `n` of a record of a set; the values of other symbols are not touched -/
theorem C33_translate (g : Gx) (s : Sym) (m : List Int) (hm : g.mapText = some m) (hl : m.length < 2147483648) :
    (s.typ = dtSet → ∀ (n : Nat), 0 < n → n < m.length → ∀ xs, remapTexts g s (intDbl n :: xs) = .ok (intDbl (textNr (some m) n) :: xs)) ∧
    (s.typ ≠ dtSet → ∀ xs, remapTexts g s xs = .ok xs) := by
  constructor
  · intro ht n h0 hn xs
    unfold remapTexts
    rw [hm]
    simp only
    have hnz : nonZero (intDbl (n : Int)) = true := by
      unfold nonZero
      have h1 : intDbl (n : Int) ≠ Dbl.zero := by
        intro he
        have := intDbl_inj (a := n) (b := 0) (by omega) (by omega) (by omega) (by omega) he
        omega
      have h2 : intDbl (n : Int) ≠ Dbl.negZero := by
        unfold intDbl
        rw [if_neg (by omega)]
        intro he
        have hq : (1 : ℚ) ≤ ((n : Int) : ℚ) := by exact_mod_cast h0
        obtain ⟨s1, s2⟩ := signif_bounds ((n : Int) : ℚ) hq
        have := congrArg UInt64.toNat he
        unfold toDbl at this
        simp only at this
        split at this
        · rename_i hb
          rw [UInt64.toNat_ofNat', show Dbl.negZero.toNat = 9223372036854775808 by rfl] at this
          omega
        · exact absurd this (by decide)
      simp [h1, h2]
    rw [if_pos ⟨hnz, ht⟩]
    unfold remapText
    have hf : (List.range m.length).find? (fun (k : Nat) => intDbl (k : Int) == intDbl (n : Int)) = some n := by
      rw [List.find?_range_eq_some]
      refine ⟨by simp, by simpa using hn, ?_⟩
      intro j hj
      simp only [Bool.not_eq_true', beq_eq_false_iff_ne, ne_eq]
      intro he
      have := intDbl_inj (a := j) (b := n) (by omega) (by omega) (by omega) (by omega) he
      omega
    rw [hf]
    simp only
    obtain ⟨k, hk⟩ : ∃ k, m[n]? = some k := ⟨_, List.getElem?_eq_getElem hn⟩
    rw [hk]
    unfold textNr
    simp only [hk]
    rfl
  · intro ht xs
    unfold remapTexts
    rw [hm]
    cases xs with
    | nil => rfl
    | cons x xs =>
      simp only
      rw [if_neg (fun h => ht h.2)]

/-- the texts "a", "b", "a", "c": numbers 1 and 3 of "b" and "c" become 1 and 2 -/
example : addTexts 4 0 [[97], [98], [97], [99]] [] none = .ok ([([97], 0), ([98], 0), ([99], 0)], some [0, 1, 0, 2]) := by decide +kernel

/-! ### C35 -/

/-- C35, reopening: the comments are the same after closing the file and opening it again -/
theorem C35_reopen {e : Env} {z : Cz} (hz : z.Good) {cs : List Call} (hc : ∀ c ∈ cs, c.WF) (hi : OpensOwn z cs) {g g' : Gx} {r : Int}
    (hr : run e z Gx.new cs = .ok g) (hm : g.mode = .wInit) (hcl : gdxClose z g = .ok (g', r)) (hf : FileFits g)
    (hl : (g'.file.length : Int) ≤ 9223372036854775807) {g0 : Gx} (h0 : g0.mode = .notOpen) :
    ∃ g2, openRead z g0 (.content g'.file) = .ok (g2, (true, 0)) ∧ ∀ nr n, symbolGetComment g2 nr n = symbolGetComment g nr n := by
  obtain ⟨_, g2, h1, _, h2⟩ := C06_own hz hc hi hr hm hcl hf hl h0
  exact ⟨g2, h1, h2.comment⟩

/-- the call adds a comment to symbol `nr` -/
def AddsComment (nr : Int) (g : Gx) : Call → Prop
  | .addComment m _ => m = nr ∨ m ≤ 0 ∧ ∃ n : Nat, g.cur = .sym n ∧ (n : Int) = nr
  | _ => False

def ComHolds (n : Nat) (c : List (Option Str)) (g : Gx) : Prop :=
  ∀ syms, g.names = some syms → ∃ s, syms[n]? = some s ∧ s.comments = c

theorem ComHolds.prim {lc : Lic} (h1 : ¬ lc .comment) (n : Nat) (c : List (Option Str)) :
    ∀ x y, Prim lc x y → ComHolds n c x → ComHolds n c y := by
  intro x y h hg
  cases h with
  | ctrl h _ _ => intro l hl; exact hg l (by rw [← show y.names = x.names from congrArg Core.names h]; exact hl)
  | addSym syms acros s c m h ha hs hc _ =>
    intro l hl
    cases hl
    obtain ⟨t, e1, e2⟩ := hg syms h
    exact ⟨t, by rw [List.getElem?_append_left (List.getElem?_eq_some_iff.mp e1).1]; exact e1, e2⟩
  | modSym syms m s s' h hn hs =>
    intro l hl
    cases hl
    obtain ⟨t, e1, e2⟩ := hg syms h
    by_cases hmn : m = n
    · subst hmn
      rw [hn] at e1
      cases e1
      refine ⟨s', by rw [List.getElem?_set_self (List.getElem?_eq_some_iff.mp hn).1], ?_⟩
      cases hs with
      | comment _ _ hk => exact absurd hk h1
      | _ => exact e2
    · exact ⟨t, by rw [List.getElem?_set_ne hmn]; exact e1, e2⟩
  | _ => exact hg

theorem lic_comment {c : Call} (h : ∀ n t, c ≠ .addComment n t) : ¬ c.lic .comment := by
  cases c <;> first | exact absurd rfl (h _ _) | (intro h; cases h; done) | (rintro (h | h) <;> cases h; done)

/-- C35: no call adds to the comments of a symbol (or removes or changes them) except gdxSymbolAddComment for this symbol -/
theorem C35_only (e : Env) (z : Cz) (cs : List Call) (g g' : Gx) (hc : NoOpen cs) (ha : Aft g) (hr : run e z g cs = .ok g')
    (nr : Int) (hs : Along (fun g c _ => ¬ AddsComment nr g c) e z g cs) (hn : g'.names ≠ none) (h1 : 1 ≤ nr) (h2 : nr ≤ (systemInfo g).1)
    (k : Int) : symbolGetComment g' nr k = symbolGetComment g nr k := by
  obtain ⟨syms, s, hsy, hx, hsa⟩ := symAt_in h1 h2
  obtain ⟨syms', hn'⟩ := Option.ne_none_iff_exists'.mp hn
  obtain ⟨n, rfl⟩ : ∃ n : Nat, nr = (n : Int) + 1 := ⟨(nr - 1).toNat, by omega⟩
  rw [show ((n : Int) + 1 - 1).toNat = n by omega] at hx
  have hk := ((run_all (P := ComHolds n s.comments) (Q := fun g c _ => (c.opensRead = false ∧ c.opensWrite = false) ∧
      ¬ AddsComment ((n : Int) + 1) g c) e z (fun g c g' hc ha hg hq hp => ?_) cs g
      (fun c h => (hc c h).1) ha (fun l hl => by rw [hsy] at hl; cases hl; exact ⟨s, hx, rfl⟩)
      (along_and (along_of e z cs g fun _ _ c h => (hc c h).2) hs)).of_ok hr).2
  · obtain ⟨s', e1, e2⟩ := hk syms' hn'
    have hsa' : g'.symAt ((n : Int) + 1) = some s' := by
      have := (List.getElem?_eq_some_iff.mp e1).1
      unfold Gx.symAt
      rw [hn']
      simp only
      rw [if_pos (by omega), show ((n : Int) + 1 - 1).toNat = n by omega, e1]
    unfold symbolGetComment
    rw [hsa, hsa']
    simp only [e2]
  · by_cases hcm : ∃ m t, c = .addComment m t
    · obtain ⟨m, t, rfl⟩ := hcm
      obtain ⟨b, hg⟩ := stateOf_ok hg
      cases b with
      | true =>
        obtain ⟨sy, j, x, q1, q2, q3, rfl⟩ := C35_add g g' m t hg
        have hne : j ≠ n := by
          rintro rfl
          rcases q3 with q3 | ⟨q3, q4⟩
          · exact hq.2 (Or.inl q3)
          · exact hq.2 (Or.inr ⟨q3, j + 1, q4, by push_cast; rfl⟩)
        intro l hl
        cases hl
        rw [List.getElem?_set_ne hne]
        exact hp sy q1
      | false =>
        have hnames : g'.names = g.names := by
          unfold symbolAddComment at hg
          rcases chk_cases g anyWrite with ⟨_, hc⟩ | ⟨_, hc⟩
          · simp only [hc, Bool.true_eq_false, if_false] at hg
            split at hg
            · split at hg
              · cases hg; rfl
              · obtain ⟨_, _, hg⟩ := Res.bind_eq_ok.mp hg
                cases hg
            · split at hg
              · split at hg
                · cases hg
                · cases hg; rfl
              · cases hg; rfl
          · simp only [hc, if_true] at hg
            cases hg
            rfl
        intro l hl
        rw [hnames] at hl
        exact hp l hl
    · have hpr := ComHolds.prim (lc := c.lic) (lic_comment fun m t hi => hcm ⟨m, t, hi⟩) n s.comments
      exact (step_inv_l hpr (fun _ _ _ _ l hl => by cases hl) (fun _ h => h) e z hc hq.1.1 hq.1.2 ha
        (fun m s _ => uelRegisterMap_inv hpr (fun _ _ _ _ _ h => h) m s hp) (fun o s _ => renameUEL_inv (fun _ _ _ _ _ h => h) o s hp)
        hp).of_ok hg

/-- texts and comments after reopening -/
example : reopened26 [.openWrite false 0 [65] 0, .addSetText [116], .addSetText [117], .rawStart [105] [] 1 0 0, .addComment 0 [97], .writeDone,
      .addComment 1 [98]] (fun g => do
      let a ← symbolGetComment g 1 1
      let b ← symbolGetComment g 1 2
      let c ← symbolGetComment g 1 3
      pure ([getElemText g 1, getElemText g 2], [a, b, c, ((getElemText g 3).1, [])])) =
    .ok ([(true, [116], 0), (true, [117], 0)], [(true, [97]), (true, [98]), (false, []), (false, [])]) := by decide +kernel

#print axioms C33_reopen
#print axioms C33_repeated
#print axioms C33_translate
#print axioms C35_reopen
#print axioms C35_only

end Gdx.Props
