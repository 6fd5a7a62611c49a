import Verif.Proofs.Evo
import Verif.Proofs.Ieee
import Verif.Props.Strings

/-! Small facts used to show that calls are chains of elementary steps. -/

namespace Gdx
open Gdx.Props

theorem EvoR.trans {α : Type} {g g1 : Gx} {r : Res (Gx × α)} (h : Evo lc g g1) (hr : EvoR lc g1 r) : EvoR lc g r :=
  hr.mono fun _ hx => h.trans hx

theorem EvoR.ok {α : Type} {g g1 : Gx} {a : α} (h : Evo lc g g1) : EvoR lc g (.ok (g1, a)) := h

theorem EvoR.pure {α : Type} {g g1 : Gx} {a : α} (h : Evo lc g g1) : EvoR lc g (Pure.pure (g1, a) : Res (Gx × α)) := h

theorem modify_eq_set_of {α : Type} {l : List α} {n : Nat} {a : α} (h : l[n]? = some a) (f : α → α) :
    l.modify n f = l.set n (f a) := by
  apply List.ext_getElem?
  intro i
  rw [List.getElem?_modify, List.getElem?_set]
  by_cases hi : n = i
  · subst hi
    simp only [if_true, h]
    rw [if_pos (List.getElem?_eq_some_iff.mp h).1]
    rfl
  · simp [hi]

theorem curSym_ok {g : Gx} {s : Sym} (h : g.curSym = .ok s) :
    ∃ n syms, g.cur = .sym (n + 1) ∧ g.names = some syms ∧ syms[n]? = some s := by
  unfold Gx.curSym at h
  split at h
  · rename_i n l hc hn
    obtain ⟨h1, h2, h3⟩ := at1_ok h
    refine ⟨n - 1, l, ?_, hn, ?_⟩
    · rw [hc]; congr 1; omega
    · rw [← h3]; congr 1; omega
  · cases h

theorem modCur_ok {g g' : Gx} {f : Sym → Sym} (h : g.modCur f = .ok g') :
    ∃ n syms s, g.cur = .sym (n + 1) ∧ g.names = some syms ∧ syms[n]? = some s ∧
      g' = { g with names := some (syms.set n (f s)) } := by
  unfold Gx.modCur at h
  split at h
  · rename_i n l hc hn
    split at h
    · rename_i hr
      have hs : (l[n - 1]?) = some (l[n - 1]'(by omega)) := List.getElem?_eq_getElem (by omega)
      refine ⟨n - 1, l, _, ?_, hn, hs, ?_⟩
      · rw [hc]; congr 1; omega
      · cases h
        rw [modify_eq_set_of hs]
    · cases h
  · cases h

theorem modCur_evo (lc : Lic) {g : Gx} {f : Sym → Sym}
    (hf : ∀ n syms s, g.cur = .sym (n + 1) → g.names = some syms → syms[n]? = some s → SymStep lc g syms n s (f s)) :
    (g.modCur f).All fun g' => Evo lc g g' ∧ g'.mode = g.mode ∧ g'.cur = g.cur ∧ g'.dataCount = g.dataCount ∧
      g'.nextWrite = g.nextWrite := by
  apply Res.All_of
  intro g' h
  obtain ⟨n, syms, s, h1, h2, h3, rfl⟩ := modCur_ok h
  exact ⟨Evo.of_prim (.modSym g syms n s _ h2 h3 (hf n syms s h1 h2 h3)), rfl, rfl, rfl, rfl⟩

theorem zfree_quotable {s : Str} (h : Quotable s) : ZFree s := by
  intro c hc h0
  have := h.1 c hc
  rw [h0] at this
  exact absurd this (by decide)

theorem zfree_good (s : Str) : ZFree (makeGoodExplText s) := zfree_quotable (C34_legal s)

theorem zfree_goodUEL {s : Str} (h : goodUEL s = true) : ZFree s := by
  unfold goodUEL canBeQuoted at h
  rw [Bool.and_eq_true, canBeQuotedLoop_iff] at h
  exact fun c hc h0 => by
    have := h.2.1 c hc
    rw [h0] at this
    exact absurd this (by decide)

theorem goodUEL_length {s : Str} (h : goodUEL s = true) : s.length < 64 := by
  unfold goodUEL at h
  rw [Bool.and_eq_true, decide_eq_true_iff] at h
  exact h.1

theorem isIdentChar_ne_zero {c : UInt8} (h : isIdentChar c = true) : c ≠ 0 := by
  rintro rfl
  exact absurd h (by decide)

theorem isGoodIdent_zfree {s : Str} (h : isGoodIdent s = true) : ZFree s ∧ s.length < 64 := by
  cases s with
  | nil => cases h
  | cons c cs =>
    rw [isGoodIdent, Bool.and_eq_true, Bool.and_eq_true, decide_eq_true_iff] at h
    refine ⟨?_, by simpa using h.2⟩
    intro d hd
    rcases List.mem_cons.mp hd with rfl | hd
    · exact isIdentChar_ne_zero (by unfold isIdentChar; rw [h.1.1]; rfl)
    · exact isIdentChar_ne_zero (List.all_eq_true.mp h.1.2 d hd)

theorem isGoodIdent_ne_nil {s : Str} (h : isGoodIdent s = true) : s ≠ [] := by
  rintro rfl; cases h

theorem trimR_ok {s t : Str} (h : trimR s = .ok t) : t = trimRight s := by
  unfold trimR at h
  simp only at h
  split at h
  · cases h
  · cases h; rfl

theorem trimR_trimmed {s t : Str} (h : trimR s = .ok t) : trimRight t = t := by
  rw [trimR_ok h]; exact C46_trim_idem s

theorem assignExpl_length (t : Str) : (assignExpl t).length ≤ 255 := by
  unfold assignExpl
  split
  · rename_i h; unfold ssSize at h; omega
  · simp only [List.length_append, List.length_take, ssSize, strOverflow, List.length_cons, List.length_nil]
    omega

theorem makeGood_length (s : Str) : (makeGoodExplText s).length = s.length := (C34_keeps s).1

theorem zfree_append {a b : Str} (ha : ZFree a) (hb : ZFree b) : ZFree (a ++ b) := by
  intro c hc
  rcases List.mem_append.mp hc with h | h
  · exact ha c h
  · exact hb c h

theorem acrDiv_bound {d : Dbl} {n : Int} (hg : geAcr d = true) (h : acrDiv d = .ok n) : 1 ≤ n ∧ n ≤ 2147483647 := by
  unfold acrDiv at h
  split at h
  · cases h
  rename_i hi
  cases h
  rw [geAcr_iff] at hg
  have hlt : d.toNat < 9218868437227405312 := by
    rcases Nat.lt_or_eq_of_le hg.2 with h | h
    · exact h
    · exact absurd (UInt64.toNat_inj.mp (show d.toNat = Dbl.posInf.toNat by rw [h]; decide)) hi
  generalize hN : d.toNat = N at *
  have he1 : 2022 ≤ N / 4503599627370496 := by omega
  have he2 : N / 4503599627370496 ≤ 2046 := by omega
  have hq : d.toRat = ((4503599627370496 + N % 4503599627370496 : Nat) : ℚ) *
      (2 : ℚ) ^ (((N / 4503599627370496 : Nat) : Int) - 1075) := by
    unfold Dbl.toRat
    rw [hN, Nat.mod_eq_of_lt (show N / 4503599627370496 < 2048 by omega)]
  obtain ⟨e, he⟩ : ∃ e : Nat, N / 4503599627370496 = 2022 + e := ⟨N / 4503599627370496 - 2022, by omega⟩
  have hpow : (2 : ℚ) ^ (((N / 4503599627370496 : Nat) : Int) - 1075) = (2 : ℚ) ^ (947 : Int) * 2 ^ e := by
    rw [he, ← zpow_natCast, ← zpow_add₀ (by norm_num)]
    congr 1
    push_cast
    ring
  have hp : (0 : ℚ) < (2 : ℚ) ^ (947 : Int) := by positivity
  have hdiv : d.toRat / Dbl.acr.toRat =
      ((4503599627370496 + N % 4503599627370496 : Nat) : ℚ) * 2 ^ e / 8406091369059075 := by
    rw [hq, hpow, acr_toRat]
    rw [mul_comm (8406091369059075 : ℚ), ← mul_assoc, mul_comm (_ : ℚ) ((2 : ℚ) ^ (947 : Int)), mul_assoc,
      mul_div_mul_left _ _ hp.ne']
  have hm : N % 4503599627370496 < 4503599627370496 := Nat.mod_lt _ (by norm_num)
  have h1 : (1 : ℚ) ≤ d.toRat / Dbl.acr.toRat := by
    rw [hdiv, le_div_iff₀ (by norm_num), one_mul]
    have : 8406091369059075 ≤ (4503599627370496 + N % 4503599627370496) * 2 ^ e := by
      rcases Nat.eq_zero_or_pos e with rfl | hpos
      · have := Nat.div_add_mod N 4503599627370496
        simp
        omega
      · have : 2 ≤ 2 ^ e := by
          calc 2 = 2 ^ 1 := rfl
            _ ≤ 2 ^ e := Nat.pow_le_pow_right (by norm_num) hpos
        calc 8406091369059075 ≤ 4503599627370496 * 2 := by norm_num
          _ ≤ _ := Nat.mul_le_mul (Nat.le_add_right _ _) this
    exact_mod_cast this
  have h2 : d.toRat / Dbl.acr.toRat ≤ 33554432 := by
    rw [hdiv, div_le_iff₀ (by norm_num)]
    have h2e : 2 ^ e ≤ 16777216 := by
      calc 2 ^ e ≤ 2 ^ 24 := Nat.pow_le_pow_right (by norm_num) (by omega)
        _ = 16777216 := by norm_num
    have : (4503599627370496 + N % 4503599627370496) * 2 ^ e ≤ 9007199254740992 * 16777216 :=
      Nat.mul_le_mul (by omega) h2e
    have h3 : (((4503599627370496 + N % 4503599627370496) * 2 ^ e : Nat) : ℚ) ≤ ((9007199254740992 * 16777216 : Nat) : ℚ) := by
      exact_mod_cast this
    push_cast at h3 ⊢
    linarith
  generalize d.toRat / Dbl.acr.toRat = q at h1 h2
  have e1 := rne_err q h1
  rw [abs_le] at e1
  have f1 : (1 : ℚ) / 2 ≤ rne q := by
    have : q / 9007199254740992 ≤ 1 / 2 := by rw [div_le_iff₀ (by norm_num)]; linarith
    linarith [e1.1]
  have f2 : rne q ≤ 67108864 := by
    have : q / 9007199254740992 ≤ 1 := by rw [div_le_iff₀ (by norm_num)]; linarith
    linarith [e1.2]
  have e2 := rne_err (rne q + 1 / 2) (by linarith)
  rw [abs_le] at e2
  have hr1 : (1 : ℚ) ≤ rne (rne q + 1 / 2) := by
    have := rne_mono (p := 1) (q := rne q + 1 / 2) le_rfl (by linarith)
    have e : rne 1 = 1 := by
      have hb : binExp 1 = 0 := by unfold binExp; norm_num
      unfold rne signif
      rw [hb]
      have : (1 : ℚ) / (2 : ℚ) ^ (((0 : Nat) : Int) - 52) = ((4503599627370496 : Int) : ℚ) := by norm_num
      rw [this]
      have hre : roundEven ((4503599627370496 : Int) : ℚ) = 4503599627370496 :=
        le_antisymm (roundEven_le_int _ _ le_rfl) (roundEven_mono_int _ _ le_rfl)
      rw [hre]
      norm_num
    rw [e] at this
    exact this
  have hr2 : rne (rne q + 1 / 2) ≤ 2147483647 := by
    have : (rne q + 1 / 2) / 9007199254740992 ≤ 1 := by rw [div_le_iff₀ (by norm_num)]; linarith
    linarith [e2.2]
  unfold roundPos
  constructor
  · exact Int.le_floor.mpr (by exact_mod_cast hr1)
  · have : ((⌊rne (rne q + 1 / 2)⌋ : Int) : ℚ) ≤ 2147483647 := (Int.floor_le _).trans hr2
    exact_mod_cast this

end Gdx
