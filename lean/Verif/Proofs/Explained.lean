import Verif.Proofs.MergeTake
import Verif.Props.Texts

/-! The explanatory text of a symbol that is written. -/

namespace Gdx.Merge
open Gdx Gdx.Spec Gdx.Props

/-- symbol `i` (from 0) of the file has this explanatory text -/
def Explained (g : Gx) (i : Nat) (t : Str) : Prop := ∃ l s, g.names = some l ∧ l[i]? = some s ∧ s.expl = t

theorem Explained.stays {e : Env} {z : Cz} (hz : z.Good) {g g' : Gx} {i : Nat} {t : Str} (h : Explained g i t) (ha : After e z g) (hs : StaysIn e z g g')
    {l' : List Sym} (hn : g'.names = some l') : Explained g' i t := by
  obtain ⟨l, s, h1, h2, h3⟩ := h
  obtain ⟨cs, c1, c2⟩ := hs
  have hno : NoOpen cs := by
    intro c hc
    refine ⟨(c1 c hc).1, ?_⟩
    have := (c1 c hc).2
    cases c <;> first | exact ⟨rfl, rfl⟩ | cases this
  obtain ⟨s', k1, k2⟩ := (Holds.run e z cs g hno (ha.fine hz).aft l h1).of_ok c2 l' hn i s h2
  exact ⟨l', s', hn, k1, k2.expl.trans h3⟩

theorem prepareWrite_expl {g g' : Gx} {name text : Str} {dim typ ui : Int} (h : prepareWrite g name text dim typ ui = .ok (g', true)) :
    ∃ syms sy, g.names = some syms ∧ g'.names = some (syms ++ [sy]) ∧ sy.expl = makeGoodExplText (assignExpl text) := by
  unfold prepareWrite at h
  generalize hg0 : ({ g with cur := .none, errList := none, sort := none } : Gx) = g0 at h ⊢
  dsimp only at h
  rcases chk_cases g0 [.wInit] with ⟨hm, hc⟩ | ⟨hm, hc⟩
  swap
  · rw [hc] at h
    cases h
  rw [hc] at h
  simp only [Bool.true_eq_false, if_false] at h
  obtain ⟨syms, h1, h⟩ := Res.bind_eq_ok.mp h
  obtain ⟨acros, h2, h⟩ := Res.bind_eq_ok.mp h
  rcases isGoodNewSymbol_cases g0 syms acros name with ⟨h3, _⟩ | ⟨n, _, h3⟩
  swap
  · rw [h3] at h
    cases h
  rw [h3] at h
  simp only [Bool.true_eq_false, if_false] at h
  split at h
  · cases h
  split at h
  · cases h
  cases h
  subst hg0
  exact ⟨syms, _, need_ok h1, rfl, rfl⟩

theorem strStart_expl {g g1 : Gx} {name text : Str} {dim typ ui : Int} (h : dataWriteStrStart g name text dim typ ui = .ok (g1, true)) {syms : List Sym}
    (hs : g.names = some syms) : Explained g1 syms.length (makeGoodExplText (assignExpl text)) := by
  unfold dataWriteStrStart at h
  obtain ⟨⟨gp, b⟩, h1, h⟩ := Res.bind_eq_ok.mp h
  dsimp only at h
  cases b with
  | false => cases h
  | true =>
    simp only [Bool.true_eq_false, if_false] at h
    cases h
    obtain ⟨syms', sy, k1, k2, k3⟩ := prepareWrite_expl h1
    rw [hs] at k1
    cases k1
    exact ⟨_, sy, k2, by simp, k3⟩

theorem rawStart_expl {g g1 : Gx} {name text : Str} {dim typ ui : Int} (h : dataWriteRawStart g name text dim typ ui = .ok (g1, true)) {syms : List Sym}
    (hs : g.names = some syms) : Explained g1 syms.length (makeGoodExplText (assignExpl text)) := by
  unfold dataWriteRawStart at h
  obtain ⟨⟨gp, b⟩, h1, h⟩ := Res.bind_eq_ok.mp h
  dsimp only at h
  cases b with
  | false => cases h
  | true =>
    simp only [Bool.true_eq_false, if_false] at h
    obtain ⟨g2, h2, h⟩ := Res.bind_eq_ok.mp h
    cases h
    obtain ⟨syms', sy, k1, k2, k3⟩ := prepareWrite_expl h1
    rw [hs] at k1
    cases k1
    obtain ⟨_, _, _, m', syms', s', e1, e2, e3, rfl⟩ := initDoWrite_ok h2
    rw [k2] at e2
    cases e2
    by_cases hm : m' = syms.length
    · subst hm
      simp only [List.getElem?_append_right (Nat.le_refl _), Nat.sub_self, List.getElem?_cons_zero, Option.some.injEq] at e3
      subst e3
      exact ⟨_, _, rfl, List.getElem?_set_self (by simp), k3⟩
    · refine ⟨_, sy, rfl, ?_, k3⟩
      rw [List.getElem?_set_ne hm]
      simp

theorem assignExpl_short {t : Str} (h : t.length ≤ 255) : assignExpl t = t := by
  unfold assignExpl ssSize
  rw [if_pos (by omega)]

end Gdx.Merge
