import Verif.Proofs.DiffRead
import Verif.Proofs.Arrive
import Verif.Proofs.CollKey

/-!
`gdxdiff`: opening the files; comparing a file with itself.
-/

namespace Gdx.Diff
open Gdx Gdx.Props

/-! ### what opening a file does not touch -/

/-- what opening a file does not touch -/
def _root_.Gdx.Gx.still (g : Gx) : Int × Int := (g.nextAuto, g.nrMapped)

theorem openHeader_still (g : Gx) (l : List UInt8) : (openHeader g l).All fun x => x.1.still = g.still := by
  unfold openHeader
  refine Res.All.bind' ?_
  rintro ⟨b, l⟩ _
  simp only
  split
  · rfl
  split
  · rfl
  refine Res.All.bind' ?_
  rintro ⟨v, l⟩ _
  simp only
  split
  · rfl
  refine Res.All.bind' ?_
  rintro ⟨c, l⟩ _
  simp only
  refine Res.All.bind' ?_
  rintro ⟨m, l⟩ _
  simp only
  split
  · rfl
  refine Res.All.bind' ?_
  rintro ⟨ix, l⟩ _
  rfl

theorem openSyms_still (z : Cz) (ix : Index) (g : Gx) : (openSyms z ix g).All fun x => x.1.still = g.still := by
  unfold openSyms
  refine Res.All.bind' ?_
  intro l _
  simp only
  split
  · rfl
  refine Res.All.bind' ?_
  rintro ⟨n, l⟩ _
  simp only
  refine Res.All.bind' ?_
  rintro ⟨syms, l⟩ _
  simp only
  split <;> split <;> rfl

theorem openUels_still (z : Cz) (ix : Index) (g : Gx) : (openUels z ix g).All fun x => x.1.still = g.still := by
  unfold openUels
  refine Res.All.bind' ?_
  intro l _
  simp only
  split
  · rfl
  refine Res.All.bind' ?_
  rintro ⟨n, l⟩ _
  simp only
  refine Res.All.bind' ?_
  rintro ⟨strs, l⟩ _
  simp only
  split <;> rfl

theorem openTexts_still (z : Cz) (ix : Index) (g : Gx) : (openTexts z ix g).All fun x => x.1.still = g.still := by
  unfold openTexts
  refine Res.All.bind' ?_
  intro l _
  simp only
  split
  · rfl
  refine Res.All.bind' ?_
  rintro ⟨n, l⟩ _
  simp only
  refine Res.All.bind' ?_
  rintro ⟨strs, l⟩ _
  simp only
  refine Res.All.bind' ?_
  rintro ⟨t, mp⟩ _
  simp only
  split <;> rfl

theorem openAcros_still (z : Cz) (ix : Index) (g : Gx) : (openAcros z ix g).All fun x => x.1.still = g.still := by
  unfold openAcros
  refine Res.All.bind' ?_
  intro l _
  simp only
  split
  · rfl
  refine Res.All.bind' ?_
  rintro ⟨a, l⟩ _
  simp only
  split <;> rfl

theorem openDoms_still (z : Cz) (ix : Index) (g : Gx) : (openDoms z ix g).All fun x => x.1.still = g.still := by
  unfold openDoms
  refine Res.All.bind' ?_
  intro l _
  simp only
  split
  · rfl
  refine Res.All.bind' ?_
  rintro ⟨n, l⟩ _
  simp only
  refine Res.All.bind' ?_
  rintro ⟨strs, l⟩ _
  simp only
  split
  · rfl
  refine Res.All.bind' ?_
  intro syms _
  refine Res.All.bind' ?_
  rintro ⟨syms, l⟩ _
  simp only
  split <;> rfl

theorem openTables_still (z : Cz) (ix : Index) (m : Int) (g : Gx) :
    (openTables z ix m g).All fun x => x.1.still = g.still := by
  unfold openTables
  refine thenOk_all (P := fun x => x.still = g.still) (openSyms_still z ix g) fun g1 h1 => ?_
  refine thenOk_all (P := fun x => x.still = g.still) ((openUels_still z ix g1).mono fun _ h => h.trans h1) fun g2 h2 => ?_
  refine thenOk_all (P := fun x => x.still = g.still) ?_ fun g3 h3 => ?_
  · split
    · exact (openTexts_still z ix g2).mono fun _ h => h.trans h2
    · exact h2
  refine thenOk_all (P := fun x => x.still = g.still) ?_ fun g4 h4 => ?_
  · split
    · exact (openAcros_still z ix g3).mono fun _ h => h.trans h3
    · exact h3
  simp only
  split
  · exact (openDoms_still z ix _).mono fun _ h => h.trans h4
  · exact h4

theorem openReadXX_still {z : Cz} {g : Gx} {f : List UInt8} {m : Int} : (openReadXX z g (.content f) m).All fun x => x.1.still = g.still := by
  unfold openReadXX
  by_cases hm : g.mode = .notOpen
  swap
  · rw [if_pos hm]
    rfl
  rw [if_neg (not_not.mpr hm)]
  refine Res.All.bind' ?_
  rintro ⟨o, l⟩ _
  simp only
  refine (?_ : Res.All _ _)
  split
  · rfl
  split
  · trivial
  refine Res.All.bind (openHeader_still _ l) ?_
  rintro ⟨g1, ix⟩ h1
  cases ix with
  | none => exact h1
  | some ix =>
    refine Res.All.bind (openTables_still z ix m g1) ?_
    rintro ⟨g2, ok⟩ h2
    simp only
    refine (?_ : Res.All _ _)
    split
    · exact h2.trans h1
    · exact h2.trans h1

/-! ### OpenGDX -/

/-- every string keeps its number -/
def Ext (a b : List Str) : Prop := ∀ s n, lookup false s a = some n → lookup false s b = some n

theorem Ext.refl (a : List Str) : Ext a a := fun _ _ h => h
theorem Ext.trans {a b c : List Str} (h : Ext a b) (h' : Ext b c) : Ext a c := fun s n k => h' s n (h s n k)

theorem addUel_ext (l : List Str) (s : Str) : Ext l (addUel l s).1 ∧ lookup false s (addUel l s).1 = some (addUel l s).2 := by
  unfold addUel
  cases hl : lookup false s l with
  | some n => exact ⟨Ext.refl l, hl⟩
  | none =>
    refine ⟨?_, lookup_snoc s l⟩
    intro t n ht
    show lookup false t (l ++ [s]) = some n
    rw [lookup_append_none, ht]
    rw [lookup_none]
    intro x hx hs
    rw [List.mem_singleton.mp hx] at hs
    rw [lookup_congr hs l, ht] at hl
    cases hl

theorem addUel_again {l : List Str} {s : Str} {n : Nat} (h : lookup false s l = some n) : addUel l s = (l, n) := by
  unfold addUel
  rw [h]

theorem regFile_again : ∀ {k : Nat} {n : Int} {g g' : Gx} {us us' : List Str}, regFile k n g us = .ok (g', us') →
    Ext us us' ∧ ∀ us'', Ext us' us'' → regFile k n g us'' = .ok (g', us'')
  | 0, n, g, g', us, us', h => by
    cases h
    exact ⟨Ext.refl _, fun _ _ => rfl⟩
  | k + 1, n, g, g', us, us', h => by
    unfold regFile at h
    obtain ⟨⟨b, s, m⟩, h1, h⟩ := Res.bind_eq_ok.mp h
    dsimp only at h
    obtain ⟨⟨g1, b1⟩, h2, h⟩ := Res.bind_eq_ok.mp h
    obtain ⟨e1, e2⟩ := addUel_ext us s
    obtain ⟨i1, i2⟩ := regFile_again h
    refine ⟨e1.trans i1, fun us'' hx => ?_⟩
    unfold regFile
    rw [h1]
    simp only [Res.bind_ok, addUel_again (hx s _ (i1 s _ e2)), h2]
    exact i2 us'' hx

theorem openGDX_again {z : Cz} {f : List UInt8} {us us' : List Str} {g : Gx} (h : openGDX z f us = .ok (some (g, us'))) :
    openGDX z f us' = .ok (some (g, us')) := by
  unfold openGDX at h ⊢
  obtain ⟨⟨g1, b, e⟩, h1, h⟩ := Res.bind_eq_ok.mp h
  rw [h1]
  simp only [Res.bind_ok] at h ⊢
  split at h
  · cases h
  · rename_i he
    rw [if_neg he]
    obtain ⟨⟨b, n, m⟩, h2, h⟩ := Res.bind_eq_ok.mp h
    obtain ⟨⟨g2, us2⟩, h3, h⟩ := Res.bind_eq_ok.mp h
    cases h
    rw [h2]
    simp only [Res.bind_ok]
    rw [(regFile_again h3).2 us2 (Ext.refl _)]
    rfl

theorem raise_still (g : Gx) (n : Int) : (g.raise n).still = g.still := by
  unfold Gx.raise
  split <;> rfl

theorem chk_still (g : Gx) (ms : List Mode) : (g.chk ms).1.still = g.still := by
  rcases chk_cases g ms with ⟨_, h⟩ | ⟨_, h⟩ <;> rw [h]
  exact raise_still _ _

theorem uelRegisterMap_still {g g' : Gx} {m : Int} {s : Str} {b : Bool} (h : uelRegisterMap g m s = .ok (g', b)) : g'.still = g.still := by
  unfold uelRegisterMap at h
  obtain ⟨t, _, h⟩ := Res.bind_eq_ok.mp h
  have hc := chk_still g [.mapElem]
  generalize g.chk [.mapElem] = p at h hc
  obtain ⟨g1, ok⟩ := p
  dsimp only at h hc
  split at h
  · cases h; exact hc
  split at h
  · cases h; rw [raise_still]; exact hc
  obtain ⟨u, _, h⟩ := Res.bind_eq_ok.mp h
  obtain ⟨⟨u', n⟩, _, h⟩ := Res.bind_eq_ok.mp h
  dsimp only at h
  split at h
  · cases h; exact hc
  · cases h; rw [raise_still]; exact hc

theorem regFile_still : ∀ {k : Nat} {n : Int} {g g' : Gx} {us us' : List Str}, regFile k n g us = .ok (g', us') → g'.still = g.still
  | 0, n, g, g', us, us', h => by cases h; rfl
  | k + 1, n, g, g', us, us', h => by
    unfold regFile at h
    obtain ⟨⟨b, s, m⟩, h1, h⟩ := Res.bind_eq_ok.mp h
    dsimp only at h
    obtain ⟨⟨g1, b1⟩, h2, h⟩ := Res.bind_eq_ok.mp h
    exact (regFile_still h).trans (uelRegisterMap_still h2)

theorem openGDX_still {z : Cz} {f : List UInt8} {us us' : List Str} {g : Gx} (h : openGDX z f us = .ok (some (g, us'))) :
    g.nextAuto ≤ 0 ∧ g.nrMapped = 0 := by
  unfold openGDX at h
  obtain ⟨⟨g1, b, e⟩, h1, h⟩ := Res.bind_eq_ok.mp h
  dsimp only at h
  split at h
  · cases h
  · rename_i he
    obtain ⟨⟨_, n, m⟩, h2, h⟩ := Res.bind_eq_ok.mp h
    obtain ⟨⟨g2, us2⟩, h3, h⟩ := Res.bind_eq_ok.mp h
    cases h
    have hs : g1.still = (0, 0) := by
      have := openReadXX_still (z := z) (g := Gx.new) (f := f) (m := 0)
      unfold openRead at h1
      rw [h1] at this
      exact this
    have h4 := regFile_still h3
    have h5 : (uelRegisterMapStart g1).1.still = g1.still := by
      unfold uelRegisterMapStart uelRegisterStart
      have hc := chk_still g1 [.rInit, .wInit]
      generalize g1.chk [.rInit, .wInit] = p at hc
      obtain ⟨g3, ok⟩ := p
      dsimp only at hc ⊢
      split <;> exact hc
    have h6 : (getLastError (uelRegisterDone g2).1).1.still = g2.still := by
      show (uelRegisterDone g2).1.still = g2.still
      unfold uelRegisterDone
      have hc := chk_still g2 [.rawElem, .mapElem, .strElem]
      generalize g2.chk [.rawElem, .mapElem, .strElem] = p at hc
      obtain ⟨g3, ok⟩ := p
      dsimp only at hc ⊢
      split <;> exact hc
    have h7 := ((h6.trans h4).trans h5).trans hs
    exact ⟨le_of_eq (congrArg Prod.fst h7), congrArg Prod.snd h7⟩

end Gdx.Diff
