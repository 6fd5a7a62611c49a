import Verif.Proofs.PhaseAll

/-!
Over all histories the table of special values is unambiguous.
-/

namespace Gdx

/-- the table of the special values would be accepted by gdxSetSpecialValues -/
def SvOk (g : Gx) : Prop := setSpecialValues g.sv = some g.sv

theorem openHeader_sv (g : Gx) (l : List UInt8) : (openHeader g l).All fun x => x.1.sv = g.sv := by
  unfold openHeader
  refine Res.All.bind' ?_
  rintro ⟨b, l⟩ _
  simp only
  split
  · rfl
  split
  · rfl
  refine Res.All.bind' ?_
  rintro ⟨v, l⟩ _
  simp only
  split
  · rfl
  refine Res.All.bind' ?_
  rintro ⟨c, l⟩ _
  simp only
  refine Res.All.bind' ?_
  rintro ⟨m, l⟩ _
  simp only
  split
  · rfl
  refine Res.All.bind' ?_
  rintro ⟨ix, l⟩ _
  rfl

theorem openSyms_sv (z : Cz) (ix : Index) (g : Gx) : (openSyms z ix g).All fun x => x.1.sv = g.sv := by
  unfold openSyms
  refine Res.All.bind' ?_
  intro l _
  simp only
  split
  · rfl
  refine Res.All.bind' ?_
  rintro ⟨n, l⟩ _
  simp only
  refine Res.All.bind' ?_
  rintro ⟨syms, l⟩ _
  simp only
  split <;> split <;> rfl

theorem openUels_sv (z : Cz) (ix : Index) (g : Gx) : (openUels z ix g).All fun x => x.1.sv = g.sv := by
  unfold openUels
  refine Res.All.bind' ?_
  intro l _
  simp only
  split
  · rfl
  refine Res.All.bind' ?_
  rintro ⟨n, l⟩ _
  simp only
  refine Res.All.bind' ?_
  rintro ⟨strs, l⟩ _
  simp only
  split <;> rfl

theorem openTexts_sv (z : Cz) (ix : Index) (g : Gx) : (openTexts z ix g).All fun x => x.1.sv = g.sv := by
  unfold openTexts
  refine Res.All.bind' ?_
  intro l _
  simp only
  split
  · rfl
  refine Res.All.bind' ?_
  rintro ⟨n, l⟩ _
  simp only
  refine Res.All.bind' ?_
  rintro ⟨strs, l⟩ _
  simp only
  refine Res.All.bind' ?_
  rintro ⟨t, mp⟩ _
  simp only
  split <;> rfl

theorem openAcros_sv (z : Cz) (ix : Index) (g : Gx) : (openAcros z ix g).All fun x => x.1.sv = g.sv := by
  unfold openAcros
  refine Res.All.bind' ?_
  intro l _
  simp only
  split
  · rfl
  refine Res.All.bind' ?_
  rintro ⟨a, l⟩ _
  simp only
  split <;> rfl

theorem openDoms_sv (z : Cz) (ix : Index) (g : Gx) : (openDoms z ix g).All fun x => x.1.sv = g.sv := by
  unfold openDoms
  refine Res.All.bind' ?_
  intro l _
  simp only
  split
  · rfl
  refine Res.All.bind' ?_
  rintro ⟨n, l⟩ _
  simp only
  refine Res.All.bind' ?_
  rintro ⟨strs, l⟩ _
  simp only
  split
  · rfl
  refine Res.All.bind' ?_
  intro syms _
  refine Res.All.bind' ?_
  rintro ⟨syms, l⟩ _
  simp only
  split <;> rfl

theorem openTables_sv (z : Cz) (ix : Index) (m : Int) (g : Gx) :
    (openTables z ix m g).All fun x => x.1.sv = g.sv := by
  unfold openTables
  refine thenOk_all (P := fun x => x.sv = g.sv) (openSyms_sv z ix g) fun g1 h1 => ?_
  refine thenOk_all (P := fun x => x.sv = g.sv) ((openUels_sv z ix g1).mono fun _ h => h.trans h1) fun g2 h2 => ?_
  refine thenOk_all (P := fun x => x.sv = g.sv) ?_ fun g3 h3 => ?_
  · split
    · exact (openTexts_sv z ix g2).mono fun _ h => h.trans h2
    · exact h2
  refine thenOk_all (P := fun x => x.sv = g.sv) ?_ fun g4 h4 => ?_
  · split
    · exact (openAcros_sv z ix g3).mono fun _ h => h.trans h3
    · exact h3
  simp only
  split
  · exact (openDoms_sv z ix _).mono fun _ h => h.trans h4
  · exact h4

theorem svOk_default : setSpecialValues SVTab.default = some SVTab.default := by decide +kernel

theorem SvOk.openReadXX {g : Gx} (h : SvOk g) (z : Cz) (d : Disk) (m : Int) : (openReadXX z g d m).All fun x => SvOk x.1 := by
  unfold Gdx.openReadXX
  by_cases hm : g.mode = .notOpen
  swap
  · rw [if_pos hm]
    exact h
  rw [if_neg (not_not.mpr hm)]
  cases d with
  | noName => exact h
  | ioErr e => exact h
  | content f =>
    refine Res.All.bind' ?_
    rintro ⟨o, l⟩ _
    simp only
    refine (?_ : Res.All _ _)
    split
    · exact h
    split
    · trivial
    refine Res.All.bind (openHeader_sv _ l) ?_
    rintro ⟨g1, ix⟩ h1
    have hs1 : SvOk g1 := by unfold SvOk; rw [show g1.sv = g.sv from h1]; exact h
    cases ix with
    | none => exact hs1
    | some ix =>
      refine Res.All.bind (openTables_sv z ix m g1) ?_
      rintro ⟨g2, ok⟩ h2
      have hs2 : SvOk g2 := by unfold SvOk; rw [show g2.sv = g1.sv from h2]; exact hs1
      simp only
      refine (?_ : Res.All _ _)
      split
      · exact hs2
      · exact svOk_default

theorem SvOk.prim : ∀ a b, Prim .all a b → SvOk a → SvOk b := by
  intro a b h hg
  cases h with
  | ctrl h _ _ =>
    have : b.sv = a.sv := congrArg Core.sv h
    unfold SvOk
    rw [this]
    exact hg
  | sv t h => exact h
  | _ => exact hg

theorem SvOk.openWrite (e : Env) (g : Gx) (n : Bool) (i : Int) (p : Str) (c : Int) (h : SvOk g) :
    (openWriteEx e g n i p c).All fun x => SvOk x.1 := by
  unfold openWriteEx
  split
  · exact h
  split
  · exact h
  split
  · exact h
  refine Res.All.bind' ?_
  intro _ _
  exact svOk_default

theorem SvOk.new : SvOk Gx.new := svOk_default

theorem SvOk.free (g : Gx) (f : List UInt8) (lg : List (Nat × List UInt8)) (h : SvOk g) : SvOk ({ g with file := f, log := lg } : Gx).freeAll := h

theorem SvOk.opens {e : Env} {z : Cz} {c : Call} (hr : c.opensRead = true) {g : Gx} (h : SvOk g) : (step e z g c).All SvOk := by
  cases c with
  | openRead d m => exact stateOf_all (SvOk.openReadXX h z d m)
  | openAppend d p =>
    refine stateOf_all ?_
    unfold openAppend
    refine Res.All.bind' ?_
    rintro ⟨g1, r⟩ hx
    have h1 : SvOk g1 := (SvOk.openReadXX (g := { g with producer2 := p, appendActive := true }) h z d 0).of_ok hx
    simp only
    refine (?_ : Res.All _ _)
    split
    · exact h1
    split
    · rename_i hr1 _
      have hmode : g1.mode = .notOpen ∨ g1.mode = .rInit := by
        rcases (openReadXX_mode z { g with producer2 := p, appendActive := true } d 0).of_ok hx with ⟨_, _, h3⟩ | ⟨_, h3⟩
        · exact absurd h3 hr1
        · exact h3
      have hm2 : (g1.raise Err.fileTooOldForAppend).mode = g1.mode := rfl
      unfold gdxClose finishWrite saveIf
      rw [hm2, if_neg (by rcases hmode with h | h <;> rw [h] <;> decide)]
      simp only [Res.bind_ok, Res.pure_eq]
      rw [hm2, if_neg (by rcases hmode with h | h <;> rw [h] <;> decide)]
      exact h1
    · exact h1
  | _ => cases hr

theorem SvOk.run (e : Env) (z : Cz) (cs : List Call) (g : Gx) (hc : ∀ c ∈ cs, c.WF) (ha : Aft g) (h : SvOk g) :
    (run e z g cs).All SvOk := by
  refine (run_all (P := SvOk) (Q := fun _ _ _ => True) e z ?_ cs g hc ha h (along_of e z cs g fun _ _ _ _ => trivial)).mono fun _ h => h.2
  intro g c g' hc ha hg' _ h
  by_cases hr : c.opensRead = false
  · by_cases hw : c.opensWrite = false
    · exact (step_inv_m SvOk.prim SvOk.free (fun _ _ _ _ _ h => h) (fun _ h => h) e z hc hr hw ha h).of_ok hg'
    · cases c with
      | openWrite n i p k => exact (stateOf_all (SvOk.openWrite e g n i p k h)).of_ok hg'
      | _ => exact absurd rfl hw
  · exact (SvOk.opens (by simpa using hr) h).of_ok hg'

end Gdx
