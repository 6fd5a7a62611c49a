import Verif.Proofs.PhaseAll

/-!
Over all histories the map of the user's numbers leads to elements of the table.
-/

namespace Gdx

/-- the map from the user's numbers has only numbers of elements, or -1 -/
def UsrIn (u : Uel) : Prop := ∀ k, u.usr.get k = -1 ∨ (1 ≤ u.usr.get k ∧ u.usr.get k ≤ u.ents.length)

/-- the same for the table of an object, if it has one -/
def UsrRange (g : Gx) : Prop := ∀ u, g.uel = some u → UsrIn u

theorem UsrIn.fresh {u : Uel} (h : u.usr = IntMap.empty) : UsrIn u := by
  intro k
  rw [h]
  exact Or.inl (IntMap.empty_get k)

theorem UsrRange.fresh {g : Gx} {u : Uel} (h : g.uel = some u) (hu : u.usr = IntMap.empty) : UsrRange g := by
  intro v hv
  rw [h] at hv
  cases hv
  exact UsrIn.fresh hu

theorem setMap_len (u : Uel) (n : Nat) (k : Int) : (u.setMap n k).ents.length = u.ents.length := by
  unfold Uel.setMap
  simp

theorem UsrIn.set {u u' : Uel} (h : UsrIn u) {k en : Int} (hm : u.usr.set k en = .ok u'.usr) (he : 1 ≤ en ∧ en ≤ u.ents.length)
    (hl : u'.ents.length = u.ents.length) : UsrIn u' := by
  obtain ⟨_, _, hget, _⟩ := IntMap.set_ok hm
  intro i
  rw [hget, hl]
  split
  · exact Or.inr he
  · exact h i

theorem UelStep.usrIn {lc : Lic} {a b : Uel} (h : UelStep lc a b) (hu : UsrIn a) : UsrIn b := by
  cases h with
  | add s _ _ _ =>
    intro k
    rcases hu k with h | ⟨h1, h2⟩
    · exact Or.inl h
    · refine Or.inr ⟨h1, ?_⟩
      show a.usr.get k ≤ ((a.ents ++ [(s, -1)]).length : Int)
      simp
      omega
  | stat x h => exact hu
  | newUsr en s d m h hd hm =>
    obtain ⟨h1, h2, _⟩ := at1_ok h
    exact hu.set (k := a.usr.highest + 1) (en := en) hm ⟨h1, h2⟩ (setMap_len a _ _)
  | confirm hi s d h1 h hd =>
    intro k
    have := hu k
    rw [show (a.setMap (a.usr.get hi).toNat hi).usr = a.usr from rfl, setMap_len]
    exact this

theorem openHeader_uelSame (g : Gx) (l : List UInt8) : (openHeader g l).All fun x => x.1.uel = g.uel := by
  unfold openHeader
  refine Res.All.bind' ?_
  rintro ⟨b, l⟩ _
  simp only
  split
  · rfl
  split
  · rfl
  refine Res.All.bind' ?_
  rintro ⟨v, l⟩ _
  simp only
  split
  · rfl
  refine Res.All.bind' ?_
  rintro ⟨c, l⟩ _
  simp only
  refine Res.All.bind' ?_
  rintro ⟨m, l⟩ _
  simp only
  split
  · rfl
  refine Res.All.bind' ?_
  rintro ⟨ix, l⟩ _
  rfl

theorem openSyms_uelSame (z : Cz) (ix : Index) (g : Gx) : (openSyms z ix g).All fun x => x.1.uel = g.uel := by
  unfold openSyms
  refine Res.All.bind' ?_
  intro l _
  simp only
  split
  · rfl
  refine Res.All.bind' ?_
  rintro ⟨n, l⟩ _
  simp only
  refine Res.All.bind' ?_
  rintro ⟨syms, l⟩ _
  simp only
  split <;> split <;> rfl

theorem openUels_usr (z : Cz) (ix : Index) (g : Gx) : (openUels z ix g).All fun x => UsrRange x.1 := by
  unfold openUels
  refine Res.All.bind' ?_
  intro l _
  simp only
  split
  · exact UsrRange.fresh rfl rfl
  refine Res.All.bind' ?_
  rintro ⟨n, l⟩ _
  simp only
  refine Res.All.bind' ?_
  rintro ⟨strs, l⟩ _
  simp only
  split
  · exact UsrRange.fresh rfl rfl
  · exact UsrRange.fresh rfl rfl

theorem openTexts_uelSame (z : Cz) (ix : Index) (g : Gx) : (openTexts z ix g).All fun x => x.1.uel = g.uel := by
  unfold openTexts
  refine Res.All.bind' ?_
  intro l _
  simp only
  split
  · rfl
  refine Res.All.bind' ?_
  rintro ⟨n, l⟩ _
  simp only
  refine Res.All.bind' ?_
  rintro ⟨strs, l⟩ _
  simp only
  refine Res.All.bind' ?_
  rintro ⟨t, mp⟩ _
  simp only
  split <;> rfl

theorem openAcros_uelSame (z : Cz) (ix : Index) (g : Gx) : (openAcros z ix g).All fun x => x.1.uel = g.uel := by
  unfold openAcros
  refine Res.All.bind' ?_
  intro l _
  simp only
  split
  · rfl
  refine Res.All.bind' ?_
  rintro ⟨a, l⟩ _
  simp only
  split <;> rfl

theorem openDoms_uelSame (z : Cz) (ix : Index) (g : Gx) : (openDoms z ix g).All fun x => x.1.uel = g.uel := by
  unfold openDoms
  refine Res.All.bind' ?_
  intro l _
  simp only
  split
  · rfl
  refine Res.All.bind' ?_
  rintro ⟨n, l⟩ _
  simp only
  refine Res.All.bind' ?_
  rintro ⟨strs, l⟩ _
  simp only
  split
  · rfl
  refine Res.All.bind' ?_
  intro syms _
  refine Res.All.bind' ?_
  rintro ⟨syms, l⟩ _
  simp only
  split <;> rfl

theorem UsrRange.congr {g g' : Gx} (h : UsrRange g) (e : g'.uel = g.uel) : UsrRange g' := by
  intro u hu
  exact h u (e ▸ hu)

theorem openTables_usr (z : Cz) (ix : Index) (m : Int) (g : Gx) (h : UsrRange g) :
    (openTables z ix m g).All fun x => UsrRange x.1 := by
  unfold openTables
  refine thenOk_all (P := UsrRange) ((openSyms_uelSame z ix g).mono fun _ e => h.congr e) fun g1 _ => ?_
  refine thenOk_all (P := UsrRange) (openUels_usr z ix g1) fun g2 h2 => ?_
  refine thenOk_all (P := UsrRange) ?_ fun g3 h3 => ?_
  · split
    · exact (openTexts_uelSame z ix g2).mono fun _ e => h2.congr e
    · exact h2
  refine thenOk_all (P := UsrRange) ?_ fun g4 h4 => ?_
  · split
    · exact (openAcros_uelSame z ix g3).mono fun _ e => h3.congr e
    · exact h3
  simp only
  split
  · exact (openDoms_uelSame z ix _).mono fun _ e => h4.congr e
  · exact h4

theorem UsrRange.openReadXX {g : Gx} (h : UsrRange g) (z : Cz) (d : Disk) (m : Int) : (openReadXX z g d m).All fun x => UsrRange x.1 := by
  unfold Gdx.openReadXX
  by_cases hm : g.mode = .notOpen
  swap
  · rw [if_pos hm]
    exact h
  rw [if_neg (not_not.mpr hm)]
  cases d with
  | noName => exact h
  | ioErr e => exact h
  | content f =>
    refine Res.All.bind' ?_
    rintro ⟨o, l⟩ _
    simp only
    refine (?_ : Res.All _ _)
    split
    · exact h
    split
    · trivial
    refine Res.All.bind (openHeader_uelSame _ l) ?_
    rintro ⟨g1, ix⟩ h1
    have hs1 : UsrRange g1 := h.congr h1
    cases ix with
    | none => exact hs1
    | some ix =>
      refine Res.All.bind (openTables_usr z ix m g1 hs1) ?_
      rintro ⟨g2, ok⟩ h2
      simp only
      refine (?_ : Res.All _ _)
      split
      · exact h2
      · exact h2

theorem UelJump.usrIn {u u' : Uel} (h : UelJump u u') (hu : UsrIn u) : UsrIn u' := by
  rcases h with h | h
  · cases h with
    | mk en s d k m h hd hm =>
      obtain ⟨h1, h2, _⟩ := at1_ok h
      exact hu.set (k := k) (en := en) hm ⟨h1, h2⟩ (setMap_len u _ _)
  · cases h with
    | mk n s h1 hn hg ht hl =>
      intro k
      have := hu k
      rw [show (u.rename n s).usr = u.usr from rfl, show (u.rename n s).ents.length = u.ents.length by simp [Uel.rename]]
      exact this

theorem UsrRange.prim : ∀ a b, Prim .all a b → UsrRange a → UsrRange b := by
  intro a b h hg
  cases h with
  | ctrl h _ _ => exact hg.congr (congrArg Core.uel h)
  | uel u u' hu hs => intro v hv; cases hv; exact hs.usrIn (hg u hu)
  | _ => exact hg

theorem UsrRange.jump : ∀ (g : Gx) u u', g.uel = some u → UelJump u u' → UsrRange g → UsrRange { g with uel := some u' } := by
  intro g u u' hu hj hg v hv
  cases hv
  exact hj.usrIn (hg u hu)

theorem UsrRange.openWrite (e : Env) (g : Gx) (n : Bool) (i : Int) (p : Str) (c : Int) (h : UsrRange g) :
    (openWriteEx e g n i p c).All fun x => UsrRange x.1 := by
  unfold openWriteEx
  split
  · exact h
  split
  · exact h
  split
  · exact h
  refine Res.All.bind' ?_
  intro _ _
  exact UsrRange.fresh rfl rfl

theorem UsrRange.new : UsrRange Gx.new := by intro u hu; cases hu

theorem UsrRange.free (g : Gx) (f : List UInt8) (lg : List (Nat × List UInt8)) (_ : UsrRange g) :
    UsrRange ({ g with file := f, log := lg } : Gx).freeAll := by intro u hu; cases hu

theorem UsrRange.opens {e : Env} {z : Cz} {c : Call} (hr : c.opensRead = true) {g : Gx} (h : UsrRange g) : (step e z g c).All UsrRange := by
  cases c with
  | openRead d m => exact stateOf_all (UsrRange.openReadXX h z d m)
  | openAppend d p =>
    refine stateOf_all ?_
    unfold openAppend
    refine Res.All.bind' ?_
    rintro ⟨g1, r⟩ hx
    have h1 : UsrRange g1 := (UsrRange.openReadXX (g := { g with producer2 := p, appendActive := true }) h z d 0).of_ok hx
    simp only
    refine (?_ : Res.All _ _)
    split
    · exact h1
    split
    · rename_i hr1 _
      have hmode : g1.mode = .notOpen ∨ g1.mode = .rInit := by
        rcases (openReadXX_mode z { g with producer2 := p, appendActive := true } d 0).of_ok hx with ⟨_, _, h3⟩ | ⟨_, h3⟩
        · exact absurd h3 hr1
        · exact h3
      have hm2 : (g1.raise Err.fileTooOldForAppend).mode = g1.mode := rfl
      unfold gdxClose finishWrite saveIf
      rw [hm2, if_neg (by rcases hmode with h | h <;> rw [h] <;> decide)]
      simp only [Res.bind_ok, Res.pure_eq]
      rw [hm2, if_neg (by rcases hmode with h | h <;> rw [h] <;> decide)]
      intro u hu
      cases hu
    · exact h1
  | _ => cases hr

theorem UsrRange.run (e : Env) (z : Cz) (cs : List Call) (g : Gx) (hc : ∀ c ∈ cs, c.WF) (ha : Aft g) (h : UsrRange g) :
    (run e z g cs).All UsrRange := by
  refine (run_all (P := UsrRange) (Q := fun _ _ _ => True) e z ?_ cs g hc ha h (along_of e z cs g fun _ _ _ _ => trivial)).mono fun _ h => h.2
  intro g c g' hc ha hg' _ h
  by_cases hr : c.opensRead = false
  · by_cases hw : c.opensWrite = false
    · exact (step_inv_m UsrRange.prim UsrRange.free UsrRange.jump (fun _ h => h) e z hc hr hw ha h).of_ok hg'
    · cases c with
      | openWrite n i p k => exact (stateOf_all (UsrRange.openWrite e g n i p k h)).of_ok hg'
      | _ => exact absurd rfl hw
  · exact (UsrRange.opens (by simpa using hr) h).of_ok hg'

/-! ### the table grows -/

/-- there is a table of elements with at least `n` entries -/
def AtLeast (n : Nat) (g : Gx) : Prop := ∃ u, g.uel = some u ∧ n ≤ u.ents.length

theorem KeepStrs.len {u u' : Uel} (h : KeepStrs u u') : u.ents.length ≤ u'.ents.length := by
  obtain ⟨t, h⟩ := h
  have := congrArg List.length h
  simp [Uel.strs] at this
  omega

theorem AtLeast.prim {n : Nat} : ∀ a b, Prim .all a b → AtLeast n a → AtLeast n b := by
  rintro a b h ⟨v, hv, hk⟩
  cases h with
  | ctrl h _ _ => exact ⟨v, (congrArg Core.uel h).trans hv, hk⟩
  | uel w w' hw hs =>
    rw [hw] at hv
    cases hv
    exact ⟨w', rfl, hk.trans hs.keep.len⟩
  | _ => exact ⟨v, hv, hk⟩

theorem AtLeast.jump {n : Nat} : ∀ (g : Gx) u u', g.uel = some u → UelJump u u' → AtLeast n g → AtLeast n { g with uel := some u' } := by
  rintro g u u' hu hj ⟨v, hv, hk⟩
  rw [hu] at hv
  cases hv
  refine ⟨u', rfl, ?_⟩
  rcases hj with h | h
  · cases h with
    | mk en s d k m h hd hm =>
      rw [show ({ u.setMap en k with usr := m, stat := none } : Uel).ents.length = u.ents.length from setMap_len u _ _]
      exact hk
  · cases h with
    | mk n s h1 hn hg ht hl =>
      rw [show (u.rename n s).ents.length = u.ents.length by simp [Uel.rename]]
      exact hk

/-- no call other than gdxClose and an opening takes elements away -/
theorem AtLeast.step {n : Nat} {e : Env} {z : Cz} {g g' : Gx} {c : Call} (h : AtLeast n g) (hc : c.WF) (ha : Aft g) (hr : c.opensRead = false)
    (hw : c.opensWrite = false) (hcl : c ≠ .close) (hs : step e z g c = .ok g') : AtLeast n g' := by
  by_cases hsp : c.special = false
  · exact ((step_evo e z g c hc hsp ha).mono fun g' hg' => hg'.toAll.inv AtLeast.prim h).of_ok hs
  · cases c with
    | openWrite => cases hw
    | openRead => cases hr
    | openAppend => cases hr
    | close => exact absurd rfl hcl
    | renameUEL o s => exact (stateOf_all (renameUEL_inv (P := AtLeast n) (fun g u u' h h' => AtLeast.jump g u u' h (Or.inr h')) o s h)).of_ok hs
    | uelMap k s =>
      exact (stateOf_all (uelRegisterMap_inv (P := AtLeast n) AtLeast.prim (fun g u u' h h' => AtLeast.jump g u u' h (Or.inl h')) k s h)).of_ok hs
    | getLastError => cases hs; exact h
    | _ => exact absurd rfl hsp

end Gdx
