import Verif.Proofs.EvoQuery

/-!
Invariants over histories: the calls that are not chains of elementary steps (`Call.special`), and induction over `run`.
-/

namespace Gdx

/-- the mode that ends an element registration is never one in which a symbol is written -/
def Aft (g : Gx) : Prop := ¬ Writing g.modeAft ∧ g.modeAft ≠ .rFilter

/-- calls that open an existing file -/
def Call.opensRead : Call → Bool
  | .openRead .. | .openAppend .. => true
  | _ => false

def Call.opensWrite : Call → Bool
  | .openWrite .. => true
  | _ => false

/-- the step that only gdxUELRegisterMap makes -/
inductive UelUsr : Uel → Uel → Prop where
  | mk (u : Uel) (en : Nat) (s : Str) (d k : Int) (m : IntMap) (h : at1 u.ents en = .ok (s, d)) (hd : d < 0)
      (hm : u.usr.set k en = .ok m) : UelUsr u { u.setMap en k with usr := m, stat := none }

/-- the step that only gdxRenameUEL makes -/
inductive UelRen : Uel → Uel → Prop where
  | mk (u : Uel) (n : Nat) (s : Str) (h1 : 1 ≤ n) (hn : n ≤ u.ents.length) (hg : goodUEL s = true)
      (ht : trimRight s = s) (hl : lookup false s u.strs = none) : UelRen u (u.rename n s)

def UelJump (u u' : Uel) : Prop := UelUsr u u' ∨ UelRen u u'

/-! ### gdxClose -/

theorem finishWrite_evo (lc : Lic) (z : Cz) (g : Gx) : (finishWrite z g).All fun g' => Evo lc g g' := by
  unfold finishWrite
  split
  · refine Res.All.bind (dataWriteDone_evo lc z g) ?_
    rintro ⟨g1, b⟩ h1
    exact h1
  · exact Evo.refl g

theorem saveIf_all (z : Cz) (g : Gx) : (saveIf z g).All fun g' => ∃ f lg, g' = { g with file := f, log := lg } := by
  unfold saveIf
  split
  · unfold saveFile
    split
    · trivial
    refine Res.All.bind' ?_
    intro t _
    exact ⟨_, _, rfl⟩
  · exact ⟨g.file, g.log, rfl⟩

theorem gdxClose_inv_m {lc : Lic} {P : Gx → Prop} (hp : ∀ a b, Prim lc a b → P a → P b)
    (hf : ∀ (g : Gx) f lg, P g → P ({ g with file := f, log := lg } : Gx).freeAll) (z : Cz) {g : Gx}
    (h : P g) : (gdxClose z g).All fun x => P x.1 := by
  unfold gdxClose
  refine Res.All.bind (finishWrite_evo lc z g) ?_
  intro g1 h1
  refine Res.All.bind (saveIf_all z g1) ?_
  rintro g2 ⟨f, lg, rfl⟩
  exact hf _ _ _ (h1.inv hp h)

theorem gdxClose_inv {lc : Lic} {P : Gx → Prop} (hp : ∀ a b, Prim lc a b → P a → P b)
    (hs : ∀ (g : Gx) f lg, P g → P { g with file := f, log := lg }) (hf : ∀ g : Gx, P g → P g.freeAll) (z : Cz) {g : Gx}
    (h : P g) : (gdxClose z g).All fun x => P x.1 :=
  gdxClose_inv_m hp (fun g f lg h => hf _ (hs g f lg h)) z h

/-! ### gdxUELRegisterMap, gdxRenameUEL -/

theorem userMap_ok {u : Uel} {n d : Int} (h : u.userMap n = .ok d) : ∃ s, at1 u.ents n = .ok (s, d) := by
  unfold Uel.userMap at h
  obtain ⟨⟨s, d'⟩, h1, h2⟩ := Res.bind_eq_ok.mp h
  cases h2
  exact ⟨s, h1⟩

theorem addUsrIndxNew_inv {lc : Lic} {P : Uel → Prop} (hp : ∀ a b, UelStep lc a b → P a → P b) (hj : ∀ a b, UelUsr a b → P a → P b)
    {u : Uel} {s : Str} (k : Int) (hg : goodUEL s = true) (ht : trimRight s = s) (h : P u) :
    (u.addUsrIndxNew s k).All fun r => P r.1 := by
  rw [addUsrIndxNew_stat]
  have h0 : P (({ u with stat := none } : Uel).addObject s).1 := by
    have h := hp _ _ (.stat u none (Or.inl rfl)) h
    unfold Uel.addObject
    split
    · exact h
    · rename_i hl
      exact hp _ _ (.add _ s hg ht hl (Or.inl rfl)) h
  unfold Uel.addUsrIndxNew
  simp only
  refine Res.All.bind' ?_
  intro d hd
  obtain ⟨s', hq⟩ := userMap_ok hd
  split
  · rename_i hneg
    refine Res.All.bind' ?_
    intro m hm
    exact hj _ _ (.mk _ _ s' d k m hq hneg hm) h0
  · split
    · exact hp _ _ (.stat _ none (Or.inl rfl)) h0
    · exact hp _ _ (.stat _ none (Or.inl rfl)) h0

theorem uelRegisterMap_inv {lc : Lic} {P : Gx → Prop} (hp : ∀ a b, Prim lc a b → P a → P b)
    (hj : ∀ (g : Gx) u u', g.uel = some u → UelUsr u u' → P g → P { g with uel := some u' }) {g : Gx} (k : Int) (s : Str)
    (h : P g) : (uelRegisterMap g k s).All fun x => P x.1 := by
  unfold uelRegisterMap
  refine Res.All.bind' ?_
  intro t ht
  rcases chk_cases g [.mapElem] with ⟨hm, hc⟩ | ⟨hm, hc⟩
  · rw [hc]
    simp only [Bool.true_eq_false, if_false]
    split
    · exact hp _ _ (.raise g _ (by decide)) h
    rename_i hgood
    refine Res.All.bind' ?_
    intro u hu
    have hu := need_ok hu
    have hgu : { g with uel := some u } = g := by rw [← hu]
    refine Res.All.bind (Q := fun r => P { g with uel := some r.1 }) ?_ ?_
    · refine addUsrIndxNew_inv (lc := lc) (P := fun v => P { g with uel := some v }) ?_ ?_ k (by simpa using hgood)
        (trimR_trimmed ht) (by rw [hgu]; exact h)
      · intro a b hab hP
        exact hp _ _ (.uel { g with uel := some a } a b rfl hab) hP
      · intro a b hab hP
        exact hj { g with uel := some a } a b rfl hab hP
    · rintro ⟨u', n⟩ hP
      simp only at hP ⊢
      split
      · exact hP
      · exact hp _ _ (.raise _ _ (by decide)) hP
  · rw [hc]
    exact hp _ _ (.raise g _ (by decide)) h

theorem renameUEL_inv {P : Gx → Prop}
    (hj : ∀ (g : Gx) u u', g.uel = some u → UelRen u u' → P g → P { g with uel := some u' }) {g : Gx} (o s : Str)
    (h : P g) : (renameUEL g o s).All fun x => P x.1 := by
  unfold renameUEL
  split
  · exact h
  rename_i u hu
  refine Res.All.bind' ?_
  intro t ht
  split
  · exact h
  rename_i hgood
  refine Res.All.bind' ?_
  intro t' ht'
  split
  · exact h
  rename_i hpos
  split
  · exact h
  rename_i hneg
  refine hj g u _ hu (.mk u _ t ?_ ?_ (by simpa using hgood) (trimR_trimmed ht) ?_) h
  · unfold Uel.indexOf at hpos ⊢
    rcases indexOf1_cases false t' u.strs with ⟨hn, hi⟩ | ⟨n, hn, hi⟩
    · rw [hi] at hpos; omega
    · rw [hi]; omega
  · unfold Uel.indexOf at hpos ⊢
    rcases indexOf1_cases false t' u.strs with ⟨hn, hi⟩ | ⟨n, hn, hi⟩
    · rw [hi] at hpos; omega
    · have := lookup_lt hn
      simp only [Uel.strs, List.length_map] at this
      rw [hi]; omega
  · unfold Uel.indexOf at hneg
    rcases indexOf1_cases false t u.strs with ⟨hn, hi⟩ | ⟨n, hn, hi⟩
    · exact hn
    · rw [hi] at hneg; omega

/-! ### one call -/

theorem stateOf_all {α : Type} {P : Gx → Prop} {r : Res (Gx × α)} (h : r.All fun x => P x.1) : (stateOf r).All P := by
  unfold stateOf
  refine Res.All.bind h ?_
  intro x hx
  exact hx

/-- an invariant of the elementary steps is kept by every call that does not open a file; gdxRenameUEL and
    gdxUELRegisterMap are left to the caller -/
theorem step_inv_l {c : Call} {P : Gx → Prop} (hp : ∀ a b, Prim c.lic a b → P a → P b)
    (hf : ∀ (g : Gx) f lg, P g → P ({ g with file := f, log := lg } : Gx).freeAll)
    (ht : ∀ g : Gx, P g → P (getLastError g).1)
    (e : Env) (z : Cz) {g : Gx} (hc : c.WF) (hr : c.opensRead = false) (hw : c.opensWrite = false) (ha : Aft g)
    (hm : ∀ k s, c = .uelMap k s → (uelRegisterMap g k s).All fun x => P x.1)
    (hn : ∀ o s, c = .renameUEL o s → (renameUEL g o s).All fun x => P x.1)
    (h : P g) : (step e z g c).All P := by
  by_cases hsp : c.special = false
  · exact (step_evo e z g c hc hsp ha).mono fun g' hg' => hg'.inv hp h
  · cases c with
    | openWrite => cases hw
    | openRead => cases hr
    | openAppend => cases hr
    | close => exact stateOf_all (gdxClose_inv_m hp hf z h)
    | uelMap m s => exact stateOf_all (hm m s rfl)
    | renameUEL o s => exact stateOf_all (hn o s rfl)
    | getLastError => exact ht g h
    | _ => exact absurd rfl hsp

theorem step_inv_m' {P : Gx → Prop} (hp : ∀ a b, Prim .all a b → P a → P b)
    (hf : ∀ (g : Gx) f lg, P g → P ({ g with file := f, log := lg } : Gx).freeAll)
    (ht : ∀ g : Gx, P g → P (getLastError g).1)
    (e : Env) (z : Cz) {g : Gx} {c : Call} (hc : c.WF) (hr : c.opensRead = false) (hw : c.opensWrite = false) (ha : Aft g)
    (hm : ∀ k s, c = .uelMap k s → (uelRegisterMap g k s).All fun x => P x.1)
    (hn : ∀ o s, c = .renameUEL o s → (renameUEL g o s).All fun x => P x.1)
    (h : P g) : (step e z g c).All P :=
  step_inv_l (fun a b h => hp a b (h.mono fun _ _ => trivial)) hf ht e z hc hr hw ha hm hn h

/-- an invariant of all steps is kept by every call that does not open a file -/
theorem step_inv_m {P : Gx → Prop} (hp : ∀ a b, Prim .all a b → P a → P b)
    (hf : ∀ (g : Gx) f lg, P g → P ({ g with file := f, log := lg } : Gx).freeAll)
    (hj : ∀ (g : Gx) u u', g.uel = some u → UelJump u u' → P g → P { g with uel := some u' })
    (ht : ∀ g : Gx, P g → P (getLastError g).1)
    (e : Env) (z : Cz) {g : Gx} {c : Call} (hc : c.WF) (hr : c.opensRead = false) (hw : c.opensWrite = false) (ha : Aft g)
    (h : P g) : (step e z g c).All P :=
  step_inv_m' hp hf ht e z hc hr hw ha (fun m s _ => uelRegisterMap_inv hp (fun g u u' h h' => hj g u u' h (Or.inl h')) m s h)
    (fun o s _ => renameUEL_inv (fun g u u' h h' => hj g u u' h (Or.inr h')) o s h) h

theorem step_inv' {P : Gx → Prop} (hp : ∀ a b, Prim .all a b → P a → P b)
    (hs : ∀ (g : Gx) f lg, P g → P { g with file := f, log := lg }) (hf : ∀ g : Gx, P g → P g.freeAll)
    (ht : ∀ g : Gx, P g → P (getLastError g).1)
    (e : Env) (z : Cz) {g : Gx} {c : Call} (hc : c.WF) (hr : c.opensRead = false) (hw : c.opensWrite = false) (ha : Aft g)
    (hm : ∀ k s, c = .uelMap k s → (uelRegisterMap g k s).All fun x => P x.1)
    (hn : ∀ o s, c = .renameUEL o s → (renameUEL g o s).All fun x => P x.1)
    (h : P g) : (step e z g c).All P :=
  step_inv_m' hp (fun g f lg h => hf _ (hs g f lg h)) ht e z hc hr hw ha hm hn h

theorem step_inv {P : Gx → Prop} (hp : ∀ a b, Prim .all a b → P a → P b)
    (hs : ∀ (g : Gx) f lg, P g → P { g with file := f, log := lg }) (hf : ∀ g : Gx, P g → P g.freeAll)
    (hj : ∀ (g : Gx) u u', g.uel = some u → UelJump u u' → P g → P { g with uel := some u' })
    (ht : ∀ g : Gx, P g → P (getLastError g).1)
    (e : Env) (z : Cz) {g : Gx} {c : Call} (hc : c.WF) (hr : c.opensRead = false) (hw : c.opensWrite = false) (ha : Aft g)
    (h : P g) : (step e z g c).All P :=
  step_inv_m hp (fun g f lg h => hf _ (hs g f lg h)) hj ht e z hc hr hw ha h

theorem prim_aft : ∀ a b, Prim .all a b → Aft a → Aft b := by
  intro a b h ha
  cases h with
  | ctrl h _ _ => unfold Aft; rw [show b.modeAft = a.modeAft from congrArg Core.modeAft h]; exact ha
  | aft _ h => exact h
  | _ => exact ha

theorem openWriteEx_aft (e : Env) (g : Gx) (n : Bool) (i : Int) (p : Str) (c : Int) :
    (openWriteEx e g n i p c).All fun x => x.1.modeAft = g.modeAft := by
  unfold openWriteEx
  split
  · rfl
  split
  · rfl
  split
  · rfl
  refine Res.All.bind' ?_
  intro h _
  rfl

/-! ### opening an existing file -/

theorem openHeader_aft (g : Gx) (l : List UInt8) : (openHeader g l).All fun x => x.1.modeAft = g.modeAft := by
  unfold openHeader
  refine Res.All.bind' ?_
  rintro ⟨b, l⟩ _
  simp only
  split
  · rfl
  split
  · rfl
  refine Res.All.bind' ?_
  rintro ⟨v, l⟩ _
  simp only
  split
  · rfl
  refine Res.All.bind' ?_
  rintro ⟨c, l⟩ _
  simp only
  refine Res.All.bind' ?_
  rintro ⟨m, l⟩ _
  simp only
  split
  · rfl
  refine Res.All.bind' ?_
  rintro ⟨ix, l⟩ _
  rfl

theorem openSyms_aft (z : Cz) (ix : Index) (g : Gx) : (openSyms z ix g).All fun x => x.1.modeAft = g.modeAft := by
  unfold openSyms
  refine Res.All.bind' ?_
  intro l _
  simp only
  split
  · rfl
  refine Res.All.bind' ?_
  rintro ⟨n, l⟩ _
  simp only
  refine Res.All.bind' ?_
  rintro ⟨syms, l⟩ _
  simp only
  split <;> split <;> rfl

theorem openUels_aft (z : Cz) (ix : Index) (g : Gx) : (openUels z ix g).All fun x => x.1.modeAft = g.modeAft := by
  unfold openUels
  refine Res.All.bind' ?_
  intro l _
  simp only
  split
  · rfl
  refine Res.All.bind' ?_
  rintro ⟨n, l⟩ _
  simp only
  refine Res.All.bind' ?_
  rintro ⟨strs, l⟩ _
  simp only
  split <;> rfl

theorem openTexts_aft (z : Cz) (ix : Index) (g : Gx) : (openTexts z ix g).All fun x => x.1.modeAft = g.modeAft := by
  unfold openTexts
  refine Res.All.bind' ?_
  intro l _
  simp only
  split
  · rfl
  refine Res.All.bind' ?_
  rintro ⟨n, l⟩ _
  simp only
  refine Res.All.bind' ?_
  rintro ⟨strs, l⟩ _
  simp only
  refine Res.All.bind' ?_
  rintro ⟨t, mp⟩ _
  simp only
  split <;> rfl

theorem openAcros_aft (z : Cz) (ix : Index) (g : Gx) : (openAcros z ix g).All fun x => x.1.modeAft = g.modeAft := by
  unfold openAcros
  refine Res.All.bind' ?_
  intro l _
  simp only
  split
  · rfl
  refine Res.All.bind' ?_
  rintro ⟨a, l⟩ _
  simp only
  split <;> rfl

theorem openDoms_aft (z : Cz) (ix : Index) (g : Gx) : (openDoms z ix g).All fun x => x.1.modeAft = g.modeAft := by
  unfold openDoms
  refine Res.All.bind' ?_
  intro l _
  simp only
  split
  · rfl
  refine Res.All.bind' ?_
  rintro ⟨n, l⟩ _
  simp only
  refine Res.All.bind' ?_
  rintro ⟨strs, l⟩ _
  simp only
  split
  · rfl
  refine Res.All.bind' ?_
  intro syms _
  refine Res.All.bind' ?_
  rintro ⟨syms, l⟩ _
  simp only
  split <;> rfl

theorem thenOk_all {P : Gx → Prop} {r : Res (Gx × Bool)} {f : Gx → Res (Gx × Bool)} (hr : r.All fun x => P x.1)
    (hf : ∀ g, P g → (f g).All fun x => P x.1) : (thenOk r f).All fun x => P x.1 := by
  unfold thenOk
  refine Res.All.bind hr ?_
  rintro ⟨g, ok⟩ h
  simp only
  split
  · exact hf g h
  · exact h

theorem openTables_aft (z : Cz) (ix : Index) (m : Int) (g : Gx) :
    (openTables z ix m g).All fun x => x.1.modeAft = g.modeAft := by
  unfold openTables
  refine thenOk_all (P := fun x => x.modeAft = g.modeAft) (openSyms_aft z ix g) fun g1 h1 => ?_
  refine thenOk_all (P := fun x => x.modeAft = g.modeAft) ((openUels_aft z ix g1).mono fun _ h => h.trans h1) fun g2 h2 => ?_
  refine thenOk_all (P := fun x => x.modeAft = g.modeAft) ?_ fun g3 h3 => ?_
  · split
    · exact (openTexts_aft z ix g2).mono fun _ h => h.trans h2
    · exact h2
  refine thenOk_all (P := fun x => x.modeAft = g.modeAft) ?_ fun g4 h4 => ?_
  · split
    · exact (openAcros_aft z ix g3).mono fun _ h => h.trans h3
    · exact h3
  simp only
  split
  · exact (openDoms_aft z ix _).mono fun _ h => h.trans h4
  · exact h4

theorem openReadXX_aft (z : Cz) (g : Gx) (d : Disk) (m : Int) :
    (openReadXX z g d m).All fun x => x.1.modeAft = g.modeAft := by
  unfold openReadXX
  split
  · rfl
  cases d with
  | noName => rfl
  | ioErr e => rfl
  | content f =>
    refine Res.All.bind' ?_
    rintro ⟨o, l⟩ _
    simp only
    split
    · rfl
    split
    · trivial
    refine Res.All.bind (openHeader_aft _ l) ?_
    rintro ⟨g1, ix⟩ h1
    cases ix with
    | none => exact h1
    | some ix =>
      refine Res.All.bind (openTables_aft z ix m g1) ?_
      rintro ⟨g2, ok⟩ h2
      simp only
      split
      · exact h2.trans h1
      · exact h2.trans h1

theorem openAppend_aft (z : Cz) (g : Gx) (d : Disk) (p : Str) (ha : Aft g) :
    (openAppend z g d p).All fun x => Aft x.1 := by
  unfold openAppend
  refine Res.All.bind (openReadXX_aft z _ d 0) ?_
  rintro ⟨g1, r⟩ h1
  have h1' : Aft g1 := by
    show ¬ Writing g1.modeAft ∧ g1.modeAft ≠ .rFilter
    rw [show g1.modeAft = g.modeAft from h1]
    exact ha
  simp only
  split
  · exact h1'
  split
  · refine Res.All.bind (gdxClose_inv (P := Aft) prim_aft (fun _ _ _ h => h) (fun _ h => h) z
      (show Aft (g1.raise Err.fileTooOldForAppend) from h1')) ?_
    rintro ⟨g2, x⟩ h2
    exact h2
  · exact h1'

theorem step_aft (e : Env) (z : Cz) {g : Gx} {c : Call} (hc : c.WF) (ha : Aft g) : (step e z g c).All Aft := by
  by_cases hr : c.opensRead = false
  · by_cases hw : c.opensWrite = false
    · exact step_inv prim_aft (fun _ _ _ h => h) (fun _ h => h) (fun _ _ _ _ _ h => h) (fun _ h => h) e z hc hr hw ha ha
    · cases c with
      | openWrite n i p k =>
        exact stateOf_all ((openWriteEx_aft e g n i p k).mono fun x h => by
          show ¬ Writing x.1.modeAft ∧ x.1.modeAft ≠ .rFilter
          rw [h]
          exact ha)
      | _ => exact absurd rfl hw
  · cases c with
    | openRead d m =>
      exact stateOf_all ((openReadXX_aft z g d m).mono fun x h => by
        show ¬ Writing x.1.modeAft ∧ x.1.modeAft ≠ .rFilter
        rw [h]
        exact ha)
    | openAppend d p => exact stateOf_all (openAppend_aft z g d p ha)
    | _ => exact absurd rfl hr

/-! ### histories -/

/-- condition `Q` holds for every call of the history, with the object before and after the call -/
def Along (Q : Gx → Call → Gx → Prop) (e : Env) (z : Cz) : Gx → List Call → Prop
  | _, [] => True
  | g, c :: cs => ∀ g', step e z g c = .ok g' → Q g c g' ∧ Along Q e z g' cs

/-- every opening of an existing file in the history leaves an object with property `P` (what the file contains is up to
    whoever wrote it) -/
def OpensOk (P : Gx → Prop) : Env → Cz → Gx → List Call → Prop := Along fun _ c g' => c.opensRead = true → P g'

theorem run_all {P : Gx → Prop} {Q : Gx → Call → Gx → Prop} (e : Env) (z : Cz)
    (hstep : ∀ g c g', Call.WF c → Aft g → step e z g c = .ok g' → Q g c g' → P g → P g') :
    ∀ (cs : List Call) (g : Gx), (∀ c ∈ cs, c.WF) → Aft g → P g → Along Q e z g cs →
      (run e z g cs).All fun g' => Aft g' ∧ P g'
  | [], g, _, ha, h, _ => ⟨ha, h⟩
  | c :: cs, g, hc, ha, h, ho => by
    unfold run
    refine Res.All.bind' ?_
    intro g1 h1
    have h2 := ho g1 h1
    exact run_all e z hstep cs g1 (fun c' h' => hc c' (by simp [h'])) ((step_aft e z (hc c (by simp)) ha).of_ok h1)
      (hstep g c g1 (hc c (by simp)) ha h1 h2.1 h) h2.2

/-- invariants over histories -/
theorem run_inv_m {P : Gx → Prop} (hp : ∀ a b, Prim .all a b → P a → P b)
    (hf : ∀ (g : Gx) f lg, P g → P ({ g with file := f, log := lg } : Gx).freeAll)
    (hj : ∀ (g : Gx) u u', g.uel = some u → UelJump u u' → P g → P { g with uel := some u' })
    (ht : ∀ g : Gx, P g → P (getLastError g).1)
    (hw : ∀ e (g : Gx) n i p c, P g → (openWriteEx e g n i p c).All fun x => P x.1)
    (e : Env) (z : Cz) (cs : List Call) (g : Gx) (hc : ∀ c ∈ cs, c.WF) (ha : Aft g) (h : P g)
    (ho : OpensOk P e z g cs) : (run e z g cs).All fun g' => Aft g' ∧ P g' := by
  refine run_all e z ?_ cs g hc ha h ho
  intro g c g' hc ha hg' hr h
  by_cases hr' : c.opensRead = false
  · by_cases hw' : c.opensWrite = false
    · exact (step_inv_m hp hf hj ht e z hc hr' hw' ha h).of_ok hg'
    · cases c with
      | openWrite n i p k => exact (stateOf_all (hw e g n i p k h)).of_ok hg'
      | _ => exact absurd rfl hw'
  · exact hr (by simpa using hr')

theorem run_inv {P : Gx → Prop} (hp : ∀ a b, Prim .all a b → P a → P b)
    (hs : ∀ (g : Gx) f lg, P g → P { g with file := f, log := lg }) (hf : ∀ g : Gx, P g → P g.freeAll)
    (hj : ∀ (g : Gx) u u', g.uel = some u → UelJump u u' → P g → P { g with uel := some u' })
    (ht : ∀ g : Gx, P g → P (getLastError g).1)
    (hw : ∀ e (g : Gx) n i p c, P g → (openWriteEx e g n i p c).All fun x => P x.1)
    (e : Env) (z : Cz) (cs : List Call) (g : Gx) (hc : ∀ c ∈ cs, c.WF) (ha : Aft g) (h : P g)
    (ho : OpensOk P e z g cs) : (run e z g cs).All fun g' => Aft g' ∧ P g' :=
  run_inv_m hp (fun g f lg h => hf _ (hs g f lg h)) hj ht hw e z cs g hc ha h ho

theorem along_of {Q : Gx → Call → Gx → Prop} (e : Env) (z : Cz) : ∀ (cs : List Call) (g : Gx),
    (∀ g g', ∀ c ∈ cs, Q g c g') → Along Q e z g cs
  | [], _, _ => trivial
  | c :: cs, g, h => fun g' _ => ⟨h g g' c (by simp),
      along_of e z cs g' fun g g' c' h' => h g g' c' (by simp [h'])⟩

/-- a history without openings of existing files -/
theorem opensOk_of {P : Gx → Prop} (e : Env) (z : Cz) (cs : List Call) (g : Gx) (h : ∀ c ∈ cs, c.opensRead = false) :
    OpensOk P e z g cs :=
  along_of e z cs g fun _ _ c hc hr => by rw [h c hc] at hr; cases hr

/-- a history of a new object without compression, then a question; for examples -/
def after {α : Type} (cs : List Call) (f : Gx → Res α) : Res α := do
  let g ← run ⟨[]⟩ Cz.id Gx.new cs
  f g

theorem aft_new : Aft Gx.new := by show ¬ Writing .notOpen ∧ Mode.notOpen ≠ .rFilter; decide

end Gdx
