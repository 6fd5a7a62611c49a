import Verif.Proofs.Hist

/-!
What the calls other than opening, closing and the data writers do to a symbol that is being written: nothing, or they end
in a reading mode.
-/

namespace Gdx

/-- the modes of element registration -/
def ElemMode (m : Mode) : Prop := m ∈ [Mode.rawElem, .mapElem, .strElem]

instance (m : Mode) : Decidable (ElemMode m) := by unfold ElemMode; infer_instance

/-- a file is being written, but no symbol -/
def Calm (g : Gx) : Prop := g.mode = .wInit ∨ (ElemMode g.mode ∧ g.modeAft = .wInit)

/-- reading -/
def InRead (g : Gx) : Prop := ReadMode g.mode ∨ ((ElemMode g.mode ∧ g.mode ≠ .rawElem) ∧ g.modeAft = .rInit)

/-- element registration goes back to where it came from -/
def AftOk (g : Gx) : Prop := ElemMode g.mode → g.modeAft = .wInit ∨ g.modeAft = .rInit

/-- the part of the object that belongs to the symbol being written -/
structure SesCore where
  opened : Bool
  file : List UInt8
  stat : FStat
  cur : Cur
  curDim : Int
  dataSize : Nat
  bounds : List (Int × Int)
  last : List Int
  dataCount : Int
  blk : List UInt8
  nextWrite : Int
  majorPos : Nat
  sort : Option (LData (List Dbl))
  lastStr : List (Option Str)
  errList : Option (List (List Int × List Dbl))
  wrBits : List (Option Nat)
  comprOut : Bool

def Gx.ses (g : Gx) : SesCore :=
  ⟨g.opened, g.file, g.stat, g.cur, g.curDim, g.dataSize, g.bounds, g.last, g.dataCount, g.blk, g.nextWrite, g.majorPos, g.sort,
   g.lastStr, g.errList, g.wrBits, g.comprOut⟩

/-- the data of a symbol are the same; comments and domains may differ -/
structure SymSame (s s' : Sym) : Prop where
  name : s'.name = s.name
  pos : s'.pos = s.pos
  dim : s'.dim = s.dim
  typ : s'.typ = s.typ
  ui : s'.userInfo = s.userInfo
  cnt : s'.dataCount = s.dataCount
  errs : s'.errors = s.errors
  txt : s'.setText = s.setText
  compr : s'.compr = s.compr
  bits : s'.bitmap = s.bitmap

theorem SymSame.refl (s : Sym) : SymSame s s := ⟨rfl, rfl, rfl, rfl, rfl, rfl, rfl, rfl, rfl, rfl⟩

/-- symbols keep their data, new ones are aliases -/
def SymsSame (a b : Option (List Sym)) : Prop :=
  ∀ syms, a = some syms → ∃ syms', b = some syms' ∧ syms.length ≤ syms'.length ∧
    (∀ (m : Nat) (s : Sym), syms[m]? = some s → ∃ s', syms'[m]? = some s' ∧ SymSame s s') ∧
    (∀ (m : Nat) (s' : Sym), syms'[m]? = some s' → syms.length ≤ m → s'.typ = dtAlias)

theorem SymsSame.refl (a : Option (List Sym)) : SymsSame a a := by
  rintro syms rfl
  refine ⟨syms, rfl, le_refl _, fun m s h => ⟨s, h, SymSame.refl s⟩, ?_⟩
  intro m s' h hm
  rw [List.getElem?_eq_none hm] at h
  cases h

theorem SymsSame.set {syms : List Sym} {n : Nat} {s s' : Sym} (hn : syms[n]? = some s) (h : SymSame s s') :
    SymsSame (some syms) (some (syms.set n s')) := by
  intro l hl
  cases hl
  refine ⟨_, rfl, by simp, ?_, ?_⟩
  · intro m t ht
    rw [List.getElem?_set]
    by_cases hm : n = m
    · subst hm
      rw [hn] at ht
      cases ht
      rw [if_pos rfl, if_pos (List.getElem?_eq_some_iff.mp hn).1]
      exact ⟨s', rfl, h⟩
    · rw [if_neg hm]
      exact ⟨t, ht, SymSame.refl t⟩
  · intro m t ht hm
    rw [List.getElem?_eq_none (by simpa using hm)] at ht
    cases ht

theorem SymsSame.append {syms : List Sym} {s : Sym} (h : s.typ = dtAlias) : SymsSame (some syms) (some (syms ++ [s])) := by
  intro l hl
  cases hl
  refine ⟨_, rfl, by simp, ?_, ?_⟩
  · intro m t ht
    refine ⟨t, ?_, SymSame.refl t⟩
    rw [List.getElem?_append_left (List.getElem?_eq_some_iff.mp ht).1]
    exact ht
  · intro m t ht hm
    rw [List.getElem?_append_right hm] at ht
    obtain ⟨h1, h2⟩ := List.getElem?_eq_some_iff.mp ht
    have hm : t ∈ [s] := h2 ▸ List.getElem_mem h1
    rw [List.mem_singleton.mp hm]
    exact h

/-- the symbol being written is left alone -/
structure Ses (g g' : Gx) : Prop where
  ses : g'.ses = g.ses
  names : SymsSame g.names g'.names

theorem Ses.refl (g : Gx) : Ses g g := ⟨rfl, SymsSame.refl _⟩
theorem Ses.raise (g : Gx) (n : Int) : Ses g (g.raise n) := ⟨rfl, SymsSame.refl _⟩

/-- the effect of a call that does not write -/
def Tame (g g' : Gx) : Prop :=
  InRead g' ∨ (Ses g g' ∧ ((g'.mode = g.mode ∧ g'.modeAft = g.modeAft) ∨ (Calm g ∧ Calm g')))

theorem Tame.read {g g' : Gx} (h : ReadMode g'.mode) : Tame g g' := Or.inl (Or.inl h)
theorem Tame.refl (g : Gx) : Tame g g := Or.inr ⟨Ses.refl g, Or.inl ⟨rfl, rfl⟩⟩
theorem Tame.raise (g : Gx) (n : Int) : Tame g (g.raise n) := Or.inr ⟨Ses.raise g n, Or.inl ⟨rfl, rfl⟩⟩
theorem Tame.keep {g g' : Gx} (h : g'.ses = g.ses) (hn : g'.names = g.names) (hm : g'.mode = g.mode) (ha : g'.modeAft = g.modeAft) :
    Tame g g' := Or.inr ⟨⟨h, by rw [hn]; exact SymsSame.refl _⟩, Or.inl ⟨hm, ha⟩⟩
theorem Tame.names {g g' : Gx} (h : g'.ses = g.ses) (hn : SymsSame g.names g'.names) (hm : g'.mode = g.mode)
    (ha : g'.modeAft = g.modeAft) : Tame g g' := Or.inr ⟨⟨h, hn⟩, Or.inl ⟨hm, ha⟩⟩

theorem ReadMode.ne {m : Mode} (h : ReadMode m) : ¬ ElemMode m := by
  revert h
  cases m <;> decide

theorem Tame.aftOk {g g' : Gx} (h : Tame g g') (ha : AftOk g) : AftOk g' := by
  intro he
  rcases h with (h | ⟨_, h⟩) | ⟨_, ⟨h1, h2⟩ | ⟨_, h | ⟨_, h⟩⟩⟩
  · exact absurd he h.ne
  · exact Or.inr h
  · rw [h1] at he
    rw [h2]
    exact ha he
  · rw [h] at he
    exact absurd he (by decide)
  · exact Or.inl h

/-- result states of a call -/
def TameR {α : Type} (g : Gx) (r : Res (Gx × α)) : Prop := r.All fun x => Tame g x.1

/-! ### symbols, texts, domains -/

theorem isGoodNewSymbol_tame (g : Gx) (syms : List Sym) (acros : List Acr) (s : Str) : Tame g (isGoodNewSymbol g syms acros s).1 := by
  unfold isGoodNewSymbol
  split
  · exact Tame.raise g _
  split
  · exact Tame.raise g _
  split
  · exact Tame.refl g
  · exact Tame.raise g _

theorem addAliasTo_tame {g : Gx} {syms : List Sym} (hs : g.names = some syms) (acros : List Acr) (n : Int) (name : Str) :
    TameR g (addAliasTo g syms acros n name) := by
  unfold addAliasTo
  have key : ∀ s : Sym, s.typ = dtAlias → Tame g { g with names := some (syms ++ [s]) } := by
    intro s h
    exact Tame.names rfl (by rw [hs]; exact SymsSame.append h) rfl rfl
  have hg := isGoodNewSymbol_cases g syms acros name
  split
  · rcases hg with ⟨h, _⟩ | ⟨k, _, h⟩
    · rw [h]
      exact key _ rfl
    · rw [h]
      exact Tame.raise g _
  · refine Res.All.bind' ?_
    intro s _
    split
    · exact Tame.raise g _
    rcases hg with ⟨h, _⟩ | ⟨k, _, h⟩
    · rw [h]
      simp only [Bool.true_eq_false, if_false]
      split
      · trivial
      · exact key _ rfl
    · rw [h]
      exact Tame.raise g _

theorem addAlias_tame (g : Gx) (a b : Str) : TameR g (addAlias g a b) := by
  unfold addAlias
  rcases chk_cases g anyWrite with ⟨hm, hc⟩ | ⟨hm, hc⟩
  · rw [hc]
    simp only [Bool.true_eq_false, if_false]
    refine Res.All.bind' ?_
    intro syms hs
    split
    · exact Tame.raise g _
    · refine Res.All.bind' ?_
      intro acros _
      split
      · exact addAliasTo_tame (need_ok hs) _ _ _
      · exact addAliasTo_tame (need_ok hs) _ _ _
  · rw [hc]
    exact Tame.raise g _

theorem addSetText_tame (g : Gx) (t : Str) : Tame g (addSetText g t).1 := by
  unfold addSetText
  split
  · exact Tame.refl g
  · dsimp only
    split
    · exact Tame.refl g
    · exact Tame.keep rfl rfl rfl rfl

theorem setTextNodeNr_tame (g : Gx) (n d : Int) : Tame g (setTextNodeNr g n d).1 := by
  unfold setTextNodeNr
  split
  · exact Tame.refl g
  · split
    · exact Tame.keep rfl rfl rfl rfl
    · exact Tame.refl g

theorem symbolSetDomainX_tame (g : Gx) (n : Int) (ids : List Str) : TameR g (symbolSetDomainX g n ids) := by
  unfold symbolSetDomainX
  refine Res.All.bind' ?_
  intro syms hs
  split
  · exact Tame.raise g _
  refine Res.All.bind' ?_
  intro s h
  split
  · split
    · trivial
    refine Res.All.bind' ?_
    intro l _
    obtain ⟨h1, h2, h3⟩ := at1_ok h
    refine Tame.names (g' := { g with domStrs := _, names := _ }) rfl ?_ rfl rfl
    show SymsSame g.names (some _)
    rw [need_ok hs, show n.toNat - 1 = (n - 1).toNat by omega, modify_eq_set_of h3]
    exact SymsSame.set h3 ⟨rfl, rfl, rfl, rfl, rfl, rfl, rfl, rfl, rfl, rfl⟩
  · exact Tame.refl g

theorem symbolAddComment_tame (g : Gx) (n : Int) (t : Str) : TameR g (symbolAddComment g n t) := by
  unfold symbolAddComment
  rcases chk_cases g anyWrite with ⟨hm, hc⟩ | ⟨hm, hc⟩
  · rw [hc]
    simp only [Bool.true_eq_false, if_false]
    split
    · split
      · exact Tame.raise g _
      · refine Res.All.bind' ?_
        intro g1 h1
        obtain ⟨n, syms, s, h2, h3, h4, rfl⟩ := modCur_ok h1
        refine Tame.names rfl ?_ rfl rfl
        rw [h3]
        exact SymsSame.set h4 ⟨rfl, rfl, rfl, rfl, rfl, rfl, rfl, rfl, rfl, rfl⟩
    · split
      · rename_i l hl
        split
        · refine Tame.names (g' := { g with names := _ }) rfl ?_ rfl rfl
          have hs : l[n.toNat - 1]? = some (l[n.toNat - 1]'(by omega)) := List.getElem?_eq_getElem (by omega)
          show SymsSame g.names (some _)
          rw [hl, modify_eq_set_of hs]
          exact SymsSame.set hs ⟨rfl, rfl, rfl, rfl, rfl, rfl, rfl, rfl, rfl, rfl⟩
        · exact Tame.raise g _
      · exact Tame.raise g _
  · rw [hc]
    exact Tame.raise g _

/-! ### elements -/

theorem Tame.calm {g g' : Gx} (h : g'.ses = g.ses) (hn : g'.names = g.names) (h1 : Calm g) (h2 : Calm g') : Tame g g' :=
  Or.inr ⟨⟨h, by rw [hn]; exact SymsSame.refl _⟩, Or.inr ⟨h1, h2⟩⟩

theorem uelRegisterRawStart_tame (g : Gx) : Tame g (uelRegisterRawStart g).1 := by
  unfold uelRegisterRawStart
  rcases chk_cases g [.wInit] with ⟨hm, hc⟩ | ⟨hm, hc⟩
  · rw [hc]
    exact Tame.calm (g' := { g with modeAft := .wInit, mode := .rawElem }) rfl rfl (Or.inl (List.mem_singleton.mp hm))
      (Or.inr ⟨show ElemMode .rawElem by decide, rfl⟩)
  · rw [hc]
    exact Tame.raise g _

theorem uelRegisterStart_tame (g : Gx) (m : Mode) (he : ElemMode m) (hr : m ≠ .rawElem) : Tame g (uelRegisterStart g m).1 := by
  unfold uelRegisterStart
  rcases chk_cases g [.rInit, .wInit] with ⟨hm, hc⟩ | ⟨hm, hc⟩
  · rw [hc]
    simp only [if_true]
    by_cases h : g.mode = .wInit
    · exact Tame.calm (g' := { g with modeAft := if g.mode = .wInit then .wInit else .rInit, mode := m }) rfl rfl (Or.inl h)
        (Or.inr ⟨he, by show (if g.mode = .wInit then Mode.wInit else .rInit) = _; rw [if_pos h]⟩)
    · exact Or.inl (Or.inr ⟨⟨he, hr⟩, by show (if g.mode = .wInit then Mode.wInit else .rInit) = _; rw [if_neg h]⟩)
  · rw [hc]
    exact Tame.raise g _

theorem uelRegisterDone_tame (g : Gx) (ha : AftOk g) : Tame g (uelRegisterDone g).1 := by
  unfold uelRegisterDone
  rcases chk_cases g [.rawElem, .mapElem, .strElem] with ⟨hm, hc⟩ | ⟨hm, hc⟩
  · rw [hc]
    simp only [if_true]
    rcases ha hm with h | h
    · exact Tame.calm (g' := { g with mode := g.modeAft }) rfl rfl (Or.inr ⟨hm, h⟩) (Or.inl h)
    · exact Tame.read (g' := { g with mode := g.modeAft }) (by show ReadMode g.modeAft; rw [h]; decide)
  · rw [hc]
    exact Tame.raise g _

theorem uelRegisterRaw_tame (g : Gx) (s : Str) : TameR g (uelRegisterRaw g s) := by
  unfold uelRegisterRaw
  rcases chk_cases g [.rawElem] with ⟨hm, hc⟩ | ⟨hm, hc⟩
  · rw [hc]
    simp only [Bool.true_eq_false, if_false]
    refine Res.All.bind' ?_
    intro s _
    split
    · exact Tame.raise g _
    refine Res.All.bind' ?_
    intro u _
    exact Tame.keep rfl rfl rfl rfl
  · rw [hc]
    exact Tame.raise g _

theorem uelRegisterStr_tame (g : Gx) (s : Str) : TameR g (uelRegisterStr g s) := by
  unfold uelRegisterStr
  rcases chk_cases g [.strElem] with ⟨hm, hc⟩ | ⟨hm, hc⟩
  · rw [hc]
    simp only [Bool.true_eq_false, if_false]
    refine Res.All.bind' ?_
    intro s _
    split
    · exact Tame.raise g _
    refine Res.All.bind' ?_
    intro u _
    refine Res.All.bind' ?_
    intro r _
    exact Tame.keep rfl rfl rfl rfl
  · rw [hc]
    exact Tame.raise g _

theorem uelRegisterMap_tame (g : Gx) (m : Int) (s : Str) : TameR g (uelRegisterMap g m s) := by
  unfold uelRegisterMap
  refine Res.All.bind' ?_
  intro s _
  rcases chk_cases g [.mapElem] with ⟨hm, hc⟩ | ⟨hm, hc⟩
  · rw [hc]
    simp only [Bool.true_eq_false, if_false]
    split
    · exact Tame.raise g _
    refine Res.All.bind' ?_
    intro u _
    refine Res.All.bind' ?_
    intro r _
    split
    · exact Tame.keep rfl rfl rfl rfl
    · exact Tame.keep rfl rfl rfl rfl
  · rw [hc]
    exact Tame.raise g _

theorem renameUEL_tame (g : Gx) (a b : Str) : TameR g (renameUEL g a b) := by
  unfold renameUEL
  split
  · exact Tame.refl g
  · refine Res.All.bind' ?_
    intro s _
    split
    · exact Tame.refl g
    refine Res.All.bind' ?_
    intro o _
    split
    · exact Tame.refl g
    split
    · exact Tame.refl g
    · exact Tame.keep rfl rfl rfl rfl

/-! ### reading -/

theorem tame_of_evoI {α : Type} {g : Gx} {r : Res (Gx × α)} (h : r.All fun x => EvoI .all g x.1) : TameR g r :=
  h.mono fun _ hx => Tame.read hx.2

theorem readMode_of_mem {m : Mode} {l : List Mode} (h : m ∈ l) (hl : ∀ x ∈ l, ReadMode x) : ReadMode m := hl m h

theorem dataReadRaw_tame (g : Gx) : TameR g (dataReadRaw g) := by
  unfold dataReadRaw
  rcases chk_cases g [.rRaw] with ⟨hm, hc⟩ | ⟨hm, hc⟩
  · rw [hc]
    simp only [Bool.true_eq_false, if_false]
    refine Res.All.bind (doRead_evo .all g) ?_
    rintro ⟨g1, o⟩ h1
    cases o with
    | none =>
      refine Res.All.bind (dataReadDone_evo .all g1) ?_
      intro r hr
      exact Tame.read hr.2
    | some x =>
      refine Tame.read ?_
      rw [show g1.mode = g.mode from h1.2.1]
      exact readMode_of_mem hm (by decide)
  · rw [hc]
    exact Tame.raise g _

theorem dataReadStr_tame (g : Gx) : TameR g (dataReadStr g) := by
  unfold dataReadStr
  rcases chk_cases g [.rStr] with ⟨hm, hc⟩ | ⟨hm, hc⟩
  · rw [hc]
    simp only [Bool.true_eq_false, if_false]
    refine Res.All.bind (doRead_evo .all g) ?_
    rintro ⟨g1, o⟩ h1
    cases o with
    | none =>
      refine Res.All.bind (dataReadDone_evo .all g1) ?_
      intro r hr
      exact Tame.read hr.2
    | some x =>
      refine Res.All.bind' ?_
      intro ks _
      refine Tame.read ?_
      show ReadMode g1.mode
      rw [show g1.mode = g.mode from h1.2.1]
      exact readMode_of_mem hm (by decide)
  · rw [hc]
    exact Tame.raise g _

theorem dataReadMap_tame (g : Gx) (k : List Int) : TameR g (dataReadMap g k) := by
  unfold dataReadMap
  rcases chk_cases g [.rMap, .rMapR] with ⟨hm, hc⟩ | ⟨hm, hc⟩
  · have hr : ReadMode g.mode := readMode_of_mem hm (by decide)
    rw [hc]
    simp only [Bool.true_eq_false, if_false]
    split
    · trivial
    split
    · refine Res.All.bind' ?_
      intro s _
      exact Tame.read hr
    split
    · split
      · exact Tame.read hr
      · split
        · trivial
        · exact Tame.read hr
      · split
        · trivial
        · exact Tame.read hr
    split
    · trivial
    · exact (streamMap_evo .all _ _ _ _ _).mono fun r h => Tame.read (by rw [h.2.1]; exact hr)
  · rw [hc]
    exact Tame.raise g _

theorem dataReadRawFastEx_tame (z : Cz) (g : Gx) (nr : Int) (cont : List (RecOut Int) → Bool) :
    TameR g (dataReadRawFastEx z g nr cont) := by
  unfold dataReadRawFastEx
  refine Res.All.bind' ?_
  rintro ⟨g1, n⟩ _
  refine Res.All.bind' ?_
  rintro ⟨g2, rs⟩ _
  refine Res.All.bind (dataReadDone_evo .all g2) ?_
  intro r h3
  exact Tame.read h3.2

theorem dataReadRawFastFilt_tame (z : Cz) (g : Gx) (nr : Int) (filt : List Str) (cont : List (RecOut Int) → Bool) :
    TameR g (dataReadRawFastFilt z g nr filt cont) := by
  unfold dataReadRawFastFilt
  refine Res.All.bind' ?_
  rintro ⟨g1, n⟩ _
  refine Res.All.bind' ?_
  rintro ⟨g2, res⟩ _
  refine Res.All.bind (dataReadDone_evo .all g2) ?_
  intro r h3
  exact Tame.read h3.2

theorem getDomainElements_tame (z : Cz) (g : Gx) (nr dimPos flt : Int) (cb : Bool) :
    TameR g (getDomainElements z g nr dimPos flt cb) := by
  unfold getDomainElements
  refine Res.All.bind' ?_
  intro syms _
  split
  · exact Tame.raise g _
  refine Res.All.bind' ?_
  intro s _
  split
  · exact Tame.refl g
  split
  · exact Tame.raise g _
  refine Res.All.bind' ?_
  intro filters _
  simp only
  split
  · exact Tame.raise g _
  refine Res.All.bind' ?_
  rintro ⟨g1, n⟩ _
  refine Res.All.bind' ?_
  rintro ⟨g2, m⟩ _
  refine Res.All.bind (dataReadDone_evo .all g2) ?_
  rintro ⟨g3, _⟩ h3
  simp only
  split
  · exact Tame.read h3.2
  · refine Res.All.bind' ?_
    intro u hu
    refine Res.All.bind' ?_
    rintro ⟨u', ps⟩ _
    exact Tame.read h3.2

theorem symbIndxMaxLength_tame (z : Cz) (g : Gx) (nr : Int) : TameR g (symbIndxMaxLength z g nr) := by
  unfold symbIndxMaxLength
  rcases chk_cases g [.rInit] with ⟨hm, hc⟩ | ⟨hm, hc⟩
  · rw [hc]
    simp only [Bool.true_eq_false, if_false]
    refine Res.All.bind' ?_
    intro syms _
    split
    · exact Tame.refl g
    refine Res.All.bind (readStart_evo .all z g nr _ .rRaw ⟨fun _ => trivial, by decide⟩ (by decide)) ?_
    rintro ⟨g1, r⟩ h1
    simp only
    split
    · exact Tame.read h1.2
    refine Res.All.bind' ?_
    intro u _
    refine Res.All.bind' ?_
    rintro ⟨g2, lens⟩ _
    refine Res.All.bind (dataReadDone_evo .all g2) ?_
    intro r h3
    exact Tame.read h3.2
  · rw [hc]
    exact Tame.raise g _

theorem dataReadSliceStart_tame (z : Cz) (g : Gx) (nr : Int) : TameR g (dataReadSliceStart z g nr) := by
  unfold dataReadSliceStart
  refine Res.All.bind' ?_
  rintro ⟨g1, n⟩ _
  refine Res.All.bind' ?_
  rintro ⟨g2, ms⟩ _
  refine Res.All.bind' ?_
  rintro ⟨g3, _⟩ _
  refine Res.All.bind' ?_
  rintro ⟨ix, rev, cs⟩ _
  exact Tame.read (show ReadMode .rSlice by decide)

theorem dataReadSlice_tame (z : Cz) (g : Gx) (filt : List Str) : TameR g (dataReadSlice z g filt) := by
  unfold dataReadSlice
  rcases chk_cases g [.rSlice] with ⟨hm, hc⟩ | ⟨hm, hc⟩
  · rw [hc]
    simp only [Bool.true_eq_false, if_false]
    split
    · trivial
    refine Res.All.bind' ?_
    intro u _
    split
    · exact Tame.read (show ReadMode .rInit by decide)
    refine Res.All.bind (prepareRead_evo .all z _ _ _ .rSlice ⟨by rintro ⟨⟩, by decide⟩ (by decide)) ?_
    rintro ⟨g1, n⟩ h1
    simp only
    split
    · trivial
    refine Res.All.bind (sliceRead_evo .all _ _ g1.fuel g1) ?_
    rintro ⟨g2, rs⟩ h2
    exact Tame.read (by show ReadMode g2.mode; rw [show g2.mode = g1.mode from h2.2.1]; exact h1.2)
  · rw [hc]
    exact Tame.raise g _

theorem dataSliceUELS_tame (g : Gx) (keys : List Int) : TameR g (dataSliceUELS g keys) := by
  unfold dataSliceUELS
  rcases chk_cases g [.rSlice] with ⟨hm, hc⟩ | ⟨hm, hc⟩
  · rw [hc]
    simp only [Bool.true_eq_false, if_false]
    refine Res.All.bind' ?_
    intro u _
    refine Res.All.bind' ?_
    intro r _
    exact Tame.refl g
  · rw [hc]
    exact Tame.raise g _

/-! ### queries, filters, acronyms -/

theorem symbolGetDomain_tame (g : Gx) (n : Int) : TameR g (symbolGetDomain g n) := by
  unfold symbolGetDomain
  refine Res.All.bind' ?_
  intro _ _
  split
  · exact Tame.raise g _
  · exact Tame.refl g

theorem symbolGetDomainX_tame (g : Gx) (n : Int) : TameR g (symbolGetDomainX g n) := by
  unfold symbolGetDomainX
  refine Res.All.bind' ?_
  intro l _
  split
  · exact Tame.raise g _
  · split
    · refine Res.All.bind' ?_
      intro dl _
      refine Res.All.bind' ?_
      intro r _
      exact Tame.refl g
    · exact Tame.refl g
    · refine Res.All.bind' ?_
      intro r _
      exact Tame.refl g

theorem dataErrorRecordX_tame (g : Gx) (n : Int) : Tame g (dataErrorRecordX g n).1 := by
  unfold dataErrorRecordX
  rcases chk_cases g [.rInit, .wInit, .rMap, .rMapR, .wRaw, .wMap, .wStr] with ⟨hm, hc⟩ | ⟨hm, hc⟩
  · rw [hc]
    simp only [Bool.true_eq_false, if_false]
    split
    · exact Tame.refl g
    · split
      · exact Tame.refl g
      · exact Tame.raise g _
  · rw [hc]
    exact Tame.raise g _

theorem filterExists_tame (g : Gx) (n : Int) : TameR g (filterExists g n) := by
  unfold filterExists
  rcases chk_cases g [.rInit, .rRaw, .rMap, .rMapR, .rStr] with ⟨hm, hc⟩ | ⟨hm, hc⟩
  · rw [hc]
    simp only [Bool.true_eq_false, if_false]
    refine Res.All.bind' ?_
    intro l _
    exact Tame.refl g
  · rw [hc]
    exact Tame.raise g _

theorem filterRegisterStart_tame (g : Gx) (n : Int) : TameR g (filterRegisterStart g n) := by
  unfold filterRegisterStart
  rcases chk_cases g [.rInit] with ⟨hm, hc⟩ | ⟨hm, hc⟩
  · rw [hc]
    simp only [Bool.true_eq_false, if_false]
    split
    · exact Tame.raise g _
    refine Res.All.bind' ?_
    intro u _
    refine Res.All.bind' ?_
    intro l _
    exact Tame.read (show ReadMode .rFilter by decide)
  · rw [hc]
    exact Tame.raise g _

theorem filterRegister_tame (g : Gx) (n : Int) : TameR g (filterRegister g n) := by
  unfold filterRegister
  rcases chk_cases g [.rFilter] with ⟨hm, hc⟩ | ⟨hm, hc⟩
  · rw [hc]
    simp only [Bool.true_eq_false, if_false]
    refine Res.All.bind' ?_
    intro l _
    refine Res.All.bind' ?_
    intro f _
    refine Res.All.bind' ?_
    intro u _
    split
    · exact Tame.raise g _
    split
    · refine Res.All.bind' ?_
      intro m _
      exact Tame.keep rfl rfl rfl rfl
    · exact Tame.raise g _
  · rw [hc]
    exact Tame.raise g _

theorem filterRegisterDone_tame (g : Gx) : TameR g (filterRegisterDone g) := by
  unfold filterRegisterDone
  rcases chk_cases g [.rFilter] with ⟨hm, hc⟩ | ⟨hm, hc⟩
  · rw [hc]
    simp only [Bool.true_eq_false, if_false]
    refine Res.All.bind' ?_
    intro l _
    refine Res.All.bind' ?_
    intro f _
    split
    · exact Tame.read (show ReadMode .rInit by decide)
    · exact Tame.read (show ReadMode .rInit by decide)
  · rw [hc]
    exact Tame.raise g _

theorem setSpecialValuesA_tame (g : Gx) (v : SVTab) : Tame g (setSpecialValuesA g v).1 := by
  unfold setSpecialValuesA
  split
  · exact Tame.keep rfl rfl rfl rfl
  · exact Tame.raise g _

theorem acronymAdd_tame (g : Gx) (name text : Str) (idx : Int) : TameR g (acronymAdd g name text idx) := by
  unfold acronymAdd
  refine Res.All.bind' ?_
  intro l _
  split
  · exact Tame.refl g
  · exact Tame.raise g _
  · exact Tame.keep rfl rfl rfl rfl

theorem acronymSetInfo_tame (g : Gx) (n : Int) (name text : Str) (idx : Int) : TameR g (acronymSetInfo g n name text idx) := by
  unfold acronymSetInfo
  refine Res.All.bind' ?_
  intro l _
  refine Res.All.bind' ?_
  intro a _
  split
  · refine Res.All.bind' ?_
    intro syms _
    rcases isGoodNewSymbol_cases g syms l name with ⟨h, _⟩ | ⟨k, hn, h⟩
    · rw [h]
      simp only [Bool.true_eq_false, if_false]
      split
      · split
        · exact Tame.keep rfl rfl rfl rfl
        · trivial
      · split
        · exact Tame.raise g _
        · exact Tame.keep rfl rfl rfl rfl
    · rw [h]
      simp only [if_true]
      exact Tame.keep rfl rfl rfl rfl
  · split
    · split
      · exact Tame.raise g _
      split
      · exact Tame.raise g _
      · exact Tame.keep rfl rfl rfl rfl
    · exact Tame.refl g

/-! ### all calls -/

/-- calls that do not open, close or write data -/
def Call.quiet : Call → Bool
  | .openWrite .. | .openRead .. | .openAppend .. | .close | .rawStart .. | .rawStartBounds .. | .writeRaw .. | .mapStart ..
  | .writeMap .. | .strStart .. | .writeStr .. | .writeDone | .setDomain .. => false
  | _ => true

theorem stateOf_tame {α : Type} {g : Gx} {r : Res (Gx × α)} (h : TameR g r) : (stateOf r).All fun g' => Tame g g' := by
  unfold stateOf
  refine Res.All.bind h ?_
  intro x hx
  exact hx

theorem step_tame (e : Env) (z : Cz) (g : Gx) (c : Call) (hq : c.quiet = true) (ha : AftOk g) :
    (step e z g c).All fun g' => Tame g g' := by
  cases c with
  | openWrite => cases hq
  | openRead => cases hq
  | openAppend => cases hq
  | close => cases hq
  | rawStart => cases hq
  | rawStartBounds => cases hq
  | writeRaw => cases hq
  | mapStart => cases hq
  | writeMap => cases hq
  | strStart => cases hq
  | writeStr => cases hq
  | writeDone => cases hq
  | setDomain => cases hq
  | addAlias a b => exact stateOf_tame (addAlias_tame g a b)
  | addSetText t => exact addSetText_tame g t
  | setTextNodeNr n d => exact setTextNodeNr_tame g n d
  | setDomainX n ids => exact stateOf_tame (symbolSetDomainX_tame g n ids)
  | addComment n t => exact stateOf_tame (symbolAddComment_tame g n t)
  | uelRawStart => exact uelRegisterRawStart_tame g
  | uelMapStart => exact uelRegisterStart_tame g .mapElem (by decide) (by decide)
  | uelStrStart => exact uelRegisterStart_tame g .strElem (by decide) (by decide)
  | uelDone => exact uelRegisterDone_tame g ha
  | uelRaw s => exact stateOf_tame (uelRegisterRaw_tame g s)
  | uelMap m s => exact stateOf_tame (uelRegisterMap_tame g m s)
  | uelStr s => exact stateOf_tame (uelRegisterStr_tame g s)
  | renameUEL a b => exact stateOf_tame (renameUEL_tame g a b)
  | readRawStart n => exact stateOf_tame (tame_of_evoI (readStart_evo .all z g n _ .rRaw ⟨fun _ => trivial, by decide⟩ (by decide)))
  | readRaw => exact stateOf_tame (dataReadRaw_tame g)
  | readStrStart n => exact stateOf_tame (tame_of_evoI (readStart_evo .all z g n _ .rStr ⟨fun _ => trivial, by decide⟩ (by decide)))
  | readStr => exact stateOf_tame (dataReadStr_tame g)
  | readMapStart n => exact stateOf_tame (tame_of_evoI (readStart_evo .all z g n _ .rMap ⟨fun _ => trivial, by decide⟩ (by decide)))
  | readFilteredStart n a => exact stateOf_tame (tame_of_evoI (readStart_evo .all z g n _ .rMap ⟨fun _ => trivial, by decide⟩ (by decide)))
  | readMap k => exact stateOf_tame (dataReadMap_tame g k)
  | readDone => exact stateOf_tame (tame_of_evoI (dataReadDone_evo .all g))
  | readRawFast n => exact stateOf_tame (dataReadRawFastEx_tame z g n _)
  | readRawFastEx n c => exact stateOf_tame (dataReadRawFastEx_tame z g n c)
  | readRawFastFilt n f c => exact stateOf_tame (dataReadRawFastFilt_tame z g n f c)
  | sliceStart n => exact stateOf_tame (dataReadSliceStart_tame z g n)
  | slice f => exact stateOf_tame (dataReadSlice_tame z g f)
  | sliceUELS k => exact stateOf_tame (dataSliceUELS_tame g k)
  | domainElements n d f c => exact stateOf_tame (getDomainElements_tame z g n d f c)
  | indxMaxLength n => exact stateOf_tame (symbIndxMaxLength_tame z g n)
  | getDomain n => exact stateOf_tame (symbolGetDomain_tame g n)
  | getDomainX n => exact stateOf_tame (symbolGetDomainX_tame g n)
  | errorRecord n => exact dataErrorRecordX_tame g n
  | errorRecordX n => exact dataErrorRecordX_tame g n
  | getLastError => exact (Tame.keep rfl rfl rfl rfl : Tame g (Gdx.getLastError g).1)
  | filterExists n => exact stateOf_tame (filterExists_tame g n)
  | filterStart n => exact stateOf_tame (filterRegisterStart_tame g n)
  | filterAdd u => exact stateOf_tame (filterRegister_tame g u)
  | filterDone => exact stateOf_tame (filterRegisterDone_tame g)
  | setSpecialValues v => exact setSpecialValuesA_tame g v
  | setReadSpecialValues v => exact (Tame.keep rfl rfl rfl rfl : Tame g (Gdx.setReadSpecialValues g v))
  | resetSpecialValues => exact (Tame.keep rfl rfl rfl rfl : Tame g (Gdx.resetSpecialValues g))
  | acronymAdd n t i => exact stateOf_tame (acronymAdd_tame g n t i)
  | acronymSetInfo k n t i => exact stateOf_tame (acronymSetInfo_tame g k n t i)
  | acronymNextNr v =>
    show Tame g (if v ≥ 0 then { g with nextAuto := v } else g)
    split
    · exact Tame.keep rfl rfl rfl rfl
    · exact Tame.refl g
  | storeDomainSets f => exact (Tame.keep rfl rfl rfl rfl : Tame g { g with storeDom := f })
  | allowBogusDomains f => exact (Tame.keep rfl rfl rfl rfl : Tame g { g with allowBogus := f })
  | mapAcronymsToNaN f => exact (Tame.keep rfl rfl rfl rfl : Tame g { g with acrNaN := f })
  | autoConvert v => exact (Tame.keep rfl rfl rfl rfl : Tame g { g with autoConvert := v })

end Gdx
