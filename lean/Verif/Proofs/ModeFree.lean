import Verif.Proofs.Reading
import Verif.Proofs.ReadStart

/-!
DoRead and PrepareSymbolRead do not depend on the mode of the read.
-/

namespace Gdx

/-- the result with another mode of the object -/
def onMode {α : Type} (m : Mode) (r : Res (Gx × α)) : Res (Gx × α) := r >>= fun x => .ok ({ x.1 with mode := m }, x.2)

theorem remapIndex_mode (g : Gx) (n : Int) (m : Mode) : remapIndex { g with mode := m } n = onMode m (remapIndex g n) := by
  unfold remapIndex
  show (need g.acros >>= _) = onMode m (need g.acros >>= _)
  cases need g.acros with
  | ub => rfl
  | ok l =>
    simp only [Res.bind_ok]
    cases acrFind l n with
    | none =>
      simp only
      split
      · rfl
      split
      · rfl
      · rfl
    | some k =>
      simp only
      cases at0 l k with
      | ub => rfl
      | ok a =>
        simp only [Res.bind_ok]
        split
        · rfl
        split
        · rfl
        split
        · rfl
        · rfl

theorem readVal_mode (g : Gx) (v : SVal) (m : Mode) : readVal { g with mode := m } v = onMode m (readVal g v) := by
  cases v with
  | code c => rfl
  | num d =>
    unfold readVal
    simp only
    split
    · unfold acronymRemap
      split
      · rfl
      · show (if g.acrNaN = true then _ else _) = onMode m (if g.acrNaN = true then _ else _)
        split
        · rfl
        · cases acrDiv d with
          | ub => rfl
          | ok n =>
            simp only [Res.bind_ok]
            rw [remapIndex_mode]
            cases remapIndex g n <;> rfl
    · rfl

theorem readVals_mode (m : Mode) : ∀ (vs : List SVal) (g : Gx), readVals { g with mode := m } vs = onMode m (readVals g vs)
  | [], g => rfl
  | v :: vs, g => by
    unfold readVals
    rw [readVal_mode]
    cases readVal g v with
    | ub => rfl
    | ok x =>
      simp only [onMode, Res.bind_ok]
      rw [readVals_mode m vs]
      cases readVals x.1 vs <;> rfl

theorem remapTexts_mode (g : Gx) (m : Mode) (s : Sym) (vals : List Dbl) : remapTexts { g with mode := m } s vals = remapTexts g s vals := rfl

theorem doRead_mode (g : Gx) (m : Mode) : doRead { g with mode := m } = onMode m (doRead g) := by
  unfold doRead
  show (if g.rdUniverse = true then _ else _) = onMode m (if g.rdUniverse = true then _ else _)
  split
  · show (if g.universeNr ≥ intMax then _ else if g.universeNr + 1 ≤ g.uelOrig then _ else _) =
      onMode m (if g.universeNr ≥ intMax then _ else if g.universeNr + 1 ≤ g.uelOrig then _ else _)
    split
    · rfl
    split
    · rfl
    · rfl
  · show (g.curSym >>= _) = onMode m (g.curSym >>= _)
    cases g.curSym with
    | ub => rfl
    | ok s =>
      simp only [Res.bind_ok]
      show (if g.scalarFrst = true then _ else _) = onMode m (if g.scalarFrst = true then _ else _)
      split
      · rfl
      · show (rdOk (decRec g.nd g.deltaRead g.dataSize (g.bounds.map posDesc) g.last) g.rest >>= _) = onMode m (_ >>= _)
        cases rdOk (decRec g.nd g.deltaRead g.dataSize (g.bounds.map posDesc) g.last) g.rest with
        | ub => rfl
        | ok x =>
          obtain ⟨o, r⟩ := x
          simp only [Res.bind_ok]
          cases o with
          | none => rfl
          | some y =>
            obtain ⟨fd, rec⟩ := y
            simp only
            rw [show ({ g with mode := m, rest := r } : Gx) = { ({ g with rest := r } : Gx) with mode := m } from rfl, readVals_mode]
            cases readVals ({ g with rest := r } : Gx) rec.vals with
            | ub => rfl
            | ok x =>
              simp only [onMode, Res.bind_ok]
              rw [remapTexts_mode]
              cases remapTexts x.1 s x.2 <;> rfl

/-- what DoRead leaves alone -/
theorem readVals_uel : ∀ (vs : List SVal) (g : Gx), (readVals g vs).All fun x => x.1.uel = g.uel ∧ x.1.mode = g.mode
  | [], g => ⟨rfl, rfl⟩
  | v :: vs, g => by
    unfold readVals
    have h1 : (readVal g v).All fun x => x.1.uel = g.uel ∧ x.1.mode = g.mode := by
      cases v with
      | code c => exact ⟨rfl, rfl⟩
      | num d =>
        unfold readVal
        refine (?_ : Res.All _ _)
        dsimp only
        split
        · unfold acronymRemap
          split
          · exact ⟨rfl, rfl⟩
          split
          · exact ⟨rfl, rfl⟩
          · refine Res.All.bind' ?_
            intro n _
            refine Res.All.bind' ?_
            intro y hy
            have : (remapIndex g n).All fun x => x.1.uel = g.uel ∧ x.1.mode = g.mode := by
              unfold remapIndex
              refine Res.All.bind' ?_
              intro l _
              split
              · split
                · exact ⟨rfl, rfl⟩
                split
                · trivial
                · exact ⟨rfl, rfl⟩
              · refine Res.All.bind' ?_
                intro a _
                split
                · exact ⟨rfl, rfl⟩
                split
                · exact ⟨rfl, rfl⟩
                split
                · trivial
                · exact ⟨rfl, rfl⟩
            exact this.of_ok hy
        · exact ⟨rfl, rfl⟩
    refine Res.All.bind' ?_
    intro x hx
    have h1 := h1.of_ok hx
    refine Res.All.bind' ?_
    intro y hy
    have h2 := (readVals_uel vs x.1).of_ok hy
    exact ⟨h2.1.trans h1.1, h2.2.trans h1.2⟩

theorem doRead_uel (g : Gx) : (doRead g).All fun x => x.1.uel = g.uel ∧ x.1.mode = g.mode := by
  unfold doRead
  refine (?_ : Res.All _ _)
  split
  · split
    · trivial
    split
    · exact ⟨rfl, rfl⟩
    · exact ⟨rfl, rfl⟩
  · refine Res.All.bind' ?_
    intro s _
    split
    · exact ⟨rfl, rfl⟩
    · refine Res.All.bind' ?_
      intro x _
      dsimp only
      split
      · exact ⟨rfl, rfl⟩
      · refine Res.All.bind' ?_
        intro y hy
        have h1 := (readVals_uel _ _).of_ok hy
        refine Res.All.bind' ?_
        intro w _
        exact ⟨h1.1, h1.2⟩

theorem prepareRead_mode {z : Cz} {g : Gx} (hm : g.mode = .rInit) (nr : Int) (acts : List Int) {m1 m2 : Mode} (h1 : m1 ≠ .rMap)
    (h2 : m2 ≠ .rMap) (hi : m1 ≠ .rInit) :
    prepareRead z g nr acts m2 =
      (prepareRead z g nr acts m1 >>= fun x => .ok (if x.1.mode = m1 then { x.1 with mode := m2 } else x.1, x.2)) := by
  unfold prepareRead
  rw [prepareStart_init hm]
  simp only [Res.bind_ok, Bool.true_eq_false, if_false]
  have ne : ∀ (a : Gx) (k : Int), a.mode = .rInit → (pure (a, k) : Res (Gx × Int)) =
      ((pure (a, k) : Res (Gx × Int)) >>= fun x => .ok (if x.1.mode = m1 then { x.1 with mode := m2 } else x.1, x.2)) := by
    intro a k ha
    simp only [Res.pure_eq, Res.bind_ok]
    rw [if_neg (by rw [ha]; exact fun h => hi h.symm)]
  cases need g.filters with
  | ub => rfl
  | ok fl =>
    cases need g.names with
    | ub => rfl
    | ok syms =>
      simp only [Res.bind_ok]
      split
      · exact ne _ _ hm
      cases readTarget syms nr with
      | ub => rfl
      | ok t =>
        simp only [Res.bind_ok]
        cases t with
        | none =>
          simp only
          split
          · rfl
          split
          · exact ne _ _ hm
          · unfold readReady
            simp only [Res.pure_eq, Res.bind_ok, if_true]
        | some n =>
          simp only
          cases at1 syms n with
          | ub => rfl
          | ok s =>
            simp only [Res.bind_ok]
            split
            · rfl
            split
            · rfl
            split
            · exact ne _ _ hm
            · unfold prepareData
              dsimp only
              split
              · exact ne _ _ hm
              cases rdOk rdByte _ with
              | ub => rfl
              | ok x =>
                simp only [Res.bind_ok]
                split
                · exact ne _ _ hm
                cases rdOk rdInt _ with
                | ub => rfl
                | ok y =>
                  simp only [Res.bind_ok]
                  split
                  · simp only [Res.pure_eq, Res.bind_ok, if_true]
                  · cases rdOk (decBounds _) _ with
                    | ub => rfl
                    | ok w =>
                      simp only [Res.bind_ok]
                      unfold readReady
                      simp only [Res.pure_eq, Res.bind_ok, if_true]

theorem prepareRead_ready {z : Cz} {g : Gx} (nr : Int) (acts : List Int) {m : Mode} (h1 : m ≠ .rMap) :
    (prepareRead z g nr acts m).All fun x => x.2 = -1 ∨ x.1.mode = m := by
  unfold prepareRead
  refine Res.All.bind' ?_
  intro x _
  dsimp only
  split
  · exact Or.inl rfl
  refine Res.All.bind' ?_
  intro fl _
  refine Res.All.bind' ?_
  intro syms _
  split
  · exact Or.inl rfl
  refine Res.All.bind' ?_
  intro t _
  split
  · split
    · trivial
    split
    · exact Or.inl rfl
    · exact Or.inr rfl
  · refine Res.All.bind' ?_
    intro s _
    split
    · trivial
    split
    · trivial
    split
    · exact Or.inl rfl
    · unfold prepareData
      dsimp only
      split
      · exact Or.inl rfl
      refine Res.All.bind' ?_
      intro x _
      split
      · exact Or.inl rfl
      refine Res.All.bind' ?_
      intro y _
      split
      · exact Or.inr rfl
      refine Res.All.bind' ?_
      intro w _
      exact Or.inr rfl

end Gdx
