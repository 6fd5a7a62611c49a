import Verif.Proofs.ModeFree

/-!
The sequence of records that repeated DoRead delivers, and the loops over DoRead in terms of it.
-/

namespace Gdx

/-- what DoRead may change -/
def RdStep (g g' : Gx) : Prop :=
  g' = { g with acros := g'.acros, nextAuto := g'.nextAuto, rest := g'.rest, last := g'.last, universeNr := g'.universeNr,
                scalarFrst := g'.scalarFrst }

theorem RdStep.refl (g : Gx) : RdStep g g := rfl

theorem RdStep.trans {a b c : Gx} (h1 : RdStep a b) (h2 : RdStep b c) : RdStep a c := by
  unfold RdStep at *
  rw [h2, h1]

theorem RdStep.uel {g g' : Gx} (h : RdStep g g') : g'.uel = g.uel := by rw [h]
theorem RdStep.mode {g g' : Gx} (h : RdStep g g') : g'.mode = g.mode := by rw [h]
theorem RdStep.nd {g g' : Gx} (h : RdStep g g') : g'.nd = g.nd := by rw [h]; rfl
theorem RdStep.curDim {g g' : Gx} (h : RdStep g g') : g'.curDim = g.curDim := by rw [h]
theorem RdStep.nrMapped {g g' : Gx} (h : RdStep g g') : g'.nrMapped = g.nrMapped := by rw [h]
theorem RdStep.uni {g g' : Gx} (h : RdStep g g') : g'.rdUniverse = g.rdUniverse := by rw [h]
theorem RdStep.orig {g g' : Gx} (h : RdStep g g') : g'.uelOrig = g.uelOrig := by rw [h]

theorem readVals_step : ∀ (vs : List SVal) (g : Gx), (readVals g vs).All fun x => x.1 = { g with acros := x.1.acros, nextAuto := x.1.nextAuto }
  | [], g => rfl
  | v :: vs, g => by
    unfold readVals
    have h1 : (readVal g v).All fun x => x.1 = { g with acros := x.1.acros, nextAuto := x.1.nextAuto } := by
      cases v with
      | code c => exact rfl
      | num d =>
        unfold readVal
        refine (?_ : Res.All _ _)
        dsimp only
        split
        · unfold acronymRemap
          split
          · exact rfl
          split
          · exact rfl
          · refine Res.All.bind' ?_
            intro n _
            refine Res.All.bind' ?_
            intro y hy
            have : (remapIndex g n).All fun x => x.1 = { g with acros := x.1.acros, nextAuto := x.1.nextAuto } := by
              unfold remapIndex
              refine Res.All.bind' ?_
              intro l _
              split
              · split
                · exact rfl
                split
                · trivial
                · exact rfl
              · refine Res.All.bind' ?_
                intro a _
                split
                · exact rfl
                split
                · exact rfl
                split
                · trivial
                · exact rfl
            exact this.of_ok hy
        · exact rfl
    refine Res.All.bind' ?_
    intro x hx
    have h1 := h1.of_ok hx
    refine Res.All.bind' ?_
    intro y hy
    have h2 := (readVals_step vs x.1).of_ok hy
    show y.1 = _
    rw [h2, h1]

/-- how often DoRead can deliver a record -/
def Gx.left (g : Gx) : Nat :=
  if g.rdUniverse then (g.uelOrig - g.universeNr).toNat else g.rest.length + (if g.scalarFrst then 1 else 0)

theorem left_lt_fuel (g : Gx) : g.left < g.fuel := by
  unfold Gx.left Gx.fuel
  split
  · omega
  · split <;> omega

/-- a reader that does not give back more bytes than it got -/
def Shrinks {α : Type} (f : Rd α) : Prop := ∀ l x r, f l = some (x, r) → r.length ≤ l.length

theorem rdBytes_shrinks (n : Nat) : Shrinks (rdBytes n) := by
  intro l x r h
  unfold rdBytes at h
  split at h
  · cases h
    simp
  · cases h

theorem bindRd_shrinks {α β : Type} {f : Rd α} {k : α × List UInt8 → Option (β × List UInt8)} (hf : Shrinks f)
    (hk : ∀ a r x t, k (a, r) = some (x, t) → t.length ≤ r.length) : Shrinks (fun l => (f l).bind k) := by
  intro l x r h
  obtain ⟨⟨a, r1⟩, h1, h2⟩ := Option.bind_eq_some_iff.mp h
  exact Nat.le_trans (hk _ _ _ _ h2) (hf _ _ _ h1)

theorem rdByte_shrinks : Shrinks rdByte := by
  intro l x r h
  cases l with
  | nil => cases h
  | cons b t => cases h; simp

theorem rdWord_shrinks : Shrinks rdWord :=
  bindRd_shrinks (rdBytes_shrinks 2) (by intro a r x t h; cases h; exact le_refl _)

theorem rdInt_shrinks : Shrinks rdInt :=
  bindRd_shrinks (rdBytes_shrinks 4) (by intro a r x t h; cases h; exact le_refl _)

theorem rdDouble_shrinks : Shrinks rdDouble :=
  bindRd_shrinks (rdBytes_shrinks 8) (by intro a r x t h; cases h; exact le_refl _)

theorem decElem_shrinks (p : PosDesc) : Shrinks (decElem p) := by
  intro l x r h
  unfold decElem at h
  obtain ⟨⟨v, r1⟩, h1, h2⟩ := Option.bind_eq_some_iff.mp h
  have hr : r1.length ≤ l.length := by
    cases hp : p.sz with
    | int => rw [hp] at h1; exact rdInt_shrinks _ _ _ h1
    | word =>
      rw [hp] at h1
      obtain ⟨⟨w, r2⟩, h3, h4⟩ := Option.map_eq_some_iff.mp h1
      cases h4
      exact rdWord_shrinks _ _ _ h3
    | byte =>
      rw [hp] at h1
      obtain ⟨⟨w, r2⟩, h3, h4⟩ := Option.map_eq_some_iff.mp h1
      cases h4
      exact rdByte_shrinks _ _ _ h3
  simp only at h2
  split at h2
  · cases h2; exact hr
  · cases h2

theorem decElems_shrinks : ∀ (ps : List PosDesc), Shrinks (decElems ps)
  | [], l, x, r, h => by cases h; exact le_refl _
  | p :: ps, l, x, r, h => by
    unfold decElems at h
    obtain ⟨⟨k, r1⟩, h1, h2⟩ := Option.bind_eq_some_iff.mp h
    obtain ⟨⟨ks, r2⟩, h3, h4⟩ := Option.bind_eq_some_iff.mp h2
    cases h4
    exact Nat.le_trans (decElems_shrinks ps _ _ _ h3) (decElem_shrinks p _ _ _ h1)

theorem rdSVal_shrinks : Shrinks rdSVal := by
  intro l x r h
  unfold rdSVal at h
  obtain ⟨⟨b, r1⟩, h1, h2⟩ := Option.bind_eq_some_iff.mp h
  have hr := rdByte_shrinks _ _ _ h1
  simp only at h2
  split at h2
  · obtain ⟨⟨d, r2⟩, h3, h4⟩ := Option.bind_eq_some_iff.mp h2
    cases h4
    exact Nat.le_trans (rdDouble_shrinks _ _ _ h3) hr
  · cases h2; exact hr

theorem rdSVals_shrinks : ∀ (n : Nat), Shrinks (rdSVals n)
  | 0, l, x, r, h => by cases h; exact le_refl _
  | n + 1, l, x, r, h => by
    unfold rdSVals at h
    obtain ⟨⟨k, r1⟩, h1, h2⟩ := Option.bind_eq_some_iff.mp h
    obtain ⟨⟨ks, r2⟩, h3, h4⟩ := Option.bind_eq_some_iff.mp h2
    cases h4
    exact Nat.le_trans (rdSVals_shrinks n _ _ _ h3) (rdSVal_shrinks _ _ _ h1)

/-- a record takes at least one byte -/
theorem decRec_lt {dim dfr nv : Nat} {ps : List PosDesc} {last : List Int} {l r : List UInt8} {x : Option (Nat × Rec)}
    (h : decRec dim dfr nv ps last l = some (x, r)) : r.length < l.length := by
  unfold decRec at h
  obtain ⟨⟨o, r1⟩, h1, h2⟩ := Option.bind_eq_some_iff.mp h
  have hk : r1.length < l.length := by
    unfold decKey at h1
    cases l with
    | nil => cases h1
    | cons b t =>
      simp only [rdByte, Option.bind_eq_bind, Option.bind_some] at h1
      have ht : r1.length ≤ t.length := by
        split at h1
        · split at h1
          · cases h1; exact le_refl _
          · obtain ⟨k, _, h4⟩ := Option.bind_eq_some_iff.mp h1
            cases h4; exact le_refl _
        · split at h1
          · cases h1
          · obtain ⟨⟨ks, r2⟩, h3, h4⟩ := Option.bind_eq_some_iff.mp h1
            cases h4
            exact decElems_shrinks _ _ _ _ h3
      simp only [List.length_cons]
      omega
  cases o with
  | none => cases h2; exact hk
  | some y =>
    obtain ⟨fd, key⟩ := y
    simp only at h2
    obtain ⟨⟨vs, r2⟩, h3, h4⟩ := Option.bind_eq_some_iff.mp h2
    cases h4
    exact Nat.lt_of_le_of_lt (rdSVals_shrinks _ _ _ _ h3) hk

theorem rdOk_ok {α : Type} {f : Rd α} {l : List UInt8} {x : α × List UInt8} (h : rdOk f l = .ok x) : f l = some x := by
  unfold rdOk need at h
  cases hf : f l with
  | none => rw [hf] at h; cases h
  | some y => rw [hf] at h; cases h; rfl

/-- one DoRead -/
theorem doRead_step (g : Gx) : (doRead g).All fun x => RdStep g x.1 ∧ (x.2 ≠ none → x.1.left < g.left) := by
  unfold doRead
  refine (?_ : Res.All _ _)
  split
  · rename_i hu
    split
    · trivial
    split
    · refine ⟨rfl, fun _ => ?_⟩
      unfold Gx.left
      simp only [hu, if_true]
      omega
    · exact ⟨rfl, fun h => absurd rfl h⟩
  · rename_i hu
    refine Res.All.bind' ?_
    intro s _
    split
    · rename_i hs
      refine ⟨rfl, fun _ => ?_⟩
      unfold Gx.left
      simp [hu, hs]
    · rename_i hs
      refine Res.All.bind' ?_
      rintro ⟨o, r⟩ hx
      dsimp only
      split
      · exact ⟨rfl, fun h => absurd rfl h⟩
      · refine Res.All.bind' ?_
        intro y hy
        have h1 := (readVals_step _ _).of_ok hy
        refine Res.All.bind' ?_
        intro w _
        have hlt := decRec_lt (rdOk_ok hx)
        refine ⟨?_, fun _ => ?_⟩
        · show ({ y.1 with last := _ } : Gx) = _
          rw [h1]
        · show ({ y.1 with last := _ } : Gx).left < _
          rw [h1]
          unfold Gx.left
          simp only [hu, hs, Bool.false_eq_true, if_false, Nat.add_zero]
          exact hlt

/-- Repeated DoRead delivers exactly these records and then "no more". -/
inductive Yields : Gx → List (RecOut Int) → Gx → Prop
  | done {g g' : Gx} (h : doRead g = .ok (g', none)) : Yields g [] g'
  | next {g g1 g' : Gx} {fd : Nat} {vals : List Dbl} {rs : List (RecOut Int)} (h : doRead g = .ok (g1, some (fd, vals)))
      (hr : Yields g1 rs g') : Yields g (recOf g1 vals fd :: rs) g'

theorem Yields.step {g g' : Gx} {outs : List (RecOut Int)} (h : Yields g outs g') : RdStep g g' := by
  induction h with
  | done h => exact ((doRead_step _).of_ok h).1
  | next h _ ih => exact ((doRead_step _).of_ok h).1.trans ih

theorem Yields.len {g g' : Gx} {outs : List (RecOut Int)} (h : Yields g outs g') : outs.length ≤ g.left := by
  induction h with
  | done h => exact Nat.zero_le _
  | next h _ ih =>
    have := ((doRead_step _).of_ok h).2 (by simp)
    simp only at this
    simp only [List.length_cons]
    omega

/-- the raw reader delivers what DoRead delivers -/
theorem DeliversRaw.yields {g g2 : Gx} {outs : List (RecOut Int)} (h : DeliversRaw g outs g2) :
    g.mode = .rRaw → ∃ g', Yields g outs g' ∧ dataReadDone g' = .ok (g2, true) := by
  induction h with
  | @done g g2 h =>
    intro hm
    unfold dataReadRaw at h
    rcases chk_cases g [.rRaw] with ⟨_, hc⟩ | ⟨hc, _⟩
    · simp only [hc, Bool.true_eq_false, if_false] at h
      obtain ⟨⟨g1, o⟩, h1, h2⟩ := Res.bind_eq_ok.mp h
      have hst := ((doRead_step g).of_ok h1).1
      cases o with
      | none =>
        simp only at h2
        obtain ⟨⟨g3, b⟩, h3, h4⟩ := Res.bind_eq_ok.mp h2
        cases h4
        refine ⟨g1, .done h1, ?_⟩
        have hb : b = true := by
          unfold dataReadDone at h3
          rcases chk_cases ({ g1 with sort := none, cur := .none } : Gx) [.rInit, .rRaw, .rMap, .rMapR, .rStr, .rSlice] with ⟨_, hc⟩ | ⟨hc, _⟩
          · simp only [hc, Bool.true_eq_false, if_false] at h3
            split at h3
            · obtain ⟨_, _, h5⟩ := Res.bind_eq_ok.mp h3
              obtain ⟨_, _, h6⟩ := Res.bind_eq_ok.mp h5
              cases h6; rfl
            · cases h3; rfl
          · exact absurd (by rw [show ({ g1 with sort := none, cur := .none } : Gx).mode = g1.mode from rfl, hst.mode, hm]; simp) hc
        rw [h3, hb]
      | some y => cases h2
    · exact absurd (by simp [hm]) hc
  | @next g g1 g2 r rs h _ ih =>
    intro hm
    unfold dataReadRaw at h
    rcases chk_cases g [.rRaw] with ⟨_, hc⟩ | ⟨hc, _⟩
    · simp only [hc, Bool.true_eq_false, if_false] at h
      obtain ⟨⟨g3, o⟩, h1, h2⟩ := Res.bind_eq_ok.mp h
      have hst := ((doRead_step g).of_ok h1).1
      cases o with
      | none =>
        simp only at h2
        obtain ⟨_, _, h4⟩ := Res.bind_eq_ok.mp h2
        cases h4
      | some y =>
        obtain ⟨fd, vals⟩ := y
        cases h2
        obtain ⟨g', h5, h6⟩ := ih (by rw [hst.mode]; exact hm)
        exact ⟨g', .next h1 h5, h6⟩
    · exact absurd (by simp [hm]) hc

end Gdx
