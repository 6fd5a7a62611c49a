import Verif.Proofs.DiffWrite
import Verif.Proofs.DiffRead
import Verif.Proofs.MergeTake

/-!
`gdxdiff`: the entries of the difference file.
-/

namespace Gdx.Diff
open Gdx Gdx.Spec Gdx.Props
open Gdx.Merge (Out namesOf textsOf Label GoodLabel HasText)

/-- an entry of the difference file: a record that is in one file only (`ins`) or with other values in the other file; `first`: a record of file 1. The key has the
    numbers of UELTable; `flds`: the fields that are written one by one with the option DiffOnly. -/
structure Ev where
  ins : Bool
  first : Bool
  key : List Int
  vals : List Dbl
  flds : List Nat

/-- the fields are written one by one: the option DiffOnly, for a variable or an equation -/
def byField (o : Opt) (typ : Nat) : Bool := o.diffOnly && isVarEqu typ

/-- the two records differ in this field -/
def differAt (o : Opt) (G1 G2 : Gx) (v w : List Dbl) (t : Nat) : Bool :=
  match fieldsEqual o G1 G2 v w [t] with
  | .ok false => true
  | _ => false

/-- the fields of a record that is in one file only -/
def insFlds (o : Opt) (typ : Nat) : List Nat := if byField o typ then fieldsOf o else []

/-- the fields of two records that differ -/
def difFlds (o : Opt) (typ : Nat) (G1 G2 : Gx) (v w : List Dbl) : List Nat := if byField o typ then (fieldsOf o).filter (differAt o G1 G2 v w) else []

/-- the records that are written for an entry: one (`none`) or one for each field -/
def partsOf (o : Opt) (typ : Nat) (w : Ev) : List (Option Nat) := if byField o typ then w.flds.map some else [none]

/-- … and for a list of entries -/
def pairsOf (o : Opt) (typ : Nat) (W : List Ev) : List (Ev × Option Nat) := W.flatMap fun w => (partsOf o typ w).map (Prod.mk w)

/-- the label of a field -/
def fldLabel : Option Nat → List Str
  | some f => [fieldNames[f]?.getD []]
  | none => []

/-- the last label -/
def Ev.act (w : Ev) : Str := if w.ins then (if w.first then ins1 else ins2) else (if w.first then dif1 else dif2)

/-- the string with this number -/
def Named (A : List Str) (k : Int) (s : Str) : Prop := 0 ≤ k ∧ A[k.toNat]? = some s

/-- a record that can be written -/
structure RecFit (A : List Str) (G : Gx) (typ dim : Nat) (r : RecOut Int) : Prop where
  len : r.key.length = dim
  key : ∀ k ∈ r.key, 0 ≤ k ∧ k < A.length
  vals : r.vals.length = dataTypSize typ
  set : typ = dtSet → ∃ d t, r.vals = [d] ∧ HasText G d t ∧ ZFree t

/-- the one field that is written: the option FldOnly, for a variable or an equation -/
def lone (o : Opt) (typ : Nat) : Option Nat := if isVarEqu typ then o.fldOnly else none

/-- the values of a record that are written -/
def shownVals (o : Opt) (typ : Nat) (v : List Dbl) : List Dbl :=
  match lone o typ with
  | some f => v[f]?.toList
  | none => v

/-- … and those of a part -/
def partVals (o : Opt) (typ : Nat) (f : Option Nat) (v : List Dbl) : List Dbl :=
  match f with
  | some f => v[f]?.toList
  | none => shownVals o typ v

/-- explanatory text, type and subtype of a symbol of the difference file -/
def headText (o : Opt) (typ : Nat) : Str :=
  match lone o typ with
  | some f => txtField ++ fieldNames[f]?.getD []
  | none => if byField o typ then txtOnly else txtDiff

def headTyp (o : Opt) (typ : Nat) : Nat := if (lone o typ).isSome ∨ byField o typ = true then dtPar else typ

def headVet (o : Opt) (typ : Nat) (vet : Int) : Int := if (lone o typ).isSome ∨ byField o typ = true then 0 else vet

/-- the dimension of a symbol of the difference file -/
def headDim (o : Opt) (typ dim : Nat) : Nat := if byField o typ then dim + 2 else dim + 1

/-- `vs` are the values that are written for the values `v` of a record; a set has the number of its text in the table `T` -/
def ValsFor (o : Opt) (typ : Nat) (G : Gx) (T : List Str) (f : Option Nat) (v vs : List Dbl) : Prop :=
  if typ = dtSet then ∃ d t, v = [d] ∧ HasText G d t ∧ ∃ j : Nat, vs = [intDbl j] ∧ T[j]? = some (makeGoodExplText (t.take 255)) else vs = partVals o typ f v

theorem ValsFor.mono {o : Opt} {typ : Nat} {G : Gx} {T T' : List Str} {f : Option Nat} {v vs : List Dbl} (h : ValsFor o typ G T f v vs) (ht : T <+: T') :
    ValsFor o typ G T' f v vs := by
  unfold ValsFor at h ⊢
  split at h
  · rename_i hs
    rw [if_pos hs]
    obtain ⟨d, t, h1, h2, j, h3, h4⟩ := h
    refine ⟨d, t, h1, h2, j, h3, ?_⟩
    obtain ⟨q, rfl⟩ := ht
    rw [List.getElem?_append_left (List.getElem?_eq_some_iff.mp h4).1]
    exact h4
  · rename_i hs
    rw [if_neg hs]
    exact h

/-- the record `y` is written for the entry `w.1`, or for its field `w.2` -/
structure RowFor (o : Opt) (A : List Str) (typ : Nat) (G1 G2 : Gx) (L T : List Str) (w : Ev × Option Nat) (y : Given) : Prop where
  key : ∃ ks, List.Forall₂ (Named A) w.1.key ks ∧ List.Forall₂ (Label L) y.1 (ks ++ (fldLabel w.2 ++ [w.1.act]))
  vals : ValsFor o typ (if w.1.first then G1 else G2) T w.2 w.1.vals y.2

theorem RowFor.mono {o : Opt} {A : List Str} {typ : Nat} {G1 G2 : Gx} {L L' T T' : List Str} {w : Ev × Option Nat} {y : Given} (h : RowFor o A typ G1 G2 L T w y) (hl : L <+: L') (ht : T <+: T') :
    RowFor o A typ G1 G2 L' T' w y := by
  obtain ⟨ks, h1, h2⟩ := h.key
  exact ⟨⟨ks, h1, h2.imp fun _ _ h => h.mono hl⟩, h.vals.mono ht⟩

/-- the symbol can be written -/
structure SyOk (o : Opt) (N : List Str) (s : Sy) : Prop where
  ident : Ident s.id
  new : ∀ t ∈ N, ¬ SameNoCase t s.id
  typ : s.typ ≤ 3
  vet : I32 s.vet
  room : byField o s.typ = true → s.dim ≠ 19

/-- what is the same during the run: the labels and the options -/
structure Setup (o : Opt) (A : List Str) : Prop where
  all : o.diffOnly = true → o.fldOnly = none ∧ ∀ s ∈ fieldNames, s ∈ A
  fld : ∀ f, o.fldOnly = some f → f < 5
  few : (A.length : Int) ≤ 2147483000
  good : ∀ s ∈ A, GoodLabel s
  acts : ins1 ∈ A ∧ ins2 ∈ A ∧ dif1 ∈ A ∧ dif2 ∈ A

theorem Setup.act {o : Opt} {A : List Str} (h : Setup o A) (w : Ev) : w.act ∈ A := by
  obtain ⟨h1, h2, h3, h4⟩ := h.acts
  unfold Ev.act
  split <;> split <;> assumption

/-- the records for `ps` are written to the symbol, which was begun after `b` -/
def WritesP (o : Opt) (e : Env) (z : Cz) (A N L0 T0 : List Str) (s : Sy) (G1 G2 b : Gx) (ps : List (Ev × Option Nat)) (g : Gx) : Prop :=
  ∃ g0 g1 u T its, Out e z N T0 g0 ∧ StaysIn e z b g0 ∧
    dataWriteStrStart g0 s.id (headText o s.typ) (headDim o s.typ s.dim : Nat) (headTyp o s.typ) (headVet o s.typ s.vet) = .ok (g1, true) ∧
    Rows e z A g1 N.length ⟨s.id, (headDim o s.typ s.dim : Nat), (headTyp o s.typ : Int).toNat, headVet o s.typ s.vet⟩ its u T g ∧ L0 <+: u.strs ∧ T0 <+: T ∧
    List.Forall₂ (RowFor o A s.typ G1 G2 u.strs T) ps its ∧ g1.nd = headDim o s.typ s.dim ∧ g1.dataSize = dataTypSize (headTyp o s.typ)

/-- the entries `W` are written to the symbol, which was begun after `b` -/
def Writes (o : Opt) (e : Env) (z : Cz) (A N L0 T0 : List Str) (s : Sy) (G1 G2 b : Gx) (W : List Ev) (g : Gx) : Prop :=
  ∃ ps, ps.Perm (pairsOf o s.typ W) ∧ WritesP o e z A N L0 T0 s G1 G2 b ps g

theorem keyStrs_named {A : List Str} : ∀ {f : Int → Res Str}, (∀ k s, Named A k s → f k = .ok s) → ∀ {ks : List Int}, (∀ k ∈ ks, 0 ≤ k ∧ k < A.length) →
    ∃ ss, keyStrs f ks = .ok ss ∧ List.Forall₂ (Named A) ks ss
  | f, hf, [], _ => ⟨[], rfl, .nil⟩
  | f, hf, k :: ks, h => by
    obtain ⟨h1, h2⟩ := h k (by simp)
    have hk : Named A k A[k.toNat] := ⟨h1, List.getElem?_eq_getElem (by omega)⟩
    obtain ⟨ss, i1, i2⟩ := keyStrs_named hf (ks := ks) fun k hk => h k (by simp [hk])
    refine ⟨_ :: ss, ?_, .cons hk i2⟩
    unfold keyStrs
    rw [hf k _ hk, Res.bind_ok, i1]
    rfl

theorem at0_named {A : List Str} {k : Int} {s : Str} (h : Named A k s) : at0 A k = .ok s := by
  unfold at0
  rw [if_pos h.1, h.2]

theorem keyStr_named {A : List Str} {k : Int} {s : Str} (h : Named A k s) : keyStr A k = .ok s := by
  unfold keyStr
  have := (List.getElem?_eq_some_iff.mp h.2).1
  have := h.1
  rw [if_pos (by omega), at0_named h]

theorem dataTypSize_le {t : Nat} (h : t ≤ 3) : dataTypSize t ≤ 5 := by
  interval_cases t <;> decide

theorem named_mem {A : List Str} {ks : List Int} {ss : List Str} (h : List.Forall₂ (Named A) ks ss) : ∀ s ∈ ss, s ∈ A := by
  induction h with
  | nil => intro s hs; cases hs
  | cons h _ ih =>
    intro s hs
    rcases List.mem_cons.mp hs with rfl | hs
    · exact List.mem_of_getElem? h.2
    · exact ih s hs

/-- a record is written -/
theorem put_row {o : Opt} {e : Env} {z : Cz} {A : List Str} (hA : Setup o A) {g1 g : Gx} {m : Nat} {d : SymDesc} {its : List Given} {u : Uel} {T : List Str}
    (h : Rows e z A g1 m d its u T g) {w : Ev} {f : Option Nat} {ss : List Str} {vs : List Dbl} (hk : List.Forall₂ (Named A) w.key ss)
    (hl : ss.length + (fldLabel f).length + 1 = g1.nd) (hfl : ∀ s ∈ fldLabel f, s ∈ A) (hd : g1.nd ≤ 20)
    (hv : vs.length = g1.dataSize) {typ : Nat} {G1 G2 : Gx} (hvs : ValsFor o typ (if w.first then G1 else G2) T f w.vals vs) :
    ∃ g' u' y, writeRec g (ss ++ (fldLabel f ++ [w.act])) vs = .ok g' ∧ Rows e z A g1 m d (its ++ [y]) u' T g' ∧ u.strs <+: u'.strs ∧ RowFor o A typ G1 G2 u'.strs T (w, f) y := by
  have hlen : (ss ++ (fldLabel f ++ [w.act])).length = g1.nd := by
    rw [List.length_append, List.length_append, List.length_singleton]
    omega
  obtain ⟨g', u', y, a1, a2, a3, a4, a5⟩ := h.row hA.few (key := ss ++ (fldLabel f ++ [w.act])) (vals := vs) (by
    intro k hk'
    rcases List.mem_append.mp hk' with hk' | hk'
    · have := named_mem hk k hk'
      exact ⟨hA.good k this, this⟩
    · rcases List.mem_append.mp hk' with hk' | hk'
      · exact ⟨hA.good _ (hfl _ hk'), hfl _ hk'⟩
      · rw [List.mem_singleton.mp hk']
        exact ⟨hA.good _ (hA.act w), hA.act w⟩) hlen hd hv
  refine ⟨g', u', y, ?_, a2, a3, ⟨ss, hk, a4⟩, by rw [a5]; exact hvs⟩
  unfold writeRec
  rw [if_neg (by omega)]
  rw [List.take_left' (by rw [hlen, h.nd]), List.take_left' (by rw [hv, h.size]), a1]
  rfl

theorem isVarEqu_iff {t : Nat} : isVarEqu t = true ↔ t = dtVar ∨ t = dtEqu := by
  unfold isVarEqu
  simp

theorem lone_set (o : Opt) : lone o dtSet = none := by
  unfold lone
  rw [if_neg (by decide)]

theorem byField_set (o : Opt) : byField o dtSet = false := by
  unfold byField
  rw [show isVarEqu dtSet = false from rfl, Bool.and_false]

theorem headTyp_set (o : Opt) : headTyp o dtSet = dtSet := by
  unfold headTyp
  rw [lone_set, byField_set]
  rfl

theorem byField_lone {o : Opt} {A : List Str} (hA : Setup o A) {typ : Nat} (h : byField o typ = true) : lone o typ = none := by
  unfold byField at h
  unfold lone
  rw [(hA.all (Bool.and_eq_true_iff.mp h).1).1]
  split <;> rfl

theorem fieldName_lt {t : Nat} (h : t < 5) : fieldNames[t]? = some (fieldNames[t]?.getD []) := by interval_cases t <;> rfl

theorem fieldsOf_lt {o : Opt} {t : Nat} (h : t ∈ fieldsOf o) : t < 5 := by
  have := (List.mem_filter.mp h).1
  exact List.mem_range.mp this

theorem lone_some {o : Opt} {typ f : Nat} (h : lone o typ = some f) : o.fldOnly = some f ∧ isVarEqu typ = true := by
  unfold lone at h
  split at h
  · rename_i hv
    exact ⟨h, hv⟩
  · cases h

theorem size_varEqu {typ : Nat} (h : isVarEqu typ = true) : dataTypSize typ = 5 := by
  rcases isVarEqu_iff.mp h with rfl | rfl <;> rfl

/-- the values that are written -/
theorem writeVals_eq {o : Opt} {A : List Str} (hA : Setup o A) (s : Sy) {v : List Dbl} (hv : v.length = dataTypSize s.typ) :
    writeVals o s v = .ok (shownVals o s.typ v) := by
  unfold writeVals shownVals lone
  cases hi : isVarEqu s.typ with
  | false => cases o.fldOnly <;> rfl
  | true =>
    cases hf : o.fldOnly with
    | none => rfl
    | some f =>
      have h5 := hA.fld f hf
      have hl : f < v.length := by rw [hv, size_varEqu hi]; exact h5
      simp only [if_true]
      rw [List.getElem?_append_left hl, List.getElem?_eq_getElem hl]
      rfl

theorem writeVals_set {o : Opt} {s : Sy} (h : s.typ = dtSet) (v : List Dbl) : writeVals o s v = .ok v := by
  unfold writeVals
  rw [show isVarEqu s.typ = false by rw [h]; rfl]
  cases o.fldOnly <;> rfl

theorem shown_length {o : Opt} {A : List Str} (hA : Setup o A) {typ : Nat} (hb : byField o typ = false) {v : List Dbl} (hv : v.length = dataTypSize typ) :
    (shownVals o typ v).length = dataTypSize (headTyp o typ) := by
  unfold shownVals headTyp
  rw [hb]
  cases hl : lone o typ with
  | none => exact hv
  | some f =>
    obtain ⟨h1, h2⟩ := lone_some hl
    have h5 := hA.fld f h1
    rw [size_varEqu h2] at hv
    dsimp only
    rw [List.getElem?_eq_getElem (by omega)]
    rfl

theorem writeDiff_eq {o : Opt} {A : List Str} {s : Sy} (hb : byField o s.typ = false) {c : Cmp} (hr : c.o.reg = true) (hu : c.o.uels = A) {act : Str} {keys : List Int} {ss : List Str}
    (hk : keyStrs (keyStr A) keys = .ok ss) {vals vs : List Dbl} (hv : writeVals o s vals = .ok vs) {gd : Gx} (hw : writeRec c.o.gd (ss ++ (fldLabel none ++ [act])) vs = .ok gd) :
    writeDiff o s c act [] keys vals = .ok { c with o := { c.o with gd := gd } } := by
  have hb' : (o.diffOnly && isVarEqu s.typ) = false := hb
  have hw' : writeRec c.o.gd (ss ++ [act]) vs = .ok gd := hw
  unfold writeDiff registerDiff
  rw [if_pos hr]
  simp only [Res.bind_ok, hu, hk, hv, hb', Bool.false_eq_true, if_false, hw', Res.pure_eq]

theorem writeField_eq {o : Opt} {A : List Str} (hA : Setup o A) {s : Sy} (hb : byField o s.typ = true) {c : Cmp} (hr : c.o.reg = true) (hu : c.o.uels = A) {act : Str} {keys : List Int}
    {ss : List Str} (hk : keyStrs (keyStr A) keys = .ok ss) {vals : List Dbl} {t : Nat} {gd : Gx}
    (hw : writeRec c.o.gd (ss ++ (fldLabel (some t) ++ [act])) vals = .ok gd) :
    writeDiff o s c act (fieldNames[t]?.getD []) keys vals = .ok { c with o := { c.o with gd := gd } } := by
  have hb' : (o.diffOnly && isVarEqu s.typ) = true := hb
  have hv : writeVals o s vals = .ok vals := by
    unfold writeVals
    rw [(hA.all (Bool.and_eq_true_iff.mp hb').1).1]
  have hw' : writeRec c.o.gd (ss ++ [fieldNames[t]?.getD [], act]) vals = .ok gd := hw
  unfold writeDiff registerDiff
  rw [if_pos hr]
  simp only [Res.bind_ok, hu, hk, hv, hb', if_true, hw', Res.pure_eq]

theorem writeSetDiff_eq {o : Opt} {A : List Str} {c : Cmp} (hr : c.o.reg = true) (hu : c.o.uels = A) {act txt : Str} {keys : List Int} {ss : List Str}
    (hk : keyStrs (at0 A) keys = .ok ss) {g2 gd : Gx} {n : Int} (ht : addSetText c.o.gd txt = (g2, (true, n))) (hw : writeRec g2 (ss ++ [act]) [intDbl n] = .ok gd) :
    writeSetDiff o c act keys txt = .ok { c with o := { c.o with gd := gd } } := by
  unfold writeSetDiff registerDiff
  rw [if_pos hr]
  simp only [Res.bind_ok, hu, hk, ht, hw, Res.pure_eq]

section
variable {o : Opt} {e : Env} {z : Cz} {A N L0 T0 : List Str} {s : Sy} {G1 G2 b : Gx}

theorem headDim_le (hd : s.dim < 20) (hr : byField o s.typ = true → s.dim ≠ 19) : headDim o s.typ s.dim ≤ 20 := by
  unfold headDim
  split
  · rename_i h
    have := hr h
    omega
  · omega

theorem headDim_one (h : byField o s.typ = false) : headDim o s.typ s.dim = s.dim + 1 := by
  unfold headDim
  rw [h]
  rfl

theorem headDim_two (h : byField o s.typ = true) : headDim o s.typ s.dim = s.dim + 2 := by
  unfold headDim
  rw [if_pos h]

theorem pairsOf_one (h : byField o s.typ = false) (W : List Ev) (w : Ev) : pairsOf o s.typ (W ++ [w]) = pairsOf o s.typ W ++ [(w, none)] := by
  unfold pairsOf partsOf
  simp [h]

theorem Writes.add {W : List Ev} {w : Ev} {ps : List (Ev × Option Nat)} {gd : Gx} (hb : byField o s.typ = false) (hp : ps.Perm (pairsOf o s.typ W))
    (h : WritesP o e z A N L0 T0 s G1 G2 b (ps ++ [(w, none)]) gd) : Writes o e z A N L0 T0 s G1 G2 b (W ++ [w]) gd :=
  ⟨_, by rw [pairsOf_one hb]; exact hp.append_right _, h⟩

/-- an entry of a symbol that is no set -/
theorem Writes.put {W : List Ev} {c : Cmp} (hA : Setup o A) (hb : byField o s.typ = false) (hd : s.dim < 20) (ht : s.typ ≠ dtSet) (h : Writes o e z A N L0 T0 s G1 G2 b W c.o.gd)
    (hr : c.o.reg = true) (hu : c.o.uels = A) {G : Gx} {r : RecOut Int} (hf : RecFit A G s.typ s.dim r) {w : Ev} (hwk : w.key = r.key) (hwv : w.vals = r.vals) :
    ∃ gd, writeDiff o s c w.act [] r.key r.vals = .ok { c with o := { c.o with gd := gd } } ∧ Writes o e z A N L0 T0 s G1 G2 b (W ++ [w]) gd := by
  obtain ⟨ps, hp, g0, g1, u, T, its, h1, h2, h3, h4, h5, h6, h7, h8, h9⟩ := h
  obtain ⟨ss, k1, k2⟩ := keyStrs_named (f := keyStr A) (fun _ _ => keyStr_named) hf.key
  have hl := k2.length_eq
  rw [hf.len] at hl
  have h8' := h8
  rw [headDim_one hb] at h8'
  obtain ⟨g', u', y, a1, a2, a3, a4⟩ := put_row hA h4 (w := w) (f := none) (vs := shownVals o s.typ r.vals) (typ := s.typ) (G1 := G1) (G2 := G2) (by rw [hwk]; exact k2)
    (by rw [h8', ← hl]; rfl) (by intro _ hs; cases hs) (by omega) (by rw [h9]; exact shown_length hA hb hf.vals) (by unfold ValsFor; rw [if_neg ht, hwv]; rfl)
  refine ⟨g', writeDiff_eq hb hr hu k1 (writeVals_eq hA s hf.vals) a1, Writes.add hb hp ⟨g0, g1, u', T, its ++ [y], h1, h2, h3, a2, h5.trans a3, h6, ?_, h8, h9⟩⟩
  refine List.rel_append (h7.imp fun _ _ h => h.mono a3 (List.prefix_refl _)) ?_
  exact .cons a4 .nil

/-- a field of an entry -/
theorem WritesP.field {ps : List (Ev × Option Nat)} {c : Cmp} (hA : Setup o A) (hb : byField o s.typ = true) (hd : s.dim < 20) (hroom : s.dim ≠ 19)
    (h : WritesP o e z A N L0 T0 s G1 G2 b ps c.o.gd)
    (hr : c.o.reg = true) (hu : c.o.uels = A) {G : Gx} {r : RecOut Int} (hf : RecFit A G s.typ s.dim r) {w : Ev} (hwk : w.key = r.key) (hwv : w.vals = r.vals) {t : Nat} (ht : t < 5)
    {v : Dbl} (hv : r.vals[t]? = some v) :
    ∃ gd, writeDiff o s c w.act (fieldNames[t]?.getD []) r.key [v] = .ok { c with o := { c.o with gd := gd } } ∧ WritesP o e z A N L0 T0 s G1 G2 b (ps ++ [(w, some t)]) gd := by
  obtain ⟨g0, g1, u, T, its, h1, h2, h3, h4, h5, h6, h7, h8, h9⟩ := h
  obtain ⟨ss, k1, k2⟩ := keyStrs_named (f := keyStr A) (fun _ _ => keyStr_named) hf.key
  have hl := k2.length_eq
  rw [hf.len] at hl
  have h8' := h8
  rw [headDim_two hb] at h8'
  have hve : isVarEqu s.typ = true := (Bool.and_eq_true_iff.mp hb).2
  have hdo : o.diffOnly = true := (Bool.and_eq_true_iff.mp hb).1
  have hns : s.typ ≠ dtSet := by
    intro hc
    rw [hc] at hve
    cases hve
  obtain ⟨g', u', y, a1, a2, a3, a4⟩ := put_row hA h4 (w := w) (f := some t) (vs := [v]) (typ := s.typ) (G1 := G1) (G2 := G2) (by rw [hwk]; exact k2)
    (by rw [h8', ← hl]; rfl) (by
      intro x hx
      rw [List.mem_singleton.mp hx]
      exact (hA.all hdo).2 _ (List.mem_of_getElem? (fieldName_lt ht))) (by omega) (by
      rw [h9]
      unfold headTyp
      rw [if_pos (Or.inr hb)]
      rfl) (by
      unfold ValsFor
      rw [if_neg hns, hwv]
      unfold partVals
      dsimp only
      rw [hv]
      rfl)
  refine ⟨g', writeField_eq hA hb hr hu k1 a1, g0, g1, u', T, its ++ [y], h1, h2, h3, a2, h5.trans a3, h6, ?_, h8, h9⟩
  refine List.rel_append (h7.imp fun _ _ h => h.mono a3 (List.prefix_refl _)) ?_
  exact .cons a4 .nil

/-- the fields of a record that is in one file only -/
theorem WritesP.insFields (hA : Setup o A) (hb : byField o s.typ = true) (hd : s.dim < 20) (hroom : s.dim ≠ 19) {G : Gx} {r : RecOut Int} (hf : RecFit A G s.typ s.dim r) {w : Ev}
    (hwk : w.key = r.key) (hwv : w.vals = r.vals) : ∀ {ts : List Nat}, (∀ t ∈ ts, t < 5) → ∀ {ps : List (Ev × Option Nat)} {c : Cmp}, WritesP o e z A N L0 T0 s G1 G2 b ps c.o.gd →
    c.o.reg = true → c.o.uels = A →
    ∃ gd, writeInsFields o s w.act r.key r.vals ts c = .ok { c with o := { c.o with gd := gd } } ∧ WritesP o e z A N L0 T0 s G1 G2 b (ps ++ (ts.map some).map (Prod.mk w)) gd
  | [], _, ps, c, h, _, _ => ⟨c.o.gd, rfl, by simpa using h⟩
  | t :: ts, ht, ps, c, h, hr, hu => by
    have h5 := ht t (List.mem_cons_self ..)
    have hlen : t < r.vals.length := by rw [hf.vals, size_varEqu (Bool.and_eq_true_iff.mp hb).2]; exact h5
    obtain ⟨gd, a1, a2⟩ := WritesP.field hA hb hd hroom h hr hu hf hwk hwv h5 (List.getElem?_eq_getElem hlen)
    obtain ⟨gd', b1, b2⟩ := WritesP.insFields hA hb hd hroom hf hwk hwv (fun t h => ht t (List.mem_cons_of_mem _ h)) (c := { c with o := { c.o with gd := gd } }) a2 hr hu
    refine ⟨gd', ?_, ?_⟩
    · unfold writeInsFields
      rw [List.getElem?_eq_getElem hlen, fieldName_lt h5]
      simp only [need, Res.bind_ok, a1, b1]
    · rw [List.append_assoc] at b2
      exact b2

theorem fieldsEqual_single {v w : List Dbl} {t : Nat} {x y : Dbl} (hv : v[t]? = some x) (hw : w[t]? = some y) : fieldsEqual o G1 G2 v w [t] = doublesEqual o G1 G2 x y := by
  unfold fieldsEqual
  rw [hv, hw]
  simp only [need, Res.bind_ok]
  unfold fieldsEqual
  cases doublesEqual o G1 G2 x y with
  | ub => rfl
  | ok e => cases e <;> rfl

/-- the fields of two records with the same key -/
theorem WritesP.difFields (hA : Setup o A) (hb : byField o s.typ = true) (hd : s.dim < 20) (hroom : s.dim ≠ 19) {r q : RecOut Int} (hf : RecFit A G1 s.typ s.dim r)
    (hf' : RecFit A G2 s.typ s.dim q) (hrq : r.key = q.key) {w w' : Ev} (ha : w.act = dif1) (ha' : w'.act = dif2) (hwk : w.key = r.key) (hwv : w.vals = r.vals)
    (hwk' : w'.key = q.key) (hwv' : w'.vals = q.vals) :
    ∀ {ts : List Nat}, (∀ t ∈ ts, t < 5) → (∀ t ∈ ts, ∃ e, fieldsEqual o G1 G2 r.vals q.vals [t] = .ok e) → ∀ {ps : List (Ev × Option Nat)} {c : Cmp},
    WritesP o e z A N L0 T0 s G1 G2 b ps c.o.gd → c.o.reg = true → c.o.uels = A → Eyes G1 c.o.g1 → Eyes G2 c.o.g2 →
    ∃ gd qs, writeFields o s r.key r.vals q.vals ts c = .ok { c with o := { c.o with gd := gd } } ∧ WritesP o e z A N L0 T0 s G1 G2 b (ps ++ qs) gd ∧
      qs.Perm (((ts.filter (differAt o G1 G2 r.vals q.vals)).map some).map (Prod.mk w) ++ ((ts.filter (differAt o G1 G2 r.vals q.vals)).map some).map (Prod.mk w'))
  | [], _, _, ps, c, h, _, _, _, _ => ⟨c.o.gd, [], rfl, by simpa using h, .nil⟩
  | t :: ts, ht, hdef, ps, c, h, hr, hu, e1, e2 => by
    have h5 := ht t (List.mem_cons_self ..)
    have h55 := size_varEqu (Bool.and_eq_true_iff.mp hb).2
    have l1 : t < r.vals.length := by rw [hf.vals, h55]; exact h5
    have l2 : t < q.vals.length := by rw [hf'.vals, h55]; exact h5
    obtain ⟨v, hv⟩ := hdef t (List.mem_cons_self ..)
    have hde := hv
    rw [fieldsEqual_single (List.getElem?_eq_getElem l1) (List.getElem?_eq_getElem l2), ← doublesEqual_eyes e1 e2] at hde
    have ht' : ∀ t ∈ ts, t < 5 := fun t h => ht t (List.mem_cons_of_mem _ h)
    have hdef' : ∀ t ∈ ts, ∃ e, fieldsEqual o G1 G2 r.vals q.vals [t] = .ok e := fun t h => hdef t (List.mem_cons_of_mem _ h)
    unfold writeFields
    rw [List.getElem?_eq_getElem l1, List.getElem?_eq_getElem l2, fieldName_lt h5]
    simp only [need, Res.bind_ok, hde]
    cases v with
    | true =>
      obtain ⟨gd, qs, b1, b2, b3⟩ := WritesP.difFields hA hb hd hroom hf hf' hrq ha ha' hwk hwv hwk' hwv' ht' hdef' h hr hu e1 e2
      have hn : differAt o G1 G2 r.vals q.vals t = false := by unfold differAt; rw [hv]
      refine ⟨gd, qs, by rw [if_pos rfl]; exact b1, b2, ?_⟩
      rw [List.filter_cons_of_neg (by rw [hn]; simp)]
      exact b3
    | false =>
      obtain ⟨gd1, a1, a2⟩ := WritesP.field hA hb hd hroom h hr hu hf hwk hwv h5 (List.getElem?_eq_getElem l1)
      obtain ⟨gd2, a3, a4⟩ := WritesP.field (c := { c with o := { c.o with gd := gd1 } }) hA hb hd hroom a2 hr hu hf' hwk' hwv' h5 (List.getElem?_eq_getElem l2)
      obtain ⟨gd, qs, b1, b2, b3⟩ := WritesP.difFields (c := { c with o := { c.o with gd := gd2 } }) hA hb hd hroom hf hf' hrq ha ha' hwk hwv hwk' hwv' ht' hdef' a4 hr hu e1 e2
      have hn : differAt o G1 G2 r.vals q.vals t = true := by unfold differAt; rw [hv]
      rw [ha] at a1
      rw [ha', ← hrq] at a3
      refine ⟨gd, (w, some t) :: (w', some t) :: qs, ?_, ?_, ?_⟩
      · rw [if_neg (by simp), a1, Res.bind_ok]
        dsimp only
        rw [a3, Res.bind_ok]
        exact b1
      · simpa using b2
      · rw [List.filter_cons_of_pos hn]
        simp only [List.map_cons, List.cons_append]
        refine .cons _ ?_
        refine (List.Perm.cons _ b3).trans ?_
        exact List.perm_middle.symm

/-- an entry of a set, in CheckSetDifference -/
theorem Writes.putSet {W : List Ev} {c : Cmp} (hA : Setup o A) (hd : s.dim < 20) (hty : s.typ = dtSet) (h : Writes o e z A N L0 T0 s G1 G2 b W c.o.gd)
    (hr : c.o.reg = true) (hu : c.o.uels = A) {G : Gx} {r : RecOut Int} (hf : RecFit A G s.typ s.dim r) {w : Ev} (hwk : w.key = r.key) (hwv : w.vals = r.vals) (hG : G = if w.first then G1 else G2) {d : Dbl} {t : Str} (hv : r.vals = [d]) (htx : HasText G d t) (hzt : ZFree t) :
    ∃ gd, writeSetDiff o c w.act r.key t = .ok { c with o := { c.o with gd := gd } } ∧ Writes o e z A N L0 T0 s G1 G2 b (W ++ [w]) gd := by
  have hb : byField o s.typ = false := by rw [hty]; exact byField_set o
  obtain ⟨ps, hp, g0, g1, u, T, its, h1, h2, h3, h4, h5, h6, h7, h8, h9⟩ := h
  obtain ⟨ss, k1, k2⟩ := keyStrs_named (f := at0 A) (fun _ _ => at0_named) hf.key
  have hl := k2.length_eq
  rw [hf.len] at hl
  have h8' := h8
  rw [headDim_one hb] at h8'
  obtain ⟨g2, T2, n, b1, b2, b3, b4⟩ := h4.text hA.few hzt
  obtain ⟨g', u', y, a1, a2, a3, a4⟩ := put_row hA b2 (w := w) (f := none) (vs := [intDbl n]) (typ := s.typ) (G1 := G1) (G2 := G2) (by rw [hwk]; exact k2)
    (by rw [h8', ← hl]; rfl) (by intro _ hs; cases hs) (by omega) (by rw [h9, hty, headTyp_set]; rfl) (by
      unfold ValsFor
      rw [if_pos hty, hwv]
      exact ⟨d, t, hv, by rw [← hG]; exact htx, n, rfl, b4⟩)
  refine ⟨g', writeSetDiff_eq hr hu k1 b1 a1, Writes.add hb hp ⟨g0, g1, u', T2, its ++ [y], h1, h2, h3, a2, h5.trans a3, h6.trans b3, ?_, h8, h9⟩⟩
  refine List.rel_append (h7.imp fun _ _ h => h.mono a3 b3) ?_
  exact .cons a4 .nil

/-- an entry of a set, in ShowInsert -/
theorem Writes.putIns {W : List Ev} {c : Cmp} (hA : Setup o A) (hb : byField o s.typ = false) (hd : s.dim < 20) (h : Writes o e z A N L0 T0 s G1 G2 b W c.o.gd)
    (hr : c.o.reg = true) (hu : c.o.uels = A) {G g : Gx} {r : RecOut Int} (hf : RecFit A G s.typ s.dim r) (h3 : s.typ ≤ 3) {w : Ev} (hwk : w.key = r.key) (hwv : w.vals = r.vals)
    (hG : G = if w.first then G1 else G2) (hg : Eyes G g) :
    ∃ g2 vs gd, insText s g c.o.gd r.vals = .ok (g2, vs) ∧
      writeDiff o s { c with o := { c.o with gd := g2 } } w.act [] r.key vs = .ok { c with o := { c.o with gd := gd } } ∧
      Writes o e z A N L0 T0 s G1 G2 b (W ++ [w]) gd := by
  have hvl := hf.vals
  obtain ⟨v0, vr, hv⟩ : ∃ v0 vr, r.vals = v0 :: vr := by
    cases hr : r.vals with
    | nil =>
      rw [hr] at hvl
      have := Merge.dataTypSize_pos h3
      simp at hvl
      omega
    | cons a l => exact ⟨a, l, rfl⟩
  by_cases hty : s.typ = dtSet
  swap
  · obtain ⟨gd, a1, a2⟩ := Writes.put hA hb hd hty h hr hu hf hwk hwv
    refine ⟨c.o.gd, r.vals, gd, ?_, a1, a2⟩
    unfold insText
    rw [hv]
    simp only [List.head?_cons, need, Res.bind_ok]
    rw [if_neg (by simp [hty])]
    rfl
  · obtain ⟨d, t, q1, q2, q3⟩ := hf.set hty
    have hq2 := q2
    obtain ⟨n, n1, n2, n3, n4⟩ := q2
    rw [q1] at hv
    injection hv with hv0 hvr
    subst hv0
    obtain ⟨ps, hp, g0, g1, u, T, its, h1, h2, h3, h4, h5, h6, h7, h8, h9⟩ := h
    obtain ⟨ss, k1, k2⟩ := keyStrs_named (f := keyStr A) (fun _ _ => keyStr_named) hf.key
    have hl := k2.length_eq
    rw [hf.len] at hl
    have h8' := h8
    rw [headDim_one hb] at h8'
    by_cases hn : n = 0
    · obtain ⟨g', u', y, a1, a2, a3, a4⟩ := put_row hA h4 (w := w) (f := none) (vs := r.vals) (typ := s.typ) (G1 := G1) (G2 := G2) (by rw [hwk]; exact k2)
        (by rw [h8', ← hl]; rfl) (by intro _ hs; cases hs) (by omega) (by rw [h9, hf.vals, hty, headTyp_set]) (by
          unfold ValsFor
          rw [if_pos hty, hwv]
          refine ⟨d, t, q1, by rw [← hG]; exact hq2, 0, ?_, ?_⟩
          · rw [q1, n3, hn]
            rfl
          · rw [n4, if_pos hn]
            obtain ⟨q, rfl⟩ := h6
            rw [List.getElem?_append_left (List.getElem?_eq_some_iff.mp h1.fst).1, h1.fst]
            rfl)
      refine ⟨c.o.gd, r.vals, g', ?_, writeDiff_eq hb hr hu k1 (writeVals_set hty _) a1, Writes.add hb hp ⟨g0, g1, u', T, its ++ [y], h1, h2, h3, a2, h5.trans a3, h6, ?_, h8, h9⟩⟩
      · unfold insText
        rw [q1]
        simp only [List.head?_cons, need, Res.bind_ok]
        rw [n3, Merge.nonZero_intDbl n1 n2, if_neg (by simp [hn])]
        rfl
      · refine List.rel_append (h7.imp fun _ _ h => h.mono a3 (List.prefix_refl _)) ?_
        exact .cons a4 .nil
    · obtain ⟨g2, T2, j, b1, b2, b3, b4⟩ := h4.text hA.few q3
      obtain ⟨g', u', y, a1, a2, a3, a4⟩ := put_row hA b2 (w := w) (f := none) (vs := [intDbl j]) (typ := s.typ) (G1 := G1) (G2 := G2) (by rw [hwk]; exact k2)
        (by rw [h8', ← hl]; rfl) (by intro _ hs; cases hs) (by omega) (by rw [h9, hty, headTyp_set]; rfl) (by
          unfold ValsFor
          rw [if_pos hty, hwv]
          exact ⟨d, t, q1, by rw [← hG]; exact hq2, j, rfl, b4⟩)
      refine ⟨g2, [intDbl j], g', ?_, writeDiff_eq (c := { c with o := { c.o with gd := g2 } }) hb hr hu k1 (writeVals_set hty _) a1,
        Writes.add hb hp ⟨g0, g1, u', T2, its ++ [y], h1, h2, h3, a2, h5.trans a3, h6.trans b3, ?_, h8, h9⟩⟩
      · unfold insText
        rw [q1]
        simp only [List.head?_cons, need, Res.bind_ok]
        rw [n3, Merge.nonZero_intDbl n1 n2, if_pos (by simp [hn, hty]), Merge.roundInt_intDbl n1 n2]
        simp only [Res.bind_ok]
        have : (getElemText g n).2.1 = t := by
          rw [n4, if_neg hn]
          unfold getElemText
          rw [hg.texts]
        rw [this, b1]
        rfl
      · refine List.rel_append (h7.imp fun _ _ h => h.mono a3 b3) ?_
        exact .cons a4 .nil

end

end Gdx.Diff
