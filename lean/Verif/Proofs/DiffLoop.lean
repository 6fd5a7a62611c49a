import Verif.Model.Diff
import Verif.Proofs.Evo
import Verif.Proofs.MapStream

/-!
The merge loop of `gdxdiff` over two streams of records.
-/

namespace Gdx.Diff
open Gdx

/-! ### what the comparison sees of an object -/

/-- the two objects have the same special values, acronyms and texts -/
structure Eyes (g g' : Gx) : Prop where
  sv : g'.sv = g.sv
  acros : g'.acros = g.acros
  texts : g'.texts = g.texts

theorem Eyes.refl (g : Gx) : Eyes g g := ⟨rfl, rfl, rfl⟩

theorem Eyes.trans {g g1 g2 : Gx} (h : Eyes g g1) (h' : Eyes g1 g2) : Eyes g g2 :=
  ⟨h'.sv.trans h.sv, h'.acros.trans h.acros, h'.texts.trans h.texts⟩

theorem acronymName_eyes {g g' : Gx} (h : Eyes g g') (v : Dbl) : acronymName g' v = acronymName g v := by
  unfold acronymName
  rw [h.acros]

theorem doublesEqual_eyes {g1 g1' g2 g2' : Gx} (h1 : Eyes g1 g1') (h2 : Eyes g2 g2') (o : Opt) (a b : Dbl) :
    doublesEqual o g1' g2' a b = doublesEqual o g1 g2 a b := by
  unfold doublesEqual
  simp only [h1.sv, h2.sv, acronymName_eyes h1, acronymName_eyes h2]

theorem fieldsEqual_eyes {g1 g1' g2 g2' : Gx} (h1 : Eyes g1 g1') (h2 : Eyes g2 g2') (o : Opt) (a b : List Dbl) (ts : List Nat) :
    fieldsEqual o g1' g2' a b ts = fieldsEqual o g1 g2 a b ts := by
  induction ts with
  | nil => rfl
  | cons t ts ih => simp only [fieldsEqual, ih, doublesEqual_eyes h1 h2]

theorem valuesEqual_eyes {g1 g1' g2 g2' : Gx} (h1 : Eyes g1 g1') (h2 : Eyes g2 g2') (o : Opt) (s : Sy) (a b : List Dbl) :
    valuesEqual o s g1' g2' a b = valuesEqual o s g1 g2 a b := by
  simp only [valuesEqual, fieldsEqual_eyes h1 h2]

theorem isDefault_eyes {g1 g1' g2 g2' : Gx} (h1 : Eyes g1 g1') (h2 : Eyes g2 g2') (o : Opt) (s : Sy) (a : List Dbl) :
    isDefault o s g1' g2' a = isDefault o s g1 g2 a := by
  simp only [isDefault, fieldsEqual_eyes h1 h2]

theorem setText_eyes {g g' : Gx} (h : Eyes g g') (v : Dbl) : setText g' v = setText g v := by
  unfold setText getElemText
  rw [h.texts]

/-! ### two records with the same keys -/

/-- are the values (or the texts) of the two records the same for the program? -/
def sameRec (o : Opt) (s : Sy) (g1 g2 : Gx) (v1 v2 : List Dbl) : Res Bool :=
  if s.typ = dtSet then
    if o.compText then do
      let a ← need v1.head?
      let b ← need v2.head?
      let t1 ← setText g1 a
      let t2 ← setText g2 b
      pure (decide (t1 = t2))
    else .ok true
  else valuesEqual o s g1 g2 v1 v2

/-- is a record that is in one file only ignored? -/
def ignored (o : Opt) (s : Sy) (g1 g2 : Gx) (v : List Dbl) : Res Bool := do
  let d ← isDefault o s g1 g2 v
  pure (d && !o.showDef)

theorem sameRec_eyes {g1 g1' g2 g2' : Gx} (h1 : Eyes g1 g1') (h2 : Eyes g2 g2') (o : Opt) (s : Sy) (a b : List Dbl) :
    sameRec o s g1' g2' a b = sameRec o s g1 g2 a b := by
  simp only [sameRec, valuesEqual_eyes h1 h2, setText_eyes h1, setText_eyes h2]

theorem ignored_eyes {g1 g1' g2 g2' : Gx} (h1 : Eyes g1 g1') (h2 : Eyes g2 g2') (o : Opt) (s : Sy) (a : List Dbl) :
    ignored o s g1' g2' a = ignored o s g1 g2 a := by
  simp only [ignored, isDefault_eyes h1 h2]

/-! ### what the steps do with the status -/

/-- no difference found so far: no entry in StatusTable -/
def Clean (st : Status) : Prop := st = .same ∨ st = .dim10

instance (st : Status) : Decidable (Clean st) := inferInstanceAs (Decidable (_ ∨ _))

/-- the step leaves the two input objects as they are and never takes a difference back -/
structure Keeps (c c' : Cmp) : Prop where
  g1 : c'.o.g1 = c.o.g1
  g2 : c'.o.g2 = c.o.g2
  st : ¬ Clean c.st → ¬ Clean c'.st

theorem Keeps.refl (c : Cmp) : Keeps c c := ⟨rfl, rfl, id⟩

theorem Keeps.trans {a b c : Cmp} (h : Keeps a b) (h' : Keeps b c) : Keeps a c :=
  ⟨h'.g1.trans h.g1, h'.g2.trans h.g2, fun k => h'.st (h.st k)⟩

theorem registerDiff_keeps {o : Opt} {x x' : Objs} (h : registerDiff o x = .ok x') : x'.g1 = x.g1 ∧ x'.g2 = x.g2 := by
  unfold registerDiff at h
  split at h
  · cases h
    exact ⟨rfl, rfl⟩
  · obtain ⟨gd, _, h⟩ := Res.bind_eq_ok.mp h
    cases h
    exact ⟨rfl, rfl⟩

theorem toDiff_clean {st : Status} (h : ¬ Clean st) : ¬ Clean st.toDiff := by
  cases st <;> revert h <;> decide

theorem toKey_clean (st : Status) : ¬ Clean st.toKey := by
  cases st <;> decide

theorem toData_clean {st : Status} {e : Bool} (h : ¬ Clean st) : ¬ Clean (st.toData e) := by
  cases st <;> cases e <;> revert h <;> decide

theorem toData_diff (st : Status) : ¬ Clean (st.toDiff.toData false) := by
  cases st <;> decide

/-- CheckSymbOpen: the status changes only from dim10 to dim10diff -/
theorem checkOpen_spec {o : Opt} {s : Sy} {c c' : Cmp} {b : Bool} (h : checkOpen o s c = .ok (c', b)) :
    Keeps c c' ∧ c'.st = c.st.toDiff := by
  unfold checkOpen at h
  obtain ⟨x, h1, h⟩ := Res.bind_eq_ok.mp h
  have hx := registerDiff_keeps h1
  split at h
  · obtain ⟨gd, h2, h⟩ := Res.bind_eq_ok.mp h
    cases h
    exact ⟨⟨hx.1, hx.2, toDiff_clean⟩, rfl⟩
  · cases h
    exact ⟨⟨hx.1, hx.2, toDiff_clean⟩, rfl⟩

theorem writeDiff_keeps {o : Opt} {s : Sy} {c c' : Cmp} {act fld : Str} {keys : List Int} {vals : List Dbl}
    (h : writeDiff o s c act fld keys vals = .ok c') : Keeps c c' ∧ c'.st = c.st := by
  unfold writeDiff at h
  obtain ⟨x, h1, h⟩ := Res.bind_eq_ok.mp h
  obtain ⟨ks, _, h⟩ := Res.bind_eq_ok.mp h
  obtain ⟨vs, _, h⟩ := Res.bind_eq_ok.mp h
  obtain ⟨gd, _, h⟩ := Res.bind_eq_ok.mp h
  cases h
  have hx := registerDiff_keeps h1
  exact ⟨⟨hx.1, hx.2, id⟩, rfl⟩

theorem writeSetDiff_keeps {o : Opt} {c c' : Cmp} {act : Str} {keys : List Int} {txt : Str}
    (h : writeSetDiff o c act keys txt = .ok c') : Keeps c c' ∧ c'.st = c.st := by
  unfold writeSetDiff at h
  obtain ⟨x, h1, h⟩ := Res.bind_eq_ok.mp h
  obtain ⟨ks, _, h⟩ := Res.bind_eq_ok.mp h
  dsimp only at h
  obtain ⟨gd, _, h⟩ := Res.bind_eq_ok.mp h
  cases h
  have hx := registerDiff_keeps h1
  exact ⟨⟨hx.1, hx.2, id⟩, rfl⟩

theorem writeFields_keeps {o : Opt} {s : Sy} {keys : List Int} {v1 v2 : List Dbl} : ∀ {ts : List Nat} {c c' : Cmp},
    writeFields o s keys v1 v2 ts c = .ok c' → Keeps c c' ∧ c'.st = c.st
  | [], c, c', h => by
    cases h
    exact ⟨Keeps.refl _, rfl⟩
  | t :: ts, c, c', h => by
    unfold writeFields at h
    obtain ⟨a, _, h⟩ := Res.bind_eq_ok.mp h
    obtain ⟨b, _, h⟩ := Res.bind_eq_ok.mp h
    obtain ⟨n, _, h⟩ := Res.bind_eq_ok.mp h
    obtain ⟨e, _, h⟩ := Res.bind_eq_ok.mp h
    split at h
    · exact writeFields_keeps h
    · obtain ⟨c1, h1, h⟩ := Res.bind_eq_ok.mp h
      obtain ⟨c2, h2, h⟩ := Res.bind_eq_ok.mp h
      have k1 := writeDiff_keeps h1
      have k2 := writeDiff_keeps h2
      have k3 := writeFields_keeps h
      exact ⟨(k1.1.trans k2.1).trans k3.1, k3.2.trans (k2.2.trans k1.2)⟩

theorem writeInsFields_keeps {o : Opt} {s : Sy} {act : Str} {keys : List Int} {v : List Dbl} : ∀ {ts : List Nat} {c c' : Cmp},
    writeInsFields o s act keys v ts c = .ok c' → Keeps c c' ∧ c'.st = c.st
  | [], c, c', h => by
    cases h
    exact ⟨Keeps.refl _, rfl⟩
  | t :: ts, c, c', h => by
    unfold writeInsFields at h
    obtain ⟨a, _, h⟩ := Res.bind_eq_ok.mp h
    obtain ⟨n, _, h⟩ := Res.bind_eq_ok.mp h
    obtain ⟨c1, h1, h⟩ := Res.bind_eq_ok.mp h
    have k1 := writeDiff_keeps h1
    have k3 := writeInsFields_keeps h
    exact ⟨k1.1.trans k3.1, k3.2.trans k1.2⟩

/-- what the check of two records does -/
theorem checkRec_spec {o : Opt} {s : Sy} {c c' : Cmp} {a b : RecOut Int} {e : Bool} (h : checkRec o s c a b = .ok (c', e)) :
    sameRec o s c.o.g1 c.o.g2 a.vals b.vals = .ok e ∧ Keeps c c' ∧ (e = true → c' = c) ∧ (e = false → c'.st = c.st.toDiff) := by
  unfold checkRec at h
  unfold sameRec
  split at h
  · rename_i ht
    rw [if_pos ht]
    split at h
    · rename_i hct
      rw [if_pos hct]
      obtain ⟨v1, e1, h⟩ := Res.bind_eq_ok.mp h
      obtain ⟨v2, e2, h⟩ := Res.bind_eq_ok.mp h
      unfold checkSet at h
      obtain ⟨t1, e3, h⟩ := Res.bind_eq_ok.mp h
      obtain ⟨t2, e4, h⟩ := Res.bind_eq_ok.mp h
      simp only [e1, e2, e3, e4, Res.bind_ok, Res.pure_eq]
      split at h
      · rename_i hte
        cases h
        exact ⟨by rw [decide_eq_true hte], Keeps.refl _, fun _ => rfl, fun hf => by cases hf⟩
      · rename_i hte
        rw [decide_eq_false hte]
        obtain ⟨⟨c2, ok⟩, h2, h⟩ := Res.bind_eq_ok.mp h
        obtain ⟨k1, k2⟩ := checkOpen_spec h2
        dsimp only at h
        split at h
        · cases h
          exact ⟨rfl, k1, fun hf => (by cases hf), fun _ => k2⟩
        · obtain ⟨c3, h3, h⟩ := Res.bind_eq_ok.mp h
          obtain ⟨c4, h4, h⟩ := Res.bind_eq_ok.mp h
          cases h
          have k3 := writeSetDiff_keeps h3
          have k4 := writeSetDiff_keeps h4
          exact ⟨rfl, (k1.trans k3.1).trans k4.1, fun hf => (by cases hf), fun _ => k4.2.trans (k3.2.trans k2)⟩
    · rename_i hct
      rw [if_neg hct]
      cases h
      exact ⟨rfl, Keeps.refl _, fun _ => rfl, fun hf => (by cases hf)⟩
  · rename_i ht
    rw [if_neg ht]
    unfold checkPar at h
    obtain ⟨e0, e1, h⟩ := Res.bind_eq_ok.mp h
    rw [e1]
    split at h
    · rename_i hte
      cases h
      exact ⟨by rw [hte], Keeps.refl _, fun _ => rfl, fun hf => by cases hf⟩
    · rename_i hte
      have he0 : e0 = false := by simpa using hte
      rw [he0]
      obtain ⟨⟨c2, ok⟩, h2, h⟩ := Res.bind_eq_ok.mp h
      obtain ⟨k1, k2⟩ := checkOpen_spec h2
      dsimp only at h
      split at h
      · cases h
        exact ⟨rfl, k1, fun hf => (by cases hf), fun _ => k2⟩
      · split at h
        · obtain ⟨c3, h3, h⟩ := Res.bind_eq_ok.mp h
          cases h
          have k3 := writeFields_keeps h3
          exact ⟨rfl, k1.trans k3.1, fun hf => (by cases hf), fun _ => k3.2.trans k2⟩
        · obtain ⟨c3, h3, h⟩ := Res.bind_eq_ok.mp h
          obtain ⟨c4, h4, h⟩ := Res.bind_eq_ok.mp h
          cases h
          have k3 := writeDiff_keeps h3
          have k4 := writeDiff_keeps h4
          exact ⟨rfl, (k1.trans k3.1).trans k4.1, fun hf => (by cases hf), fun _ => k4.2.trans (k3.2.trans k2)⟩

/-- two records with the same keys: nothing happens if they are the same, otherwise the status says that there is a difference -/
theorem bothRecs_spec {o : Opt} {s : Sy} {c c' : Cmp} {a b : RecOut Int} (h : bothRecs o s c a b = .ok c') :
    ∃ e, sameRec o s c.o.g1 c.o.g2 a.vals b.vals = .ok e ∧ Keeps c c' ∧ (e = true → c' = c) ∧ (e = false → ¬ Clean c'.st) := by
  unfold bothRecs at h
  obtain ⟨⟨c1, e⟩, h1, h⟩ := Res.bind_eq_ok.mp h
  obtain ⟨k1, k2, k3, k4⟩ := checkRec_spec h1
  cases h
  refine ⟨e, k1, ⟨k2.g1, k2.g2, fun hc => toData_clean (k2.st hc)⟩, ?_, ?_⟩
  · intro he
    rw [k3 he, he]
    obtain ⟨x, p, st⟩ := c
    simp only [Status.toData, Bool.true_eq_false, false_and, if_false]
  · rintro rfl
    show ¬ Clean (c1.st.toData false)
    rw [k4 rfl]
    exact toData_diff _

/-- a record that is in one file only: nothing happens if it is ignored, otherwise the status says that there is a difference -/
theorem showInsert_spec {o : Opt} {s : Sy} {c c' : Cmp} {first : Bool} {keys : List Int} {vals : List Dbl}
    (h : showInsert o s c first keys vals = .ok c') :
    ∃ e, ignored o s c.o.g1 c.o.g2 vals = .ok e ∧ Keeps c c' ∧ (e = true → c' = c) ∧ (e = false → ¬ Clean c'.st) := by
  unfold showInsert at h
  obtain ⟨eq, h1, h⟩ := Res.bind_eq_ok.mp h
  unfold ignored
  rw [h1]
  refine ⟨_, rfl, ?_⟩
  split at h
  · rename_i hif
    cases h
    exact ⟨Keeps.refl _, fun _ => rfl, fun hf => by rw [hf] at hif; cases hif⟩
  · rename_i hif
    have hres : Keeps c c' ∧ ¬ Clean c'.st := by
      split at h
      · cases h
        exact ⟨⟨rfl, rfl, fun _ => toKey_clean _⟩, toKey_clean _⟩
      · obtain ⟨⟨c2, ok⟩, h2, h⟩ := Res.bind_eq_ok.mp h
        obtain ⟨k1, k2⟩ := checkOpen_spec h2
        have k3 : ¬ Clean c2.st := by
          rw [k2]
          exact toDiff_clean (toKey_clean _)
        dsimp only at h
        split at h
        · cases h
          exact ⟨⟨k1.g1, k1.g2, fun _ => k3⟩, k3⟩
        · obtain ⟨⟨gd, vs⟩, _, h⟩ := Res.bind_eq_ok.mp h
          dsimp only at h
          have hw : Keeps { c2 with o := { c2.o with gd := gd } } c' ∧ c'.st = c2.st := by
            split at h
            · exact writeInsFields_keeps h
            · exact writeDiff_keeps h
          have k4 : ¬ Clean c'.st := by
            rw [hw.2]
            exact k3
          exact ⟨⟨hw.1.g1.trans k1.g1, hw.1.g2.trans k1.g2, fun _ => k4⟩, k4⟩
    exact ⟨hres.1, fun hf => absurd hf hif, fun _ => hres.2⟩

/-! ### streams of records -/

/-- Reading with this key array delivers the records and then "no more", and leaves the object `gE`; on the way the object keeps what the
    comparison sees (`g0`). -/
inductive Recs (o : Opt) (g0 : Gx) : Gx → List Int → List (RecOut Int) → Gx → Prop
  | done {g gE : Gx} {key : List Int} (h : readRec o g key = .ok (gE, none)) (he : Eyes g0 gE) : Recs o g0 g key [] gE
  | next {g g1 gE : Gx} {key : List Int} {r : RecOut Int} {rs : List (RecOut Int)} (h : readRec o g key = .ok (g1, some r)) (he : Eyes g0 g1)
      (hr : Recs o g0 g1 r.key rs gE) : Recs o g0 g key (r :: rs) gE

/-- `r` is the current record and the others of the list are still to be read -/
inductive Rem (o : Opt) (g0 : Gx) : Gx → Option (RecOut Int) → List (RecOut Int) → Gx → Prop
  | done {g : Gx} (he : Eyes g0 g) : Rem o g0 g none [] g
  | next {g gE : Gx} {r : RecOut Int} {rs : List (RecOut Int)} (he : Eyes g0 g) (hr : Recs o g0 g r.key rs gE) : Rem o g0 g (some r) (r :: rs) gE

theorem Rem.eyes {o : Opt} {g0 g gE : Gx} {r : Option (RecOut Int)} {rs : List (RecOut Int)} (h : Rem o g0 g r rs gE) : Eyes g0 g := by
  cases h <;> assumption

/-- the next read -/
theorem Recs.step {o : Opt} {g0 g gE : Gx} {key : List Int} {rs : List (RecOut Int)} (h : Recs o g0 g key rs gE) :
    ∃ g1 r, readRec o g key = .ok (g1, r) ∧ Rem o g0 g1 r rs gE := by
  cases h with
  | done h he => exact ⟨_, _, h, .done he⟩
  | next h he hr => exact ⟨_, _, h, .next he hr⟩

/-! ### keys -/

theorem keyDiff_spec : ∀ {a b : List Int} {d : Int}, a.length = b.length → keyDiff a b = .ok d →
    (d = 0 → a = b) ∧ (d < 0 → a < b) ∧ (0 < d → b < a)
  | [], [], d, _, h => by
    cases h
    simp
  | x :: a, y :: b, d, hl, h => by
    unfold keyDiff at h
    split at h
    · cases h
    · split at h
      · rename_i h0
        obtain ⟨h1, h2, h3⟩ := keyDiff_spec (by simpa using hl) h
        have : x = y := by omega
        subst this
        refine ⟨fun hd => by rw [h1 hd], fun hd => ?_, fun hd => ?_⟩
        · exact List.cons_lt_cons_self.mpr (h2 hd)
        · exact List.cons_lt_cons_self.mpr (h3 hd)
      · rename_i h0
        cases h
        refine ⟨fun hd => absurd hd h0, fun hd => ?_, fun hd => ?_⟩
        · exact List.Lex.rel (by omega)
        · exact List.Lex.rel (by omega)

/-- all entries are user numbers that fit an `int` -/
def KeyOk (k : List Int) : Prop := ∀ e ∈ k, 0 ≤ e ∧ e < 2147483648

theorem keyDiff_ok : ∀ {a b : List Int}, KeyOk a → KeyOk b → ∃ d, keyDiff a b = .ok d
  | [], _, _, _ => ⟨0, by unfold keyDiff; rfl⟩
  | _ :: _, [], _, _ => ⟨0, by unfold keyDiff; rfl⟩
  | x :: a, y :: b, ha, hb => by
    have h1 := ha x (by simp)
    have h2 := hb y (by simp)
    unfold keyDiff
    rw [if_neg (not_not.mpr (by unfold I32; omega))]
    split
    · exact keyDiff_ok (fun e he => ha e (by simp [he])) (fun e he => hb e (by simp [he]))
    · exact ⟨_, rfl⟩

/-! ### the meaning -/

/-- The records of the two files agree: those with the same key have the same content, those without counterpart are ignored. -/
structure NoDiff (o : Opt) (s : Sy) (g1 g2 : Gx) (A B : List (RecOut Int)) : Prop where
  both : ∀ a ∈ A, ∀ b ∈ B, a.key = b.key → sameRec o s g1 g2 a.vals b.vals = .ok true
  left : ∀ a ∈ A, (∀ b ∈ B, a.key ≠ b.key) → ignored o s g1 g2 a.vals = .ok true
  right : ∀ b ∈ B, (∀ a ∈ A, a.key ≠ b.key) → ignored o s g1 g2 b.vals = .ok true

theorem noDiff_nil (o : Opt) (s : Sy) (g1 g2 : Gx) : NoDiff o s g1 g2 [] [] := ⟨by simp, by simp, by simp⟩

theorem noDiff_left {o : Opt} {s : Sy} {g1 g2 : Gx} {a : RecOut Int} {A B : List (RecOut Int)} (h : ∀ b ∈ B, a.key ≠ b.key) :
    NoDiff o s g1 g2 (a :: A) B ↔ ignored o s g1 g2 a.vals = .ok true ∧ NoDiff o s g1 g2 A B := by
  constructor
  · intro k
    exact ⟨k.left a (by simp) h, fun x hx => k.both x (by simp [hx]), fun x hx => k.left x (by simp [hx]), fun y hy hn =>
      k.right y hy (by
        intro x hx
        rcases List.mem_cons.mp hx with rfl | hx
        · exact h y hy
        · exact hn x hx)⟩
  · rintro ⟨k0, k⟩
    refine ⟨?_, ?_, fun y hy hn => k.right y hy fun x hx => hn x (by simp [hx])⟩
    · intro x hx y hy he
      rcases List.mem_cons.mp hx with rfl | hx
      · exact absurd he (h y hy)
      · exact k.both x hx y hy he
    · intro x hx hn
      rcases List.mem_cons.mp hx with rfl | hx
      · exact k0
      · exact k.left x hx hn

theorem noDiff_right {o : Opt} {s : Sy} {g1 g2 : Gx} {b : RecOut Int} {A B : List (RecOut Int)} (h : ∀ a ∈ A, a.key ≠ b.key) :
    NoDiff o s g1 g2 A (b :: B) ↔ ignored o s g1 g2 b.vals = .ok true ∧ NoDiff o s g1 g2 A B := by
  constructor
  · intro k
    exact ⟨k.right b (by simp) h, fun x hx y hy => k.both x hx y (by simp [hy]), fun x hx hn => k.left x hx (by
        intro y hy
        rcases List.mem_cons.mp hy with rfl | hy
        · exact h x hx
        · exact hn y hy), fun y hy => k.right y (by simp [hy])⟩
  · rintro ⟨k0, k⟩
    refine ⟨?_, fun x hx hn => k.left x hx fun y hy => hn y (by simp [hy]), ?_⟩
    · intro x hx y hy he
      rcases List.mem_cons.mp hy with rfl | hy
      · exact absurd he (h x hx)
      · exact k.both x hx y hy he
    · intro y hy hn
      rcases List.mem_cons.mp hy with rfl | hy
      · exact k0
      · exact k.right y hy hn

theorem noDiff_both {o : Opt} {s : Sy} {g1 g2 : Gx} {a b : RecOut Int} {A B : List (RecOut Int)} (hab : a.key = b.key)
    (hA : ∀ x ∈ A, x.key ≠ b.key) (hB : ∀ y ∈ B, a.key ≠ y.key) :
    NoDiff o s g1 g2 (a :: A) (b :: B) ↔ sameRec o s g1 g2 a.vals b.vals = .ok true ∧ NoDiff o s g1 g2 A B := by
  constructor
  · intro k
    refine ⟨k.both a (by simp) b (by simp) hab, fun x hx y hy => k.both x (by simp [hx]) y (by simp [hy]), fun x hx hn => k.left x (by simp [hx]) ?_,
      fun y hy hn => k.right y (by simp [hy]) ?_⟩
    · intro y hy
      rcases List.mem_cons.mp hy with rfl | hy
      · exact hA x hx
      · exact hn y hy
    · intro x hx
      rcases List.mem_cons.mp hx with rfl | hx
      · exact hB y hy
      · exact hn x hx
  · rintro ⟨k0, k⟩
    refine ⟨?_, ?_, ?_⟩
    · intro x hx y hy he
      rcases List.mem_cons.mp hx with rfl | hx <;> rcases List.mem_cons.mp hy with rfl | hy
      · exact k0
      · exact absurd he (hB y hy)
      · exact absurd he (hA x hx)
      · exact k.both x hx y hy he
    · intro x hx hn
      rcases List.mem_cons.mp hx with rfl | hx
      · exact absurd hab (hn b (by simp))
      · exact k.left x hx fun y hy => hn y (by simp [hy])
    · intro y hy hn
      rcases List.mem_cons.mp hy with rfl | hy
      · exact absurd hab (hn a (by simp))
      · exact k.right y hy fun x hx => hn x (by simp [hx])

/-! ### the loop -/

/-- the records of a stream: keys of one length, strictly increasing -/
structure Sorted (dim : Nat) (A : List (RecOut Int)) : Prop where
  len : ∀ a ∈ A, a.key.length = dim
  lt : (A.map RecOut.key).Pairwise (· < ·)

theorem Sorted.tail {dim : Nat} {a : RecOut Int} {A : List (RecOut Int)} (h : Sorted dim (a :: A)) : Sorted dim A :=
  ⟨fun x hx => h.len x (by simp [hx]), (List.pairwise_cons.mp h.lt).2⟩

theorem Sorted.head {dim : Nat} {a : RecOut Int} {A : List (RecOut Int)} (h : Sorted dim (a :: A)) : ∀ x ∈ A, a.key < x.key :=
  fun x hx => (List.pairwise_cons.mp h.lt).1 _ (List.mem_map_of_mem hx)

/-- the comparison with other objects -/
def Cmp.withG (c : Cmp) (g1 g2 : Gx) : Cmp := { c with o := { c.o with g1 := g1, g2 := g2 } }

/-- what the loop guarantees -/
structure LoopDone (o : Opt) (s : Sy) (G1 G2 : Gx) (c : Cmp) (A B : List (RecOut Int)) (gE1 gE2 : Gx) (c' : Cmp) : Prop where
  g1 : c'.o.g1 = gE1
  g2 : c'.o.g2 = gE2
  clean : Clean c.st → (Clean c'.st ↔ NoDiff o s G1 G2 A B)
  same : Clean c'.st → c' = c.withG gE1 gE2
  dirty : ¬ Clean c.st → ¬ Clean c'.st

/-- one step in front of the loop -/
theorem LoopDone.cons {o : Opt} {s : Sy} {G1 G2 : Gx} {c c1 c' : Cmp} {A B A' B' : List (RecOut Int)} {gE1 gE2 h1 h2 : Gx} {e : Bool} {P : Prop}
    (hP : P ↔ e = true) (hk : Keeps c c1) (ht : e = true → c1 = c) (hf : e = false → ¬ Clean c1.st)
    (hn : NoDiff o s G1 G2 A B ↔ P ∧ NoDiff o s G1 G2 A' B') (h : LoopDone o s G1 G2 (c1.withG h1 h2) A' B' gE1 gE2 c') :
    LoopDone o s G1 G2 c A B gE1 gE2 c' := by
  cases e with
  | true =>
    obtain rfl := ht rfl
    refine ⟨h.g1, h.g2, fun hc => ?_, fun hc => ?_, h.dirty⟩
    · rw [hn, hP]
      exact (h.clean hc).trans (by simp)
    · rw [h.same hc]
      rfl
  | false =>
    have hd : ¬ Clean c'.st := h.dirty (hf rfl)
    refine ⟨h.g1, h.g2, fun hc => ?_, fun hc => absurd hc hd, fun _ => hd⟩
    rw [hn, hP]
    simp [hd]

theorem next1_eq {o : Opt} {c : Cmp} {key : List Int} {g : Gx} {r : Option (RecOut Int)} (h : readRec o c.o.g1 key = .ok (g, r)) :
    next1 o c key = .ok (c.withG g c.o.g2, r) := by
  unfold next1
  rw [h]
  rfl

theorem next2_eq {o : Opt} {c : Cmp} {key : List Int} {g : Gx} {r : Option (RecOut Int)} (h : readRec o c.o.g2 key = .ok (g, r)) :
    next2 o c key = .ok (c.withG c.o.g1 g, r) := by
  unfold next2
  rw [h]
  rfl

theorem cmpLoop_done {o : Opt} {s : Sy} {G1 G2 : Gx} {dim : Nat} : ∀ {n : Nat} {c c' : Cmp} {r1 r2 : Option (RecOut Int)} {A B : List (RecOut Int)}
    {gE1 gE2 : Gx}, Rem o G1 c.o.g1 r1 A gE1 → Rem o G2 c.o.g2 r2 B gE2 → Sorted dim A → Sorted dim B → cmpLoop o s n c r1 r2 = .ok c' →
    LoopDone o s G1 G2 c A B gE1 gE2 c'
  | 0, c, c', r1, r2, A, B, gE1, gE2, _, _, _, _, h => by cases h
  | n + 1, c, c', r1, r2, A, B, gE1, gE2, h1, h2, hA, hB, h => by
    have e1 := h1.eyes
    have e2 := h2.eyes
    cases h1 with
    | done _ =>
      cases h2 with
      | done _ =>
        cases h
        exact ⟨rfl, rfl, fun hc => ⟨fun _ => noDiff_nil _ _ _ _, fun _ => hc⟩, fun _ => rfl, id⟩
      | next _ hr =>
        rename_i b B _
        unfold cmpLoop at h
        obtain ⟨c1, k1, h⟩ := Res.bind_eq_ok.mp h
        obtain ⟨e, i1, i2, i3, i4⟩ := showInsert_spec k1
        obtain ⟨g', r, j1, j2⟩ := hr.step
        rw [← i2.g2] at j1
        rw [next2_eq j1] at h
        simp only [Res.bind_ok] at h
        have ih := cmpLoop_done (c := c1.withG c1.o.g1 g') (.done (by show Eyes G1 c1.o.g1; rw [i2.g1]; exact e1)) j2 hA hB.tail h
        rw [ignored_eyes e1 e2] at i1
        rw [show (c1.withG c1.o.g1 g').o.g1 = c.o.g1 from i2.g1] at ih
        exact LoopDone.cons (P := ignored o s G1 G2 b.vals = .ok true) (by rw [i1]; exact ⟨fun h => by injection h, fun h => by rw [h]⟩) i2 i3 i4 (noDiff_right (by simp)) ih
    | next _ hr1 =>
      rename_i a A _
      cases h2 with
      | done _ =>
        unfold cmpLoop at h
        obtain ⟨c1, k1, h⟩ := Res.bind_eq_ok.mp h
        obtain ⟨e, i1, i2, i3, i4⟩ := showInsert_spec k1
        obtain ⟨g', r, j1, j2⟩ := hr1.step
        rw [← i2.g1] at j1
        rw [next1_eq j1] at h
        simp only [Res.bind_ok] at h
        have ih := cmpLoop_done (c := c1.withG g' c1.o.g2) j2 (.done (by show Eyes G2 c1.o.g2; rw [i2.g2]; exact e2)) hA.tail hB h
        rw [ignored_eyes e1 e2] at i1
        rw [show (c1.withG g' c1.o.g2).o.g2 = c.o.g2 from i2.g2] at ih
        exact LoopDone.cons (P := ignored o s G1 G2 a.vals = .ok true) (by rw [i1]; exact ⟨fun h => by injection h, fun h => by rw [h]⟩) i2 i3 i4 (noDiff_left (by simp)) ih
      | next _ hr2 =>
        rename_i b B _
        unfold cmpLoop at h
        obtain ⟨d, hd, h⟩ := Res.bind_eq_ok.mp h
        obtain ⟨d1, d2, d3⟩ := keyDiff_spec ((hA.len a (by simp)).trans (hB.len b (by simp)).symm) hd
        split at h
        · rename_i hd0
          have hab := d1 hd0
          obtain ⟨c1, k1, h⟩ := Res.bind_eq_ok.mp h
          obtain ⟨e, i1, i2, i3, i4⟩ := bothRecs_spec k1
          obtain ⟨g', r, j1, j2⟩ := hr1.step
          obtain ⟨g'', r', j3, j4⟩ := hr2.step
          rw [← i2.g1] at j1
          rw [next1_eq j1] at h
          simp only [Res.bind_ok] at h
          rw [← i2.g2] at j3
          rw [next2_eq (c := c1.withG g' c1.o.g2) j3] at h
          simp only [Res.bind_ok] at h
          have ih := cmpLoop_done (c := c1.withG g' g'') j2 j4 hA.tail hB.tail h
          rw [sameRec_eyes e1 e2] at i1
          refine LoopDone.cons (P := sameRec o s G1 G2 a.vals b.vals = .ok true) (by rw [i1]; exact ⟨fun h => by injection h, fun h => by rw [h]⟩) i2 i3 i4
            (noDiff_both hab ?_ ?_) ih
          · intro x hx hc
            exact absurd (hA.head x hx) (by rw [hc, hab]; exact lt_irrefl _)
          · intro y hy hc
            exact absurd (hB.head y hy) (by rw [← hc, hab]; exact lt_irrefl _)
        · split at h
          · rename_i hd1
            have hab := d2 hd1
            obtain ⟨c1, k1, h⟩ := Res.bind_eq_ok.mp h
            obtain ⟨e, i1, i2, i3, i4⟩ := showInsert_spec k1
            obtain ⟨g', r, j1, j2⟩ := hr1.step
            rw [← i2.g1] at j1
            rw [next1_eq j1] at h
            simp only [Res.bind_ok] at h
            have ih := cmpLoop_done (c := c1.withG g' c1.o.g2) j2 (.next (r := b) (rs := B) (gE := gE2) (by show Eyes G2 c1.o.g2; rw [i2.g2]; exact e2)
              (by show Recs o G2 c1.o.g2 _ _ _; rw [i2.g2]; exact hr2)) hA.tail hB h
            rw [ignored_eyes e1 e2] at i1
            refine LoopDone.cons (P := ignored o s G1 G2 a.vals = .ok true) (by rw [i1]; exact ⟨fun h => by injection h, fun h => by rw [h]⟩) i2 i3 i4
              (noDiff_left ?_) ih
            intro y hy
            rcases List.mem_cons.mp hy with rfl | hy
            · exact ne_of_lt hab
            · exact ne_of_lt (lt_trans hab (hB.head y hy))
          · rename_i hd0 hd1
            have hab := d3 (by omega)
            obtain ⟨c1, k1, h⟩ := Res.bind_eq_ok.mp h
            obtain ⟨e, i1, i2, i3, i4⟩ := showInsert_spec k1
            obtain ⟨g', r, j1, j2⟩ := hr2.step
            rw [← i2.g2] at j1
            rw [next2_eq j1] at h
            simp only [Res.bind_ok] at h
            have ih := cmpLoop_done (c := c1.withG c1.o.g1 g') (.next (r := a) (rs := A) (gE := gE1) (by show Eyes G1 c1.o.g1; rw [i2.g1]; exact e1)
              (by show Recs o G1 c1.o.g1 _ _ _; rw [i2.g1]; exact hr1)) j2 hA hB.tail h
            rw [ignored_eyes e1 e2] at i1
            refine LoopDone.cons (P := ignored o s G1 G2 b.vals = .ok true) (by rw [i1]; exact ⟨fun h => by injection h, fun h => by rw [h]⟩) i2 i3 i4
              (noDiff_right ?_) ih
            intro x hx
            rcases List.mem_cons.mp hx with rfl | hx
            · exact (ne_of_lt hab).symm
            · exact (ne_of_lt (lt_trans hab (hA.head x hx))).symm

end Gdx.Diff
