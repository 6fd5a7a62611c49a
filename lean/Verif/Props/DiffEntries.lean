import Verif.Proofs.DiffEnd

/-!
C72: the entries of the difference file of gdxdiff for two symbols.
-/

namespace Gdx.Props
open Gdx Gdx.Diff Gdx.Spec
open Gdx.Merge (HasText GoodLabel)

/-- An entry of the difference file: a record of file 1 (`first`) or of file 2; `ins`: the other file has no record with its key; `flds`: the
    fields that are shown, if they are shown one by one. -/
structure DiffEntry where
  ins : Bool
  first : Bool
  r : Record
  flds : List Nat

/-- the fields are shown one by one: the option DiffOnly, for a variable or an equation -/
def ByField (o : Opt) (typ : Nat) : Prop := o.diffOnly = true ∧ (typ = dtVar ∨ typ = dtEqu)

/-- `l` are the active fields for which `D` holds, in their order; nothing if the fields are not shown one by one -/
def FieldsAre (o : Opt) (typ : Nat) (D : Nat → Prop) (l : List Nat) : Prop :=
  (ByField o typ ∧ l.Pairwise (· < ·) ∧ ∀ f, f ∈ l ↔ f ∈ activeFields o ∧ D f) ∨ (¬ ByField o typ ∧ l = [])

/-- the last label of the entry -/
def DiffEntry.act (E : DiffEntry) : Str := if E.ins then (if E.first then ins1 else ins2) else (if E.first then dif1 else dif2)

/-- `E` is to be an entry for the symbols with the records `P` (file 1) and `Q` (file 2): its record has no partner and does not count as
    default record, or it has a partner with other values. If the fields are shown one by one: all active fields of a record without partner, and the
    fields in which the two records differ. -/
def IsEntry (o : Opt) (typ : Nat) (defs : List Dbl) (a b : Gx) (P Q : List Record) (E : DiffEntry) : Prop :=
  if E.first then E.r ∈ P ∧
    if E.ins then (∀ q ∈ Q, ¬ SameKey o a b E.r.1 q.1) ∧ ¬ Negligible o typ defs a b E.r.2 ∧ FieldsAre o typ (fun _ => True) E.flds
    else ∃ q ∈ Q, SameKey o a b E.r.1 q.1 ∧ ¬ ValsAgree o typ a b E.r.2 q.2 ∧ FieldsAre o typ (fun f => ¬ FieldsAgree o a b E.r.2 q.2 [f]) E.flds
  else E.r ∈ Q ∧
    if E.ins then (∀ p ∈ P, ¬ SameKey o a b p.1 E.r.1) ∧ ¬ Negligible o typ defs a b E.r.2 ∧ FieldsAre o typ (fun _ => True) E.flds
    else ∃ p ∈ P, SameKey o a b p.1 E.r.1 ∧ ¬ ValsAgree o typ a b p.2 E.r.2 ∧ FieldsAre o typ (fun f => ¬ FieldsAgree o a b p.2 E.r.2 [f]) E.flds

theorem Like.entry {o : Opt} {t : Nat} {defs : List Dbl} {a g b g' : Gx} (h : Like a g) (h' : Like b g') (ha : GoodElems a) (hg : GoodElems g)
    (hb : GoodElems b) (hg' : GoodElems g') (P Q : List Record) (E : DiffEntry) : IsEntry o t defs g g' P Q E ↔ IsEntry o t defs a b P Q E := by
  unfold IsEntry
  simp only [h.key (o := o) h' ha hg hb hg', h.vals (o := o) (t := t) h', h.negl (o := o) (t := t) (defs := defs) h', h.fields (o := o) h']

/-- the entry with the numbers of UELTable -/
def DiffEntry.ev (na nb : Int → Int) (E : DiffEntry) : Ev := ⟨E.ins, E.first, E.r.1.map (if E.first then na else nb), E.r.2, E.flds⟩

theorem byField_iff {o : Opt} {typ : Nat} : byField o typ = true ↔ ByField o typ := by
  unfold byField ByField
  rw [Bool.and_eq_true_iff, isVarEqu_iff]

theorem active_sorted (o : Opt) : (activeFields o).Pairwise (· < ·) := by
  unfold activeFields
  exact List.Pairwise.filter _ (by decide)

theorem sorted_eq {l m : List Nat} (hl : l.Pairwise (· < ·)) (hm : m.Pairwise (· < ·)) (h : ∀ f, f ∈ l ↔ f ∈ m) : l = m := by
  have n1 : l.Nodup := hl.imp fun h => ne_of_lt h
  have n2 : m.Nodup := hm.imp fun h => ne_of_lt h
  refine ((List.perm_ext_iff_of_nodup n1 n2).mpr h).eq_of_pairwise ?_ hl hm
  intro a b _ _ h1 h2
  omega

theorem fieldsAre_iff {o : Opt} {typ : Nat} {D : Nat → Prop} {p : Nat → Bool} (h : byField o typ = true → ∀ f ∈ activeFields o, (p f = true ↔ D f)) (l : List Nat) :
    FieldsAre o typ D l ↔ l = if byField o typ then (fieldsOf o).filter p else [] := by
  unfold FieldsAre
  rw [← byField_iff, fieldsOf_eq]
  split
  · rename_i hb
    have h := h hb
    simp only [hb, true_and, not_true_eq_false, false_and, or_false]
    have hm : ∀ f, f ∈ (activeFields o).filter p ↔ f ∈ activeFields o ∧ D f := by
      intro f
      rw [List.mem_filter]
      exact and_congr_right fun hf => h f hf
    constructor
    · rintro ⟨h1, h2⟩
      refine sorted_eq h1 ((active_sorted o).filter _) fun f => ?_
      rw [h2, hm]
    · rintro rfl
      exact ⟨(active_sorted o).filter _, hm⟩
  · rename_i hb
    simp [hb]

theorem fieldsAre_ins {o : Opt} {typ : Nat} (l : List Nat) : FieldsAre o typ (fun _ => True) l ↔ l = insFlds o typ := by
  rw [fieldsAre_iff (p := fun _ => true) (by simp)]
  unfold insFlds
  rw [List.filter_eq_self.mpr (by simp)]

theorem fieldsAre_dif {o : Opt} {typ : Nat} {a b : Gx} {v w : List Dbl} (h : byField o typ = true → ∀ t ∈ fieldsOf o, ∃ e, fieldsEqual o a b v w [t] = .ok e) (l : List Nat) :
    FieldsAre o typ (fun f => ¬ FieldsAgree o a b v w [f]) l ↔ l = difFlds o typ a b v w := by
  rw [fieldsAre_iff (p := differAt o a b v w)]
  · rfl
  · intro hb f hf
    rw [← fieldsEqual_iff]
    unfold differAt
    obtain ⟨e, he⟩ := h hb f hf
    rw [he]
    cases e <;> simp

theorem not_true_false {r : Res Bool} {p : Prop} (h : r = .ok true ↔ p) (hd : ∃ e, r = .ok e) : r = .ok false ↔ ¬ p := by
  rw [← h]
  obtain ⟨e, rfl⟩ := hd
  cases e <;> simp

/-- the entries that are written are those that are to be written -/
theorem entries_spec {o : Opt} {s : Sy} {a b : Gx} {A B : List (RecOut Int)} {P Q : List Record} {na nb : Int → Int} {W : List Ev}
    (hA : (recPairs A).Perm (P.map fun x => (x.1.map na, x.2))) (hB : (recPairs B).Perm (Q.map fun x => (x.1.map nb, x.2)))
    (hk : ∀ r ∈ P, ∀ q ∈ Q, (r.1.map na = q.1.map nb ↔ SameKey o a b r.1 q.1)) (iA : ∀ r ∈ P, ∀ q ∈ P, r.1.map na = q.1.map na → r.1 = q.1)
    (iB : ∀ r ∈ Q, ∀ q ∈ Q, r.1.map nb = q.1.map nb → r.1 = q.1) (hD : Defd o s a b A B) (hW : Entries o s a b A B W) :
    ∃ Es : List DiffEntry, W = Es.map (DiffEntry.ev na nb) ∧ ∀ E, E ∈ Es ↔ IsEntry o s.typ s.defs a b P Q E := by
  have conv : ∀ {A : List (RecOut Int)} {P : List Record} {n : Int → Int}, (recPairs A).Perm (P.map fun x => (x.1.map n, x.2)) →
      (∀ x ∈ A, ∃ r ∈ P, x.key = r.1.map n ∧ x.vals = r.2) ∧ (∀ r ∈ P, ∃ x ∈ A, x.key = r.1.map n ∧ x.vals = r.2) := by
    intro A P n h
    constructor
    · intro x hx
      obtain ⟨r, hr, he⟩ := List.mem_map.mp (h.mem_iff.mp (List.mem_map_of_mem hx))
      exact ⟨r, hr, (congrArg Prod.fst he).symm, (congrArg Prod.snd he).symm⟩
    · intro r hr
      obtain ⟨x, hx, he⟩ := List.mem_map.mp (h.mem_iff.mpr (List.mem_map_of_mem (f := fun x : Record => (x.1.map n, x.2)) hr))
      exact ⟨x, hx, congrArg Prod.fst he, congrArg Prod.snd he⟩
  obtain ⟨a1, a2⟩ := conv hA
  obtain ⟨b1, b2⟩ := conv hB
  have hto : ∀ w, IsEv o s a b A B w → ∃ E : DiffEntry, IsEntry o s.typ s.defs a b P Q E ∧ w = E.ev na nb := by
    rintro ⟨wi, wf, wk, wv, wl⟩ (⟨h1, r, h2, h3, h4, h5, h6, h8⟩ | ⟨h1, x, h2, y, h3, h4, h5, h6, h7, h8⟩)
    · simp only at h1 h5 h6 h8
      subst h1
      cases wf with
      | true =>
        obtain ⟨p, p1, p2, p3⟩ := a1 r h2
        refine ⟨⟨true, true, p, wl⟩, ⟨p1, ?_, ?_, (fieldsAre_ins _).mpr h8⟩, ?_⟩
        · intro q hq hc
          obtain ⟨y, y1, y2, _⟩ := b2 q hq
          refine h3 y y1 ?_
          rw [y2, p2]
          exact ((hk p p1 q hq).mpr hc).symm
        · rw [p3] at h4
          intro hc
          rw [ignored_iff.mpr hc] at h4
          cases h4
        · rw [h5, h6, p2, p3]; rfl
      | false =>
        obtain ⟨q, p1, p2, p3⟩ := b1 r h2
        refine ⟨⟨true, false, q, wl⟩, ⟨p1, ?_, ?_, (fieldsAre_ins _).mpr h8⟩, ?_⟩
        · intro p hp hc
          obtain ⟨y, y1, y2, _⟩ := a2 p hp
          refine h3 y y1 ?_
          rw [y2, p2]
          exact (hk p hp q p1).mpr hc
        · rw [p3] at h4
          intro hc
          rw [ignored_iff.mpr hc] at h4
          cases h4
        · rw [h5, h6, p2, p3]; rfl
    · simp only at h1 h6 h7 h8
      subst h1
      obtain ⟨p, p1, p2, p3⟩ := a1 x h2
      obtain ⟨q, q1, q2, q3⟩ := b1 y h3
      have hsk : SameKey o a b p.1 q.1 := (hk p p1 q q1).mp (by rw [← p2, ← q2, h4])
      have hne : ¬ ValsAgree o s.typ a b p.2 q.2 := by
        intro hc
        rw [p3, q3, sameRec_iff.mpr hc] at h5
        cases h5
      have hfl : FieldsAre o s.typ (fun f => ¬ FieldsAgree o a b p.2 q.2 [f]) wl := by
        rw [← p3, ← q3]
        exact (fieldsAre_dif (hD.flds x h2 y h3 h4) _).mpr h8
      cases wf with
      | true => exact ⟨⟨false, true, p, wl⟩, ⟨p1, q, q1, hsk, hne, hfl⟩, by rw [h6, h7, p2, p3]; rfl⟩
      | false => exact ⟨⟨false, false, q, wl⟩, ⟨q1, p, p1, hsk, hne, hfl⟩, by rw [h6, h7, h4, q2, q3]; rfl⟩
  have fro : ∀ E : DiffEntry, IsEntry o s.typ s.defs a b P Q E → IsEv o s a b A B (E.ev na nb) := by
    rintro ⟨wi, wf, r, wl⟩ h
    cases wf with
    | true =>
      obtain ⟨h1, h⟩ := h
      obtain ⟨x, x1, x2, x3⟩ := a2 r h1
      cases wi with
      | true =>
        obtain ⟨h2, h3, h8⟩ := h
        refine Or.inl ⟨rfl, x, x1, ?_, ?_, x2.symm, x3.symm, (fieldsAre_ins _).mp h8⟩
        · intro y hy hc
          obtain ⟨q, q1, q2, _⟩ := b1 y hy
          exact h2 q q1 ((hk r h1 q q1).mp (by rw [← x2, ← q2, hc]))
        · rw [x3]
          exact (not_true_false ignored_iff (by rw [← x3]; exact hD.left x x1)).mpr h3
      | false =>
        obtain ⟨q, q1, h2, h3, h8⟩ := h
        obtain ⟨y, y1, y2, y3⟩ := b2 q q1
        have hxy : x.key = y.key := by rw [x2, y2]; exact (hk r h1 q q1).mpr h2
        refine Or.inr ⟨rfl, x, x1, y, y1, hxy, ?_, x2.symm, x3.symm, (fieldsAre_dif (hD.flds x x1 y y1 hxy) _).mp (by rw [x3, y3]; exact h8)⟩
        rw [x3, y3]
        exact (not_true_false sameRec_iff (by rw [← x3, ← y3]; exact hD.both x x1 y y1 hxy)).mpr h3
    | false =>
      obtain ⟨h1, h⟩ := h
      obtain ⟨y, y1, y2, y3⟩ := b2 r h1
      cases wi with
      | true =>
        obtain ⟨h2, h3, h8⟩ := h
        refine Or.inl ⟨rfl, y, y1, ?_, ?_, y2.symm, y3.symm, (fieldsAre_ins _).mp h8⟩
        · intro x hx hc
          obtain ⟨p, q1, q2, _⟩ := a1 x hx
          exact h2 p q1 ((hk p q1 r h1).mp (by rw [← y2, ← q2, hc]))
        · rw [y3]
          exact (not_true_false ignored_iff (by rw [← y3]; exact hD.right y y1)).mpr h3
      | false =>
        obtain ⟨p, p1, h2, h3, h8⟩ := h
        obtain ⟨x, x1, x2, x3⟩ := a2 p p1
        have hxy : x.key = y.key := by rw [x2, y2]; exact (hk p p1 r h1).mpr h2
        refine Or.inr ⟨rfl, x, x1, y, y1, hxy, ?_, ?_, y3.symm, (fieldsAre_dif (hD.flds x x1 y y1 hxy) _).mp (by rw [x3, y3]; exact h8)⟩
        · rw [x3, y3]
          exact (not_true_false sameRec_iff (by rw [← x3, ← y3]; exact hD.both x x1 y y1 hxy)).mpr h3
        · rw [hxy, y2]; rfl
  have inj : ∀ E E' : DiffEntry, IsEntry o s.typ s.defs a b P Q E → IsEntry o s.typ s.defs a b P Q E' → E.ev na nb = E'.ev na nb → E = E' := by
    rintro ⟨i, f, r, l⟩ ⟨i', f', r', l'⟩ h h' he
    unfold DiffEntry.ev at he
    simp only [Ev.mk.injEq] at he
    obtain ⟨rfl, rfl, h3, h4, rfl⟩ := he
    cases f with
    | true => rw [Prod.ext (iA r h.1 r' h'.1 h3) h4]
    | false => rw [Prod.ext (iB r h.1 r' h'.1 h3) h4]
  have hex : ∀ W : List Ev, (∀ w ∈ W, IsEv o s a b A B w) → ∃ Es : List DiffEntry, W = Es.map (DiffEntry.ev na nb) ∧ ∀ E ∈ Es, IsEntry o s.typ s.defs a b P Q E := by
    intro W
    induction W with
    | nil => exact fun _ => ⟨[], rfl, nofun⟩
    | cons w W ih =>
      intro h
      obtain ⟨Es, e1, e2⟩ := ih fun w hw => h w (List.mem_cons_of_mem _ hw)
      obtain ⟨E, e3, e4⟩ := hto w (h w (List.mem_cons_self ..))
      refine ⟨E :: Es, by rw [e1, e4]; rfl, ?_⟩
      intro E' hE
      rcases List.mem_cons.mp hE with rfl | hE
      · exact e3
      · exact e2 E' hE
  obtain ⟨Es, e1, e2⟩ := hex W fun w hw => (hW.mem w).mp hw
  refine ⟨Es, e1, fun E => ⟨e2 E, fun h => ?_⟩⟩
  have := (hW.mem _).mpr (fro E h)
  rw [e1] at this
  obtain ⟨E', h1, h2⟩ := List.mem_map.mp this
  rw [← inj E' E (e2 E' h1) h h2]
  exact h1

end Gdx.Props
