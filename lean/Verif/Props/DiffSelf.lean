import Verif.Proofs.DiffOpen
import Verif.Props.DiffNum

/-!
C58: gdxdiff finds no difference between a file and itself.
-/

namespace Gdx.Props
open Gdx Gdx.Diff Gdx.Spec

/-- gdxDataReadRawStart or gdxDataReadMapStart -/
def begins (o : Opt) (z : Cz) (g : Gx) (n : Int) : Res (Gx × (Bool × Int)) := if o.matrix then dataReadRawStart z g n else dataReadMapStart z g n

/-- What the program does with an object it reads (gdxdiff.cpp:173-687): `Seen o z g0 k g` means that it gets from `g0` to `g`; `k` is the
    array of keys while it is reading a symbol. -/
inductive Seen (o : Opt) (z : Cz) (g0 : Gx) : Option (List Int) → Gx → Prop
  | init : Seen o z g0 none g0
  | dom {g g' n r} : Seen o z g0 none g → symbolGetDomainX g n = .ok (g', r) → Seen o z g0 none g'
  | start {g g' n b k} : Seen o z g0 none g → (g0.symAt n).isSome = true → begins o z g n = .ok (g', (b, k)) →
      Seen o z g0 (if b then some (List.replicate (symbolInfo g0 n).dim.toNat 0) else none) g'
  | read {g g' key r} : Seen o z g0 (some key) g → readRec o g key = .ok (g', r) → Seen o z g0 (r.map RecOut.key) g'

theorem raise_fixed (g : Gx) (n : Int) : (g.raise n).fixed = g.fixed := by
  unfold Gx.raise
  split <;> rfl

theorem domX_fixed {g g' : Gx} {n : Int} {r : Int × List Str} (h : symbolGetDomainX g n = .ok (g', r)) : g'.fixed = g.fixed := by
  unfold symbolGetDomainX at h
  obtain ⟨l, _, h⟩ := Res.bind_eq_ok.mp h
  split at h
  · cases h
    exact raise_fixed _ _
  · split at h
    · obtain ⟨_, _, h⟩ := Res.bind_eq_ok.mp h
      obtain ⟨_, _, h⟩ := Res.bind_eq_ok.mp h
      cases h
      rfl
    · cases h
      rfl
    · obtain ⟨_, _, h⟩ := Res.bind_eq_ok.mp h
      cases h
      rfl

theorem Seen.fixed {o : Opt} {z : Cz} {g0 g : Gx} {b : Option (List Int)} (ha : g0.nextAuto ≤ 0) (h0 : g0.nrMapped = 0) (h : Seen o z g0 b g) :
    g.fixed = g0.fixed ∧ (b ≠ none → g.noGrow) := by
  induction h with
  | init => exact ⟨rfl, fun h => absurd rfl h⟩
  | dom _ h ih => exact ⟨(domX_fixed h).trans ih.1, fun h => absurd rfl h⟩
  | start _ _ h ih =>
    have key : ∀ {b : Bool} {g : Gx} {d : List Int}, (b = true → g.noGrow) → (if b = true then some d else none) ≠ none → g.noGrow := by
      intro b g d h1 h2
      split at h2
      · exact h1 ‹_›
      · exact absurd rfl h2
    unfold begins at h
    split at h
    · obtain ⟨k1, k2⟩ := dataReadRawStart_fix (by rw [RFix.auto ih.1]; exact ha) ((congrArg Fixed.nrm ih.1).trans h0) h
      exact ⟨k1.trans ih.1, key k2⟩
    · obtain ⟨k1, k2⟩ := dataReadMapStart_fix (by rw [RFix.auto ih.1]; exact ha) ((congrArg Fixed.nrm ih.1).trans h0) h
      exact ⟨k1.trans ih.1, key k2⟩
  | read _ h ih =>
    unfold readRec at h
    split at h
    · have k := dataReadRaw_fix (by rw [RFix.auto ih.1]; exact ha) ((congrArg Fixed.nrm ih.1).trans h0) h
      exact ⟨k.fix.trans ih.1, fun _ => k.noGrow (ih.2 (by simp))⟩
    · have k := dataReadMap_fix (by rw [RFix.auto ih.1]; exact ha) (ih.2 (by simp)) h
      exact ⟨k.fix.trans ih.1, fun _ => k.noGrow (ih.2 (by simp))⟩

/-- a number that is neither infinite nor "not a number" -/
def Finite (v : Dbl) : Prop := ∃ q, v.fv = .fin q

/-- all values the program reads from the file are finite -/
def AllFinite (o : Opt) (z : Cz) (g0 : Gx) : Prop :=
  ∀ g g' key r, Seen o z g0 (some key) g → readRec o g key = .ok (g', some r) → ∀ v ∈ r.vals, Finite v

/-- no two symbols of the file have the same name (not regarding case), and none is called `*` -/
structure NamesOk (g : Gx) : Prop where
  distinct : ∀ l, g.names = some l → Distinct false (l.map Sym.name)
  star : ∀ l, g.names = some l → star ∉ l.map Sym.name

theorem doubles_self {o : Opt} {g : Gx} {v : Dbl} {e : ℚ} {b : Bool} (he : o.eps.fv = .fin e) (h0 : 0 ≤ e) (hv : Finite v)
    (h : doublesEqual o g g v v = .ok b) : b = true := by
  obtain ⟨q, hq⟩ := hv
  by_cases hm : mapValue g.sv v = 5
  · have ha : ∃ x, acronymName g v = .ok x := by
      unfold doublesEqual at h
      simp only [hm, if_true] at h
      obtain ⟨x, hx, _⟩ := Res.bind_eq_ok.mp h
      exact ⟨x, hx⟩
    rw [C56_refl o g v q e hq he h0 ha] at h
    cases h
    rfl
  · rw [C56_special o g g v v hm hm] at h
    cases h
    simp

theorem fields_self {o : Opt} {g : Gx} {v : List Dbl} {e : ℚ} (he : o.eps.fv = .fin e) (h0 : 0 ≤ e) (hv : ∀ x ∈ v, Finite x) :
    ∀ {ts : List Nat} {b : Bool}, fieldsEqual o g g v v ts = .ok b → b = true
  | [], b, h => by cases h; rfl
  | t :: ts, b, h => by
    unfold fieldsEqual at h
    obtain ⟨a, h1, h⟩ := Res.bind_eq_ok.mp h
    obtain ⟨a', h2, h⟩ := Res.bind_eq_ok.mp h
    rw [h1] at h2
    cases h2
    obtain ⟨d, h3, h⟩ := Res.bind_eq_ok.mp h
    have hd := doubles_self he h0 (hv a (List.mem_of_getElem? (need_some h1))) h3
    rw [hd, if_pos rfl] at h
    exact fields_self he h0 hv h

theorem rec_self {o : Opt} {s : Sy} {g : Gx} {v : List Dbl} {e : ℚ} (he : o.eps.fv = .fin e) (h0 : 0 ≤ e) (hv : ∀ x ∈ v, Finite x) {b : Bool}
    (h : sameRec o s g g v v = .ok b) : b = true := by
  unfold sameRec at h
  split at h
  · split at h
    · obtain ⟨a, h1, h⟩ := Res.bind_eq_ok.mp h
      obtain ⟨a', h2, h⟩ := Res.bind_eq_ok.mp h
      rw [h1] at h2
      cases h2
      obtain ⟨t, h3, h⟩ := Res.bind_eq_ok.mp h
      obtain ⟨t', h4, h⟩ := Res.bind_eq_ok.mp h
      rw [h3] at h4
      cases h4
      cases h
      simp
    · cases h
      rfl
  · unfold valuesEqual at h
    split at h
    · exact fields_self he h0 hv h
    · split at h
      · exact fields_self he h0 hv h
      · exact fields_self he h0 hv h

theorem keyDiff_self : ∀ {k : List Int} {d : Int}, Diff.keyDiff k k = .ok d → d = 0
  | [], d, h => by cases h; rfl
  | a :: k, d, h => by
    unfold Diff.keyDiff at h
    rw [if_neg (by unfold I32; simp), if_pos (by simp)] at h
    exact keyDiff_self h

/-- the loop over the records of two objects that are the same -/
theorem loop_self {o : Opt} {z : Cz} {g0 : Gx} {s : Sy} {e : ℚ} (he : o.eps.fv = .fin e) (h0 : 0 ≤ e) (hf : AllFinite o z g0) :
    ∀ {n : Nat} {c c' : Cmp} {r : Option (RecOut Int)}, c.o.g2 = c.o.g1 → Seen o z g0 (r.map RecOut.key) c.o.g1 →
      (∀ x, r = some x → ∀ v ∈ x.vals, Finite v) → cmpLoop o s n c r r = .ok c' →
      c' = c.withG c'.o.g1 c'.o.g1 ∧ Seen o z g0 none c'.o.g1
  | 0, c, c', r, _, _, _, h => by cases h
  | n + 1, c, c', r, hg, hs, hr, h => by
    unfold cmpLoop at h
    cases r with
    | none =>
      cases h
      refine ⟨?_, hs⟩
      obtain ⟨⟨g1, g2, gd, us, n, rg⟩, p, st⟩ := c
      dsimp only at hg
      subst hg
      rfl
    | some x =>
      dsimp only at h
      obtain ⟨d, h1, h⟩ := Res.bind_eq_ok.mp h
      rw [if_pos (keyDiff_self h1)] at h
      obtain ⟨c1, h2, h⟩ := Res.bind_eq_ok.mp h
      obtain ⟨ee, k1, _, k3, _⟩ := bothRecs_spec h2
      rw [hg] at k1
      have hc1 := k3 (rec_self he h0 (hr x rfl) k1)
      rw [hc1] at h
      obtain ⟨⟨c2, r1⟩, h3, h⟩ := Res.bind_eq_ok.mp h
      obtain ⟨⟨c3, r2⟩, h4, h⟩ := Res.bind_eq_ok.mp h
      unfold next1 at h3
      obtain ⟨⟨g1, r1'⟩, h3, h5⟩ := Res.bind_eq_ok.mp h3
      cases h5
      unfold next2 at h4
      dsimp only at h4
      rw [hg, h3] at h4
      cases h4
      dsimp only at h
      obtain ⟨i1, i2⟩ := loop_self he h0 hf rfl (Seen.read hs h3) (fun y hy => by
        subst hy
        exact hf _ _ _ _ hs h3) h
      exact ⟨i1, i2⟩

/-- one symbol, compared with itself -/
theorem compare_self {o : Opt} {z : Cz} {g0 : Gx} {e : ℚ} (he : o.eps.fv = .fin e) (h0 : 0 ≤ e) (hf : AllFinite o z g0)
    (ha : g0.nextAuto ≤ 0) (h0' : g0.nrMapped = 0) {fuel : Nat} {x x' : Objs} {n : Int} {r : Option (Str × Status)} (hg : x.g2 = x.g1)
    (hs : Seen o z g0 none x.g1) (hn : (g0.symAt n).isSome = true) (h : compareSy o z fuel x n n = .ok (x', r)) :
    r = none ∧ x' = { x with g1 := x'.g1, g2 := x'.g1 } ∧ Seen o z g0 none x'.g1 := by
  have hsi : symbolInfo x.g1 n = symbolInfo g0 n := by
    unfold symbolInfo Gx.symAt
    rw [show x.g1.names = g0.names from congrArg Fixed.names (hs.fixed ha h0').1]
  unfold compareSy at h
  dsimp only at h
  rw [hg, if_neg (by simp), if_neg (by simp)] at h
  obtain ⟨⟨x1, df⟩, h1, h⟩ := Res.bind_eq_ok.mp h
  have hd : df = false ∧ x1 = { x with g1 := x1.g1, g2 := x1.g1 } ∧ Seen o z g0 none x1.g1 := by
    unfold domsDiffer at h1
    split at h1
    · obtain ⟨⟨g1, k1, d1⟩, j1, h1⟩ := Res.bind_eq_ok.mp h1
      obtain ⟨⟨g2, k2, d2⟩, j2, h1⟩ := Res.bind_eq_ok.mp h1
      rw [hg, j1] at j2
      cases j2
      cases h1
      refine ⟨?_, rfl, Seen.dom hs j1⟩
      rw [Bool.not_eq_false', List.all_eq_true]
      intro y hy
      rw [List.zipWith_self] at hy
      obtain ⟨w, _, rfl⟩ := List.mem_map.mp hy
      exact (sameText_iff false w w).mpr (sameName_refl false w)
    · cases h1
      refine ⟨rfl, ?_, hs⟩
      obtain ⟨g1, g2, gd, us, n, rg⟩ := x
      dsimp only at hg
      subst hg
      rfl
  obtain ⟨rfl, hx1, hs1⟩ := hd
  have hg1 : x1.g2 = x1.g1 := by rw [hx1]
  dsimp only at h
  rw [if_neg (by simp)] at h
  obtain ⟨defs, h2, h⟩ := Res.bind_eq_ok.mp h
  obtain ⟨⟨g1, r1⟩, h3, h⟩ := Res.bind_eq_ok.mp h
  rw [hg1, h3] at h
  simp only [Res.bind_ok] at h
  obtain ⟨c1, h4, h⟩ := Res.bind_eq_ok.mp h
  obtain ⟨c2, h5, h⟩ := Res.bind_eq_ok.mp h
  have hr : Seen o z g0 (r1.map RecOut.key) g1 ∧ ∀ y, r1 = some y → ∀ v ∈ y.vals, Finite v := by
    have h3' : (do
        let (g, (ok, _)) ← begins o z x1.g1 n
        if ok then readRec o g (List.replicate (symbolInfo x.g1 n).dim.toNat 0) else pure (g, none)) = .ok (g1, r1) := by
      unfold begins
      unfold startRead at h3
      dsimp only at h3
      split at h3
      · rename_i hm
        rw [if_pos hm]
        exact h3
      · rename_i hm
        rw [if_neg hm]
        exact h3
    obtain ⟨⟨g2, bb, k⟩, j1, h3'⟩ := Res.bind_eq_ok.mp h3'
    have hs2 := Seen.start hs1 hn j1
    rw [hsi] at h3'
    dsimp only at h3'
    split at h3'
    · rename_i hbb
      rw [if_pos hbb] at hs2
      refine ⟨.read hs2 h3', fun y hy => ?_⟩
      subst hy
      exact hf _ _ _ _ hs2 h3'
    · rename_i hbb
      rw [if_neg hbb] at hs2
      cases h3'
      exact ⟨hs2, fun y hy => by cases hy⟩
  obtain ⟨hs3, hr⟩ := hr
  obtain ⟨i1, i2⟩ := loop_self he h0 hf rfl hs3 hr h4
  generalize hst : (if 20 ≤ (symbolInfo x.g1 n).dim ∨ o.diffOnly = true ∧ 20 ≤ (symbolInfo x.g1 n).dim - 1 then Status.dim10 else Status.same) = st at h4 i1
  have hcl : st = .same ∨ st = .dim10 := by
    rw [← hst]
    split
    · exact Or.inr rfl
    · exact Or.inl rfl
  have h6 := (symbClose_keeps h5).2.2.2 (by rw [i1]; rfl)
  rw [h6] at h
  cases h
  refine ⟨?_, ?_, i2⟩
  · rw [if_pos]
    rw [i1]
    exact hcl
  · rw [i1, hx1]
    rfl

theorem insMap_mem {α : Type} {k : Str} {v : α} {p : Str × α} : ∀ {l : List (Str × α)}, p ∈ insMap k v l → p = (k, v) ∨ p ∈ l
  | [], h => Or.inl (List.mem_singleton.mp h)
  | (a, b) :: l, h => by
    unfold insMap at h
    split at h
    · exact Or.inr h
    · split at h
      · exact List.mem_cons.mp h
      · rcases List.mem_cons.mp h with rfl | h
        · exact Or.inr (List.mem_cons_self ..)
        · exact (insMap_mem h).imp_right (List.mem_cons_of_mem _)

theorem idTable_mem {o : Opt} {g : Gx} {p : Str × Int} (h : p ∈ idTable o g) : ∃ i : Nat, ((g.names.getD []).map Sym.name)[i]? = some p.1 ∧ p.2 = i + 1 := by
  unfold idTable at h
  dsimp only at h
  generalize (g.names.getD []).map Sym.name = l at h
  have key : ∀ (cond : Str × Nat → Bool) (w : List (Str × Nat)) (t : List (Str × Int)), (∀ q ∈ w, ∃ i, l[i]? = some q.1 ∧ q.2 = i + 1) →
      (∀ q ∈ t, ∃ i : Nat, l[i]? = some q.1 ∧ q.2 = i + 1) →
      ∀ q ∈ w.foldl (fun t (p : Str × Nat) => if cond p then insMap p.1 (p.2 : Int) t else t) t, ∃ i : Nat, l[i]? = some q.1 ∧ q.2 = i + 1 := by
    intro cond w
    induction w with
    | nil => intro t _ ht; exact ht
    | cons a w ih =>
      intro t hw ht
      rw [List.foldl_cons]
      refine ih _ (fun q hq => hw q (List.mem_cons_of_mem _ hq)) ?_
      split
      · intro q hq
        rcases insMap_mem hq with rfl | hq
        · obtain ⟨i, h1, h2⟩ := hw a (List.mem_cons_self ..)
          exact ⟨i, h1, by simp [h2]⟩
        · exact ht q hq
      · exact ht
  refine key _ _ _ ?_ (fun _ hq => by cases hq) p h
  intro q hq
  obtain ⟨h1, h2⟩ := List.mem_zipIdx_iff_le_and_getElem?_sub.mp hq
  exact ⟨q.2 - 1, h2, by omega⟩

theorem find_self {g g' : Gx} {o : Opt} (hn : NamesOk g) (he : g'.names = g.names) {p : Str × Int} (h : p ∈ idTable o g) :
    findSymbol g' p.1 = (true, p.2) := by
  obtain ⟨i, h1, h2⟩ := idTable_mem h
  unfold findSymbol
  rw [he]
  cases hl : g.names with
  | none => rw [hl] at h1; simp at h1
  | some l =>
    rw [hl] at h1
    simp only [Option.getD_some] at h1
    rw [if_neg (by
      intro hp
      exact hn.star l hl (hp ▸ List.mem_of_getElem? h1))]
    have : lookup false p.1 (l.map Sym.name) = some i := (hn.distinct l hl).lookup h1 (sameName_refl false _)
    simp only [symIndex, indexOf1, this, h2]
    simp

theorem symAt_table {o : Opt} {g : Gx} {p : Str × Int} (h : p ∈ idTable o g) : (g.symAt p.2).isSome = true := by
  obtain ⟨i, h1, h2⟩ := idTable_mem h
  unfold Gx.symAt
  cases hl : g.names with
  | none => rw [hl] at h1; simp at h1
  | some l =>
    rw [hl, List.getElem?_map] at h1
    simp only [Option.getD_some, Option.map_eq_some_iff] at h1
    obtain ⟨s, h1, _⟩ := h1
    have := (List.getElem?_eq_some_iff.mp h1).1
    simp only
    rw [if_pos (by omega), h2, show ((i : Int) + 1 - 1).toNat = i by omega, h1]
    rfl

theorem all_self {o : Opt} {z : Cz} {g0 : Gx} {e : ℚ} (he : o.eps.fv = .fin e) (h0 : 0 ≤ e) (hf : AllFinite o z g0) (hn : NamesOk g0)
    (ha : g0.nextAuto ≤ 0) (h0' : g0.nrMapped = 0) {fuel : Nat} : ∀ {l : List (Str × Int)} {x x' : Objs} {t t' : List (Str × Status)},
    (∀ p ∈ l, p ∈ idTable o g0) → x.g2 = x.g1 → Seen o z g0 none x.g1 → compareAll o z fuel l x t = .ok (x', t') →
      t' = t ∧ x' = { x with g1 := x'.g1, g2 := x'.g1 } ∧ Seen o z g0 none x'.g1
  | [], x, x', t, t', _, hg, hs, h => by
    cases h
    refine ⟨rfl, ?_, hs⟩
    obtain ⟨g1, g2, gd, us, n, rg⟩ := x
    dsimp only at hg
    subst hg
    rfl
  | (id, n) :: l, x, x', t, t', hl, hg, hs, h => by
    unfold compareAll at h
    have hfs := find_self (g' := x.g2) hn (by rw [hg]; exact congrArg Fixed.names (hs.fixed ha h0').1) (hl (id, n) (List.mem_cons_self ..))
    rw [hfs] at h
    simp only [if_true] at h
    obtain ⟨⟨x1, r⟩, h1, h⟩ := Res.bind_eq_ok.mp h
    obtain ⟨rfl, k2, k3⟩ := compare_self he h0 hf ha h0' hg hs (symAt_table (hl (id, n) (List.mem_cons_self ..))) h1
    have hg1 : x1.g2 = x1.g1 := by rw [k2]
    obtain ⟨i1, i2, i3⟩ := all_self he h0 hf hn ha h0' (fun p hp => hl p (List.mem_cons_of_mem _ hp)) hg1 k3 h
    refine ⟨i1, ?_, i3⟩
    rw [i2, k2]

theorem only_self {g1 : Gx} : ∀ {l : List (Str × Int)} {t : List (Str × Status)}, (∀ p ∈ l, (findSymbol g1 p.1).1 = true) → onlyIn2 g1 l t = t
  | [], t, _ => rfl
  | (id, n) :: l, t, h => by
    unfold onlyIn2
    rw [if_pos (h _ (List.mem_cons_self ..))]
    exact only_self fun p hp => h p (List.mem_cons_of_mem _ hp)

/-- C58: If gdxdiff compares a file (of any content) with itself and comes to an end, it finds no difference and writes nothing into the
    difference file, provided the symbols have different names and all values it reads are finite. -/
theorem C58_self_partial {o : Opt} {e : Env} {z : Cz} {fuel : Nat} {f : List UInt8} {g : Gx} {us : List Str} {x : Objs} {t : List (Str × Status)} {q : ℚ}
    (ho : openGDX z f (startUels o) = .ok (some (g, us))) (hn : NamesOk g) (hf : AllFinite o z g) (he : o.eps.fv = .fin q) (h0 : 0 ≤ q)
    (h : statusTable o e z fuel f f = .ok (some (x, t))) :
    t = [] ∧ ∃ gd n, openWriteEx e Gx.new false 0 producer 0 = .ok (gd, n) ∧ x.gd = { gd with storeDom := false } := by
  unfold statusTable at h
  obtain ⟨p, h1, h⟩ := Res.bind_eq_ok.mp h
  unfold prepare at h1
  obtain ⟨⟨gd, b, err⟩, h2, h1⟩ := Res.bind_eq_ok.mp h1
  dsimp only at h1
  split at h1
  · cases h1
    cases h
  simp only [ho, openGDX_again ho, Res.bind_ok] at h1
  cases h1
  dsimp only at h
  obtain ⟨⟨x1, t1⟩, h3, h⟩ := Res.bind_eq_ok.mp h
  cases h
  obtain ⟨a1, a2⟩ := openGDX_still ho
  obtain ⟨rfl, i2, i3⟩ := all_self he h0 hf hn a1 a2 (fun p hp => hp) rfl .init h3
  refine ⟨?_, gd, _, h2, by rw [i2]⟩
  have hnm : x1.g1.names = g.names := congrArg Fixed.names (i3.fixed a1 a2).1
  refine only_self fun p hp => ?_
  have hp' : p ∈ idTable o g := by
    have : x1.g2 = x1.g1 := by rw [i2]
    rw [this] at hp
    unfold idTable at hp ⊢
    rw [hnm] at hp
    exact hp
  rw [find_self hn hnm hp']

/-! ### examples -/

/-- the file written by these calls -/
def fileOf (cs : List Call) : Res (List UInt8) := do
  let g ← run ⟨[]⟩ Cz.id Gx.new cs
  let (g, _) ← gdxClose Cz.id g
  pure g.file

/-- the entries of StatusTable for two files -/
def tableOf (o : Opt) (a b : List Call) : Res (Option (List (Str × Status))) := do
  let f ← fileOf a
  let f' ← fileOf b
  let r ← statusTable o ⟨[]⟩ Cz.id 100 f f'
  pure (r.map Prod.snd)

/-- a set `i` with two elements, a parameter `p` with the value `v`, a positive variable `x` -/
def exDiff (v : Dbl) : List Call :=
  [.openWrite false 0 [65] 0, .uelRawStart, .uelRaw [97], .uelRaw [98], .uelDone,
   .rawStart [105] [] 1 0 0, .writeRaw [1] [0], .writeRaw [2] [0], .writeDone,
   .rawStart [112] [] 1 1 0, .writeRaw [2] [v], .writeDone,
   .rawStart [120] [] 0 2 3, .writeRaw [] [dbl03, 0, 0, dblSum, 0], .writeDone]

set_option maxRecDepth 4000 in
example : tableOf {} (exDiff dbl03) (exDiff dbl03) = .ok (some []) := by decide +kernel
/-- another value of `p` -/
example : tableOf {} (exDiff dbl03) (exDiff dblSum) = .ok (some [([112], .data)]) := by decide +kernel

/-- C58 is violated for infinite values (those of IEEE 754, not the special value +INF of GAMS; this library does not write them): a
    file in which the eight bytes of the value of `p` are replaced by those of minus infinity differs from itself. -/
theorem C58_infinite : (do
      let f ← fileOf (exDiff dbl03)
      let f' := f.take 199 ++ [0, 0, 0, 0, 0, 0, 0xf0, 0xff] ++ f.drop 207
      let r ← statusTable {} ⟨[]⟩ Cz.id 100 f' f'
      pure (r.map Prod.snd)) = .ok (some [([112], .data)]) := by decide +kernel

#print axioms C58_self_partial
#print axioms C58_infinite

end Gdx.Props
