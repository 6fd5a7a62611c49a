import Verif.Proofs.CollDone

/-!
Sequences of records in the mapped and in the string mode.
-/

namespace Gdx

open Spec

/-- Calls of gdxDataWriteMap or gdxDataWriteStr, with other calls in between, lead from one object to another one. The list has the
    accepted records; the keys are numbers of elements: those to which the numbers of the user are mapped at the time of the call, or
    those of the strings after the call. In the string mode elements are not renamed in between (`C02_rename`). -/
inductive SortLog (e : Env) (z : Cz) : Gx → List Given → Gx → Prop
  | nil (g : Gx) : SortLog e z g [] g
  | map {g g1 g2 : Gx} {u : Uel} {key : List Int} {vals : List Dbl} {b : Bool} {l : List Given} (hm : MapMode g.mode) (hu : g.uel = some u)
      (hw : ∀ x ∈ key, I32 x) (h : dataWriteMap g key vals = .ok (g1, b)) (hl : SortLog e z g1 l g2) :
      SortLog e z g ((if b then [(key.map u.usr.get, vals)] else []) ++ l) g2
  | str {g g1 g2 : Gx} {u : Uel} {key : List Str} {ks : List Int} {vals : List Dbl} {b : Bool} {l : List Given} (hm : StrMode g.mode)
      (hw : ∀ x ∈ key, ZFree x) (h : dataWriteStr g key vals = .ok (g1, b)) (hu : g1.uel = some u)
      (hk : b = true → List.Forall₂ (ElemIs u) key ks) (hl : SortLog e z g1 l g2) :
      SortLog e z g ((if b then [(ks, vals)] else []) ++ l) g2
  | other {g g1 g2 : Gx} {c : Call} {l : List Given} (hc : c.between) (hw : c.WF) (hr : MapMode g.mode ∨ ∀ o s, c ≠ .renameUEL o s)
      (h : step e z g c = .ok g1) (hl : SortLog e z g1 l g2) : SortLog e z g l g2

theorem Call.between.inFile {c : Call} (hc : c.between) : c.inFile = true := by
  rcases hc with hc | ⟨ids, rfl⟩
  · revert hc
    cases c <;> simp [Call.quiet, Call.inFile]
  · rfl

/-- the calls one by one -/
theorem SortLog.ind {e : Env} {z : Cz} {P : Gx → Prop} (hP : ∀ a b c, c.WF → c.inFile = true → step e z a c = .ok b → P a → P b) {a b : Gx}
    {l : List Given} (hl : SortLog e z a l b) : P a → P b := by
  induction hl with
  | nil g => exact fun h => h
  | map hm hu hw h _ ih =>
    rename_i key vals b l _
    exact fun hx => ih (hP _ _ (.writeMap key vals) hw rfl (by show stateOf _ = _; rw [h]; rfl) hx)
  | str hm hw h hu hk _ ih =>
    rename_i key ks vals b l _
    exact fun hx => ih (hP _ _ (.writeStr key vals) hw rfl (by show stateOf _ = _; rw [h]; rfl) hx)
  | other hc hw hr h _ ih => exact fun hx => ih (hP _ _ _ hw hc.inFile h hx)

theorem inFile_calls {c : Call} (h : c.inFile = true) : c.opensRead = false ∧ c.opensWrite = false ∧ c ≠ .close := by
  revert h
  cases c <;> simp [Call.inFile, Call.opensRead, Call.opensWrite]

theorem SortLog.inRead {e : Env} {z : Cz} {a b : Gx} {l : List Given} (hl : SortLog e z a l b) : InRead a → InRead b :=
  hl.ind fun _ _ _ _ hf hs hx => (hx.step e z _ hf).of_ok hs

theorem SortLog.fine {e : Env} {z : Cz} {a b : Gx} {l : List Given} (hl : SortLog e z a l b) : Fine a → Fine b :=
  hl.ind fun _ _ _ hc hf hs hx => hx.step hc (inFile_calls hf).1 hs

theorem SortLog.atLeast {e : Env} {z : Cz} {a b : Gx} {l : List Given} {n : Nat} (hl : SortLog e z a l b) (ha : Fine a) (hn : AtLeast n a) :
    AtLeast n b := by
  have := hl.ind (P := fun g => Fine g ∧ AtLeast n g) (fun _ _ _ hc hf hs hx => by
    obtain ⟨h1, h2, h3⟩ := inFile_calls hf
    exact ⟨hx.1.step hc h1 hs, hx.2.step hc hx.1.aft h1 h2 h3 hs⟩) ⟨ha, hn⟩
  exact this.2

theorem SortLog.tabFits {e : Env} {z : Cz} {a b : Gx} {l : List Given} (hl : SortLog e z a l b) (ha : Fine a) (ht : TabFits b) : TabFits a := by
  intro u hu
  obtain ⟨v, hv, hn⟩ := hl.atLeast ha ⟨u, hu, le_refl _⟩
  have := ht v hv
  omega

theorem elemIs_unique {u : Uel} {key : List Str} {ks ks' : List Int} (h : List.Forall₂ (ElemIs u) key ks) (h' : List.Forall₂ (ElemIs u) key ks') :
    ks = ks' := by
  induction h generalizing ks' with
  | nil => cases h'; rfl
  | cons h1 _ ih =>
    cases h' with
    | cons h1' h2' => rw [ih h2', ← h1.1, ← h1'.1]

/-- all the calls -/
theorem Coll.log {e : Env} {z : Cz} {g g' : Gx} {its : List Given} (hl : SortLog e z g its g') : ∀ {m : Nat} {d : SymDesc} {l : List Given},
    Coll g m d l → SortMode g.mode → (StrMode g.mode → StrOk g) → Fine g → TabFits g' → SortMode g'.mode → Coll g' m d (l ++ its) := by
  induction hl with
  | nil g => intro m d l h _ _ _ _ _; simpa using h
  | map hm hu hw h hl ih =>
    rename_i g1 g2 g3 u key vals b its
    intro m d l hc _ _ hf ht hr'
    have hf2 : Fine g2 := hf.step (e := e) (z := z) (c := .writeMap key vals) hw rfl (by show stateOf _ = _; rw [h]; rfl)
    have ht2 := hl.tabFits hf2 ht
    have ht1 : TabFits g1 := by
      have := SortLog.map hm hu hw h hl
      exact this.tabFits hf ht
    obtain ⟨c1, c2, _, v, c4, _, c5⟩ := hc.map hm hf.usr ht1 h
    rw [hu] at c4
    cases c4
    have := ih c5 (Or.inl c1) (fun hs => by
      exfalso
      rcases c1 with c1 | c1 <;> rcases hs with hs | hs <;> rw [c1] at hs <;> cases hs) hf2 ht hr'
    cases b with
    | true => simpa using this
    | false => simpa using this
  | str hm hw h hu hk hl ih =>
    rename_i g1 g2 g3 u key ks vals b its
    intro m d l hc _ hs hf ht hr'
    have hf2 : Fine g2 := hf.step (e := e) (z := z) (c := .writeStr key vals) hw rfl (by show stateOf _ = _; rw [h]; rfl)
    have ht2 := hl.tabFits hf2 ht
    obtain ⟨c1, c2, _, v, v', c4, c5, c6, c7⟩ := hc.str (hs hm) hm hf.inv.els ht2 h
    rw [hu] at c5
    cases c5
    cases b with
    | true =>
      obtain ⟨ks', k1, k2⟩ := c7
      rw [elemIs_unique k1 (hk rfl)] at k2
      simpa using ih k2 (Or.inr c1) (fun _ => c2) hf2 ht hr'
    | false => simpa using ih c7.1 (Or.inr c1) (fun _ => c2) hf2 ht hr'
  | other hc hw hr h hl ih =>
    rename_i g1 g2 g3 c its
    intro m d l hco hso hs hf ht hr'
    have hf2 : Fine g2 := hf.step hw hc.stays h
    obtain ⟨k1, k2, k3⟩ := between_calls hc
    rcases hco.between hso hf.aft hc hw h with ⟨h1, h2, h3, h4, h5, h6, h7⟩ | h1
    · refine ih h1 h2 ?_ hf2 ht hr'
      intro hs2
      have hns : ¬ MapMode g1.mode := by
        intro hx
        have := h3.mpr hx
        rcases this with h | h <;> rcases hs2 with hs2 | hs2 <;> rw [h] at hs2 <;> cases hs2
      have hst : StrMode g1.mode := hso.resolve_left hns
      refine (hs hst).congr h4 h5 h6 h7 hf2.inv.els ?_
      intro u' hu'
      obtain ⟨u, hu, _, _⟩ := hco.tab
      obtain ⟨v, hv, hk⟩ := step_keep hw hf.aft k1 k2 k3 (hr.resolve_left hns) hu h
      rw [hu'] at hv
      cases hv
      exact ⟨u, hu, hk⟩
    · exact absurd hr'.writing (hl.inRead h1).notWrite.2

/-! ### sequences without calls in between -/

/-- gdxDataWriteMap for each record of a list: what the calls say -/
def writesMap (g : Gx) : List (List Int × List Dbl) → Res (Gx × List Bool)
  | [] => .ok (g, [])
  | x :: l => do
    let (g, b) ← dataWriteMap g x.1 x.2
    let (g, bs) ← writesMap g l
    pure (g, b :: bs)

/-- gdxDataWriteStr for each record of a list: what the calls say -/
def writesStr (g : Gx) : List (List Str × List Dbl) → Res (Gx × List Bool)
  | [] => .ok (g, [])
  | x :: l => do
    let (g, b) ← dataWriteStr g x.1 x.2
    let (g, bs) ← writesStr g l
    pure (g, b :: bs)

/-- are all numbers of the user known? -/
def Known (f : Int → Int) (x : List Int × List Dbl) : Bool := decide (∀ k ∈ x.1, f k ≠ -1)

theorem Coll.writesMap {e : Env} {z : Cz} : ∀ (xs : List (List Int × List Dbl)) {g : Gx} {m : Nat} {d : SymDesc} {l : List Given} {u : Uel},
    Coll g m d l → MapMode g.mode → Fine g → TabFits g → g.uel = some u →
    (∀ x ∈ xs, x.1.length = g.nd ∧ (∀ k ∈ x.1, I32 k) ∧ x.2.length = g.dataSize) →
    ∃ g', Gdx.writesMap g xs = .ok (g', xs.map (Known u.usr.get)) ∧ MapMode g'.mode ∧ g'.uel = some u ∧
      RaisedBy g g' (((xs.filter fun x => !Known u.usr.get x)).map fun _ => Err.badElementIndex) ∧
      SortLog e z g ((xs.filter (Known u.usr.get)).map fun x => (x.1.map u.usr.get, x.2)) g' := by
  intro xs
  induction xs with
  | nil => intro g m d l u h hm hf ht hu hx; exact ⟨g, rfl, hm, hu, .refl g, .nil g⟩
  | cons x xs ih =>
    intro g m d l u h hm hf ht hu hx
    obtain ⟨hx1, hx2, hx3⟩ := hx x (by simp)
    obtain ⟨⟨g1, b⟩, h1⟩ := h.mapTotal hm hf.usr ht hx1 hx3
    obtain ⟨c1, c2, cr, v, c4, c5, c6⟩ := h.map hm hf.usr ht h1
    rw [hu] at c4
    cases c4
    have hb : b = Known u.usr.get x := by
      unfold Known
      by_cases hb : ∀ k ∈ x.1, u.usr.get k ≠ -1
      · rw [c5.mpr hb, decide_eq_true hb]
      · rw [decide_eq_false hb]
        cases b with
        | false => rfl
        | true => exact absurd (c5.mp rfl) hb
    have hf1 : Fine g1 := hf.step (e := e) (z := z) (c := .writeMap x.1 x.2) hx2 rfl (by show stateOf _ = _; rw [h1]; rfl)
    have hnd : g1.nd = g.nd ∧ g1.dataSize = g.dataSize := ⟨by unfold Gx.nd; rw [cr.dim], cr.size⟩
    obtain ⟨g', d1, d2, d3, d5, d6⟩ := ih c6 c1 hf1 (by intro w hw; exact ht w (c2 ▸ hw)) (c2.trans hu) (by
      intro y hy
      rw [hnd.1, hnd.2]
      exact hx y (by simp [hy]))
    refine ⟨g', ?_, d2, d3, ?_, ?_⟩
    · rw [Gdx.writesMap, h1]
      simp only [Res.bind_ok]
      rw [d1]
      simp only [Res.bind_ok, List.map_cons, hb]
      rfl
    · have := cr.trans d5
      rw [hb] at this
      cases hk : Known u.usr.get x <;> rw [hk] at this <;> simpa [List.filter_cons, hk] using this
    · have := SortLog.map hm hu hx2 h1 d6
      rw [hb] at this
      cases hk : Known u.usr.get x <;> rw [hk] at this <;> simpa [List.filter_cons, hk] using this

/-! ### strings -/

theorem canBeQuoted_lower : ∀ (s : Str) (a b : Bool), canBeQuotedLoop a b (s.map lower) = canBeQuotedLoop a b s
  | [], _, _ => rfl
  | c :: s, a, b => by
    have h : ∀ c : UInt8, (lower c = 39 ↔ c = 39) ∧ (lower c = 34 ↔ c = 34) ∧ (lower c < 32 ↔ c < 32) := by
      intro c
      have h0 := lower_toNat c
      rw [← UInt8.toNat_inj, ← UInt8.toNat_inj, ← UInt8.toNat_inj, ← UInt8.toNat_inj, UInt8.lt_iff_toNat_lt, UInt8.lt_iff_toNat_lt, h0]
      have e1 : (39 : UInt8).toNat = 39 := rfl
      have e2 : (34 : UInt8).toNat = 34 := rfl
      have e3 : (32 : UInt8).toNat = 32 := rfl
      rw [e1, e2, e3]
      split <;> omega
    rw [List.map_cons, canBeQuotedLoop, canBeQuotedLoop]
    simp only [h c, canBeQuoted_lower s]

/-- legal strings are so in every capitalisation -/
theorem goodUEL_nocase {a b : Str} (h : SameNoCase a b) : goodUEL a = goodUEL b := by
  unfold goodUEL canBeQuoted
  unfold SameNoCase at h
  rw [← canBeQuoted_lower a, ← canBeQuoted_lower b, h, show a.length = b.length by simpa using congrArg List.length h]

theorem ElemIs.str {u : Uel} {k : Str} {n : Int} (h : ElemIs u k n) : ∃ x, u.strs[(n - 1).toNat]? = some x ∧ SameNoCase x (trimRight k) := by
  obtain ⟨h1, h2, h3⟩ := h
  unfold Uel.indexOf at h1
  rcases indexOf1_cases false (trimRight k) u.strs with ⟨_, e⟩ | ⟨j, e1, e2⟩
  · omega
  · obtain ⟨x, e3, e4⟩ := lookup_some e1
    refine ⟨x, ?_, by simpa [SameName] using e4⟩
    rw [show (n - 1).toNat = j by omega]
    exact e3

theorem ElemIs.good {u : Uel} {k : Str} {n : Int} (hg : UelGood u) (h : ElemIs u k n) : goodUEL (trimRight k) = true := by
  obtain ⟨x, h1, h2⟩ := h.str
  rw [← goodUEL_nocase h2]
  exact (hg.good x (List.mem_of_getElem? h1)).1

theorem ElemIs.keep {u u' : Uel} {k : Str} {n : Int} (hg : UelGood u') (hk : KeepStrs u u') (h : ElemIs u k n) : ElemIs u' k n := by
  obtain ⟨h1, h2, h3⟩ := h
  exact ⟨by rw [indexOf_keep hg hk (by omega)]; exact h1, h2, by have := hk.length; omega⟩

/-- are all strings legal? -/
def Legal (x : List Str × List Dbl) : Bool := x.1.all fun k => goodUEL (trimRight k)

/-- the record with the elements' numbers -/
def Meets (u : Uel) (x : List Str × List Dbl) (y : Given) : Prop := List.Forall₂ (ElemIs u) x.1 y.1 ∧ x.2 = y.2

/-- the number of strings in the records -/
def strCount (xs : List (List Str × List Dbl)) : Nat := (xs.map fun x => x.1.length).sum

theorem dataWriteStr_grow {g g' : Gx} {key : List Str} {vals : List Dbl} {b : Bool} {u u' : Uel} (hm : StrMode g.mode) (hu : g.uel = some u)
    (h : dataWriteStr g key vals = .ok (g', b)) (hu' : g'.uel = some u') : u'.ents.length ≤ u.ents.length + key.length := by
  rw [dataWriteStr_eq hm] at h
  unfold dataWriteStr at h
  rw [if_neg (by show ¬ (Mode.wStr = Mode.wDomStr); decide)] at h
  rcases chk_cases ({ g with mode := .wStr } : Gx) [.wStr] with ⟨_, hc⟩ | ⟨hc, _⟩
  swap
  · exact absurd (List.mem_singleton.mpr rfl) hc
  simp only [hc, Bool.true_eq_false, if_false] at h
  split at h
  · cases h
  obtain ⟨v, h1, h⟩ := Res.bind_eq_ok.mp h
  have h1 : g.uel = some v := need_ok h1
  rw [hu] at h1
  cases h1
  obtain ⟨⟨v', ps, ok⟩, h2, h⟩ := Res.bind_eq_ok.mp h
  have hl := strKey_grow h2
  dsimp only at h
  cases ok with
  | false =>
    simp only [if_true] at h
    cases h
    cases hu'
    exact hl
  | true =>
    simp only [Bool.true_eq_false, if_false] at h
    obtain ⟨g2, h3, h⟩ := Res.bind_eq_ok.mp h
    cases h
    obtain ⟨_, _, _, _, s, _, _, rfl⟩ := sortAdd_ok h3
    cases hu'
    exact hl

theorem Coll.writesStr {e : Env} {z : Cz} : ∀ (xs : List (List Str × List Dbl)) {g : Gx} {m : Nat} {d : SymDesc} {l : List Given} {u : Uel},
    Coll g m d l → StrOk g → StrMode g.mode → Fine g → g.uel = some u → ((u.ents.length + strCount xs : Nat) : Int) ≤ 2147483391 →
    (∀ x ∈ xs, x.1.length = g.nd ∧ (∀ k ∈ x.1, ZFree k ∧ ∃ t, trimR k = .ok t) ∧ x.2.length = g.dataSize) →
    ∃ g' u' its, Gdx.writesStr g xs = .ok (g', xs.map Legal) ∧ StrMode g'.mode ∧ g'.uel = some u' ∧ KeepStrs u u' ∧
      u'.ents.length ≤ u.ents.length + strCount xs ∧
      RaisedBy g g' (((xs.filter fun x => !Legal x)).map fun _ => Err.badUelStr) ∧
      List.Forall₂ (Meets u') (xs.filter Legal) its ∧ SortLog e z g its g' := by
  intro xs
  induction xs with
  | nil =>
    intro g m d l u h hp hm hf hu ht hx
    exact ⟨g, u, [], rfl, hm, hu, ⟨[], by simp⟩, by simp [strCount], .refl g, .nil, .nil g⟩
  | cons x xs ih =>
    intro g m d l u h hp hm hf hu ht hx
    obtain ⟨hx1, hx2, hx3⟩ := hx x (by simp)
    have hsc : strCount (x :: xs) = x.1.length + strCount xs := by simp [strCount]
    rw [hsc] at ht
    obtain ⟨⟨g1, b⟩, h1⟩ := h.strTotal hp hm hf.inv.els (by
      intro v hv
      rw [hu] at hv
      cases hv
      omega) hx1 (fun k hk => (hx2 k hk).2) hx3
    have hw : ∀ k ∈ x.1, ZFree k := fun k hk => (hx2 k hk).1
    have hf1 : Fine g1 := hf.step (e := e) (z := z) (c := .writeStr x.1 x.2) hw rfl (by show stateOf _ = _; rw [h1]; rfl)
    have hgrow : ∀ u', g1.uel = some u' → u'.ents.length ≤ u.ents.length + x.1.length := by
      intro u' hu'
      exact dataWriteStr_grow hm hu h1 hu'
    obtain ⟨c1, c2, cr, v, u1, c4, c5, c6, c7⟩ := h.str hp hm hf.inv.els (by
      intro v hv
      have := hgrow v hv
      omega) h1
    rw [hu] at c4
    cases c4
    have hgr := hgrow u1 c5
    have hcase : b = Legal x ∧ ∃ l' ks, Coll g1 m d l' ∧ (b = true → List.Forall₂ (ElemIs u1) x.1 ks) := by
      cases b with
      | true =>
        obtain ⟨ks, k1, k2⟩ := c7
        refine ⟨?_, _, ks, k2, fun _ => k1⟩
        symm
        unfold Legal
        rw [List.all_eq_true]
        intro k hk
        obtain ⟨i, hi, rfl⟩ := List.mem_iff_getElem.mp hk
        have := (List.forall₂_iff_get.mp k1).2 i hi (by rw [← (List.forall₂_iff_get.mp k1).1]; exact hi)
        exact this.good (hf1.inv.els u1 c5)
      | false =>
        obtain ⟨k1, k, k2, k3, k4⟩ := c7
        refine ⟨?_, _, [], k1, by simp⟩
        symm
        unfold Legal
        rw [List.all_eq_false]
        exact ⟨k, k2, by rw [k4]; simp⟩
    obtain ⟨hb, l', ks, hco, hks⟩ := hcase
    have hnd : g1.nd = g.nd ∧ g1.dataSize = g.dataSize := ⟨by unfold Gx.nd; rw [cr.dim], cr.size⟩
    obtain ⟨g', u', its, d1, d2, d3, d4, d5, d6, d7, d8⟩ := ih hco c2 c1 hf1 c5 (by omega) (by
      intro y hy
      rw [hnd.1, hnd.2]
      exact hx y (by simp [hy]))
    have hf2 : Fine g' := d8.fine hf1
    refine ⟨g', u', (if b then [(ks, x.2)] else []) ++ its, ?_, d2, d3, c6.trans d4, by omega, ?_, ?_, ?_⟩
    · rw [Gdx.writesStr, h1]
      simp only [Res.bind_ok]
      rw [d1]
      simp only [Res.bind_ok, List.map_cons, hb]
      rfl
    · have := cr.trans d6
      rw [hb] at this
      cases hk : Legal x <;> rw [hk] at this <;> simpa [List.filter_cons, hk] using this
    · cases hk : Legal x with
      | false =>
        rw [hb, hk]
        simpa [List.filter_cons, hk] using d7
      | true =>
        rw [hb, hk]
        simp only [List.filter_cons, hk, if_true, List.cons_append, List.nil_append]
        refine .cons ⟨?_, rfl⟩ d7
        exact (hks (hb.trans hk)).imp fun _ _ hh => hh.keep (hf2.inv.els u' d3) d4
    · exact SortLog.str hm hw h1 c5 hks d8

end Gdx
