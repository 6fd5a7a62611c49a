import Verif.Proofs.MergeNames

/-!
`gdxdiff`: writing a symbol of the difference file, in the string mode.
-/

namespace Gdx.Diff
open Gdx Gdx.Spec Gdx.Props
open Gdx.Merge (Out namesOf textsOf Label GoodLabel)

/-! ### the labels that a record adds -/

theorem strPos_new {u u1 : Uel} {p p1 : StrPos} {t : Str} (hs : strPos u p t = some (u1, p1)) : ∀ x ∈ u1.strs, x ∈ u.strs ∨ x = t := by
  unfold strPos at hs
  split at hs
  · cases hs
    exact fun x hx => Or.inl hx
  · dsimp only at hs
    split at hs
    · rename_i hi
      split at hs
      · rw [(addObject_new hi).1] at hs
        cases hs
        intro x hx
        unfold Uel.strs at hx ⊢
        rw [List.map_append] at hx
        rcases List.mem_append.mp hx with hx | hx
        · exact Or.inl hx
        · exact Or.inr (by simpa using hx)
      · cases hs
    · cases hs
      exact fun x hx => Or.inl hx

theorem strKey_new : ∀ {ps : List StrPos} {ks : List Str} {u u' : Uel} {ps' : List StrPos} {ok : Bool}, strKey u ps ks = .ok (u', ps', ok) →
    ∀ x ∈ u'.strs, x ∈ u.strs ∨ ∃ k ∈ ks, trimR k = .ok x := by
  intro ps
  induction ps with
  | nil =>
    intro ks u u' ps' ok h
    have : strKey u [] ks = .ok (u, [], true) := by cases ks <;> rfl
    rw [this] at h
    cases h
    exact fun x hx => Or.inl hx
  | cons p ps ih =>
    intro ks u u' ps' ok h
    cases ks with
    | nil => cases h; exact fun x hx => Or.inl hx
    | cons k ks =>
      rw [strKey] at h
      obtain ⟨t, ht, h⟩ := Res.bind_eq_ok.mp h
      cases hs : strPos u p t with
      | none =>
        rw [hs] at h
        cases h
        exact fun x hx => Or.inl hx
      | some r =>
        obtain ⟨u1, p1⟩ := r
        rw [hs] at h
        dsimp only at h
        obtain ⟨⟨u2, ps2, ok2⟩, h2, h⟩ := Res.bind_eq_ok.mp h
        cases h
        intro x hx
        rcases ih h2 x hx with h3 | ⟨k', h3, h4⟩
        · rcases strPos_new hs x h3 with h5 | rfl
          · exact Or.inl h5
          · exact Or.inr ⟨k, by simp, ht⟩
        · exact Or.inr ⟨k', by simp [h3], h4⟩

/-- the labels that a record of strings adds to the table are among its strings; the acronyms stay -/
theorem dataWriteStr_new {g g' : Gx} {key : List Str} {vals : List Dbl} {b : Bool} {u u' : Uel} (hm : StrMode g.mode) (hu : g.uel = some u)
    (h : dataWriteStr g key vals = .ok (g', b)) (hu' : g'.uel = some u') :
    (∀ x ∈ u'.strs, x ∈ u.strs ∨ ∃ k ∈ key, trimR k = .ok x) ∧ g'.acros = g.acros := by
  rw [dataWriteStr_eq hm] at h
  unfold dataWriteStr at h
  rw [if_neg (by show ¬ (Mode.wStr = Mode.wDomStr); decide)] at h
  rcases chk_cases ({ g with mode := .wStr } : Gx) [.wStr] with ⟨_, hc⟩ | ⟨hc, _⟩
  swap
  · exact absurd (List.mem_singleton.mpr rfl) hc
  simp only [hc, Bool.true_eq_false, if_false] at h
  split at h
  · cases h
  obtain ⟨v, h1, h⟩ := Res.bind_eq_ok.mp h
  have h1 : g.uel = some v := need_ok h1
  rw [hu] at h1
  cases h1
  obtain ⟨⟨v', ps, ok⟩, h2, h⟩ := Res.bind_eq_ok.mp h
  have hl := strKey_new h2
  dsimp only at h
  cases ok with
  | false =>
    simp only [if_true] at h
    cases h
    cases hu'
    exact ⟨hl, rfl⟩
  | true =>
    simp only [Bool.true_eq_false, if_false] at h
    obtain ⟨g2, h3, h⟩ := Res.bind_eq_ok.mp h
    cases h
    obtain ⟨_, _, _, _, s, _, _, rfl⟩ := sortAdd_ok h3
    cases hu'
    exact ⟨hl, rfl⟩

/-! ### acronyms when a symbol is finished -/

/-- only acronyms without name are added -/
def Unnamed (g g' : Gx) : Prop := ∀ l, g.acros = some l → ∃ l', g'.acros = some l' ∧ ∀ a ∈ l', a ∈ l ∨ a.name = []

theorem Unnamed.of_eq {g g' : Gx} (h : g'.acros = g.acros) : Unnamed g g' := fun l hl => ⟨l, h.trans hl, fun _ h => Or.inl h⟩

theorem Unnamed.trans {a b c : Gx} (h : Unnamed a b) (k : Unnamed b c) : Unnamed a c := by
  intro l hl
  obtain ⟨l1, h1, h2⟩ := h l hl
  obtain ⟨l2, h3, h4⟩ := k l1 h1
  refine ⟨l2, h3, fun a ha => ?_⟩
  rcases h4 a ha with h5 | h5
  · exact h2 a h5
  · exact Or.inr h5

theorem doWrite_unnamed {g g' : Gx} {k : List Int} {v : List Dbl} {b : Bool} (h : doWrite g k v = .ok (g', b)) : Unnamed g g' := by
  obtain ⟨_, _, _, syms, bad, _, _, hh⟩ := doWrite_cases h
  rcases hh with ⟨_, rfl, rfl⟩ | ⟨_, o, _, ⟨_, rfl, rfl⟩ | ⟨_, rfl, rfl⟩ | ⟨bs, l, _, ha⟩⟩
  · obtain ⟨l, hl⟩ := addErrDom_same (g.raise Err.domainViolation) (List.zipWith (fun b k => if b then -k else k) bad k) v
    rw [hl]; exact .of_eq rfl
  · obtain ⟨l, hl⟩ := addErr_same (g.raise Err.dataDuplicate) k v
    rw [hl]; exact .of_eq rfl
  · obtain ⟨l, hl⟩ := addErr_same (g.raise Err.rawNotSorted) k v
    rw [hl]; exact .of_eq rfl
  · obtain ⟨rfl, _⟩ := acceptRec_cases ha
    exact (Merge.doWrite_tabs h).1.acros

theorem doWrites_unnamed : ∀ (rs : List (LItem (List Dbl))) {g g' : Gx}, doWrites g rs = .ok g' → Unnamed g g' ∧ g'.sv = g.sv
  | [], g, g', h => by cases h; exact ⟨.of_eq rfl, rfl⟩
  | r :: rs, g, g', h => by
    unfold doWrites at h
    obtain ⟨⟨g1, b⟩, h1, h⟩ := Res.bind_eq_ok.mp h
    have k := doWrites_unnamed rs h
    exact ⟨(doWrite_unnamed h1).trans k.1, k.2.trans (doWrite_sv h1)⟩

theorem finishBlock_unnamed {z : Cz} {g g' : Gx} (h : finishBlock z g = .ok g') : g'.acros = g.acros ∧ g'.sv = g.sv := by
  unfold finishBlock at h
  obtain ⟨s, _, h⟩ := Res.bind_eq_ok.mp h
  split at h
  · cases h
  obtain ⟨g5, h5, h⟩ := Res.bind_eq_ok.mp h
  cases h
  unfold Gx.modCur at h5
  split at h5
  · split at h5
    · cases h5
      exact ⟨rfl, rfl⟩
    · cases h5
  · cases h5

theorem dataWriteDone_unnamed {z : Cz} {g g' : Gx} {b : Bool} (h : dataWriteDone z g = .ok (g', b)) : Unnamed g g' ∧ g'.sv = g.sv := by
  unfold dataWriteDone at h
  rcases chk_cases g [.wRaw, .wMap, .wStr, .wDomRaw, .wDomMap, .wDomStr] with ⟨_, hc⟩ | ⟨_, hc⟩
  · simp only [hc, Bool.true_eq_false, if_false] at h
    split at h
    · obtain ⟨g4, h4, h⟩ := Res.bind_eq_ok.mp h
      cases h
      exact ⟨.of_eq (finishBlock_unnamed h4).1, (finishBlock_unnamed h4).2⟩
    · obtain ⟨s, _, h⟩ := Res.bind_eq_ok.mp h
      obtain ⟨g1, h1, h⟩ := Res.bind_eq_ok.mp h
      obtain ⟨rs, _, h⟩ := Res.bind_eq_ok.mp h
      obtain ⟨g2, h2, h⟩ := Res.bind_eq_ok.mp h
      obtain ⟨g3, h3, h⟩ := Res.bind_eq_ok.mp h
      cases h
      obtain ⟨_, _, _, m', syms', s', _, e2, e3, rfl⟩ := initDoWrite_ok h1
      have a := doWrites_unnamed rs h2
      have b := finishBlock_unnamed h3
      exact ⟨(show Unnamed g _ from a.1).trans (.of_eq b.1), b.2.trans a.2⟩
  · rw [hc] at h
    simp only [if_true] at h
    cases h
    exact ⟨.of_eq rfl, rfl⟩

/-! ### a symbol of strings -/

/-- the state while the records `its` of a symbol that was begun with `g1` are written, with labels out of `A` -/
structure Rows (e : Env) (z : Cz) (A : List Str) (g1 : Gx) (m : Nat) (d : SymDesc) (its : List Given) (u : Uel) (T : List Str) (g : Gx) : Prop where
  log : SortLog e z g1 its g
  coll : Gdx.Coll g m d its
  str : StrOk g
  mode : StrMode g.mode
  fine : Fine g
  uel : g.uel = some u
  texts : textsOf g = some T
  sv : g.sv = g1.sv
  bits : g.wrBits = g1.wrBits
  nd : g.nd = g1.nd
  size : g.dataSize = g1.dataSize
  names : namesOf g = namesOf g1
  acros : g.acros = g1.acros
  sub : ∀ s ∈ u.strs, s ∈ A

theorem Rows.few {e : Env} {z : Cz} {A : List Str} {g1 g : Gx} {m : Nat} {d : SymDesc} {its : List Given} {u : Uel} {T : List Str}
    (h : Rows e z A g1 m d its u T g) : u.ents.length ≤ A.length := by
  have hn : u.strs.Nodup := (h.fine.inv.els u h.uel).distinct.imp fun {a b} hab he => hab (by subst he; rfl)
  have := (hn.subperm h.sub).length_le
  simpa [Uel.strs] using this

/-- a text -/
theorem Rows.text {e : Env} {z : Cz} {A : List Str} {g1 g : Gx} {m : Nat} {d : SymDesc} {its : List Given} {u : Uel} {T : List Str}
    (h : Rows e z A g1 m d its u T g) (hA : (A.length : Int) ≤ 2147483000) {t : Str} (ht : ZFree t) :
    ∃ (g' : Gx) (T' : List Str) (n : Nat), addSetText g t = (g', (true, (n : Int))) ∧ Rows e z A g1 m d its u T' g' ∧ T <+: T' ∧
      T'[n]? = some (makeGoodExplText (t.take 255)) := by
  obtain ⟨g2, T2, j, x, a1, a2, a3, a4, a5⟩ := Merge.addSetText_tabs h.texts t
  have hlog : SortLog e z g [] g2 := by
    refine .other (c := .addSetText t) (Or.inl rfl) ht (Or.inr (by simp)) ?_ (.nil _)
    show Res.ok (addSetText g t).1 = _
    rw [a1]
  have hlen := h.few
  have hfit : TabFits g2 := by
    intro v hv
    rw [a2] at hv
    have hv : g.uel = some v := hv
    rw [h.uel] at hv
    cases hv
    omega
  have hm2 : StrMode g2.mode := by rw [a2]; exact h.mode
  have hf2 := hlog.fine h.fine
  have hc2 := h.coll.log hlog (Or.inr h.mode) (fun _ => h.str) h.fine hfit (Or.inr hm2)
  rw [List.append_nil] at hc2
  have hu2 : g2.uel = some u := by rw [a2]; exact h.uel
  have hs2 : StrOk g2 := h.str.congr (by rw [a2]) (by rw [a2]) (by rw [a2]) (by rw [a2]; rfl) hf2.inv.els (by
    intro u' hu'
    rw [hu2] at hu'
    cases hu'
    exact ⟨u, h.uel, [], by simp⟩)
  refine ⟨g2, T2, j, a1, ⟨?_, hc2, hs2, hm2, hf2, hu2, a3, ?_, ?_, ?_, ?_, ?_, ?_, h.sub⟩, a4, a5⟩
  · have := h.log.append hlog
    rwa [List.append_nil] at this
  · rw [a2]; exact h.sv
  · rw [a2]; exact h.bits
  · rw [a2]; exact h.nd
  · rw [a2]; exact h.size
  · rw [a2]; exact h.names
  · rw [a2]; exact h.acros

/-- a record -/
theorem Rows.row {e : Env} {z : Cz} {A : List Str} {g1 g : Gx} {m : Nat} {d : SymDesc} {its : List Given} {u : Uel} {T : List Str}
    (h : Rows e z A g1 m d its u T g) (hA : (A.length : Int) ≤ 2147483000) {key : List Str} {vals : List Dbl} (hk : ∀ k ∈ key, GoodLabel k ∧ k ∈ A)
    (hl : key.length = g1.nd) (hd : g1.nd ≤ 20) (hv : vals.length = g1.dataSize) :
    ∃ g' u' y, dataWriteStr g key vals = .ok (g', true) ∧ Rows e z A g1 m d (its ++ [y]) u' T g' ∧ u.strs <+: u'.strs ∧
      List.Forall₂ (Label u'.strs) y.1 key ∧ y.2 = vals := by
  have hlen := h.few
  have hbnd : ∀ v, g.uel = some v → ((v.ents.length + key.length : Nat) : Int) ≤ 2147483391 := by
    intro v hv
    rw [h.uel] at hv
    cases hv
    push_cast
    omega
  obtain ⟨⟨g', b⟩, h1⟩ := h.coll.strTotal (key := key) (vals := vals) h.str h.mode h.fine.inv.els hbnd (hl.trans h.nd.symm)
    (fun k hk' => trimR_short (by have := goodUEL_len (hk k hk').1.1; omega)) (hv.trans h.size.symm)
  have hz : ∀ k ∈ key, ZFree k := fun k hk' => goodUEL_zfree (hk k hk').1.1
  have hf3 : Fine g' := h.fine.step (e := e) (z := z) (c := .writeStr key vals) hz rfl (by show stateOf _ = _; rw [h1]; rfl)
  have hgrow : ∀ u', g'.uel = some u' → u'.ents.length ≤ u.ents.length + key.length := fun u' hu' => dataWriteStr_grow h.mode h.uel h1 hu'
  obtain ⟨c1, c2, cr, v, u', c4, c5, c6, c7⟩ := h.coll.str h.str h.mode h.fine.inv.els (by
    intro v hv
    have := hgrow v hv
    have := hbnd u h.uel
    push_cast at this
    omega) h1
  rw [h.uel] at c4
  cases c4
  obtain ⟨n1, n2⟩ := dataWriteStr_new h.mode h.uel h1 c5
  cases b with
  | false =>
    exfalso
    obtain ⟨_, k, k2, _, k4⟩ := c7
    rw [(hk k k2).1.2, (hk k k2).1.1] at k4
    cases k4
  | true =>
    obtain ⟨ks, k1, k2⟩ := c7
    refine ⟨g', u', (ks, vals), h1, ⟨?_, k2, c2, c1, hf3, c5, ?_, cr.sv.trans h.sv, cr.bits.trans h.bits, ?_, cr.size.trans h.size, ?_, n2.trans h.acros, ?_⟩, ?_, ?_, rfl⟩
    · refine h.log.append ?_
      have h0 : SortLog e z g ((if true then [(ks, vals)] else []) ++ []) g' := .str h.mode hz h1 c5 (fun _ => k1) (.nil _)
      simpa using h0
    · have := h.texts
      unfold textsOf at this ⊢
      rw [Merge.dataWriteStr_texts h.mode h1]
      exact this
    · unfold Gx.nd
      rw [cr.dim]
      exact h.nd
    · unfold namesOf
      rw [cr.names]
      exact h.names
    · intro x hx
      rcases n1 x hx with h5 | ⟨k, h5, h6⟩
      · exact h.sub x h5
      · have := trimR_ok h6
        rw [(hk k h5).1.2] at this
        rw [this]
        exact (hk k h5).2
    · obtain ⟨t, ht⟩ := c6
      exact ⟨t, ht.symm⟩
    · show List.Forall₂ (Label u'.strs) ks key
      have hk' : ∀ k ∈ key, trimRight k = k := fun k h5 => (hk k h5).1.2
      clear hz hl hk h1 hbnd hgrow n1 c6 k2
      induction k1 with
      | nil => exact .nil
      | cons k3 _ ih =>
        refine .cons ⟨k3.2.1, ?_⟩ (ih fun k h5 => hk' k (by simp [h5]))
        have := k3.str
        rwa [hk' _ (by simp)] at this

/-! ### a symbol from the start to the end -/

theorem strStart_acros {g g1 : Gx} {name text : Str} {dim typ ui : Int} (h : dataWriteStrStart g name text dim typ ui = .ok (g1, true)) : g1.acros = g.acros := by
  unfold dataWriteStrStart at h
  obtain ⟨⟨gp, b⟩, h1, h⟩ := Res.bind_eq_ok.mp h
  dsimp only at h
  cases b with
  | false => cases h
  | true =>
    simp only [Bool.true_eq_false, if_false] at h
    cases h
    rcases prepareWrite_cases h1 with ⟨hf, _⟩ | ⟨_, _, syms, sy, k1, k2, _, _, _, _, _, _, _, _, _, he⟩
    · cases hf
    subst he
    rfl

/-- what can be the head of a new symbol -/
structure HeadOk (N : List Str) (name text : Str) (dim typ ui : Int) : Prop where
  ident : Ident name
  new : ∀ t ∈ N, ¬ SameNoCase t name
  ztext : ZFree text
  dimOk : 0 ≤ dim ∧ dim ≤ 20
  typOk : 0 ≤ typ ∧ typ ≤ 3
  uiOk : I32 ui

theorem HeadOk.wf {N : List Str} {name text : Str} {dim typ ui : Int} (h : HeadOk N name text dim typ ui) : (Call.strStart name text dim typ ui).WF :=
  ⟨(ident_zfree ((C14_ident _).mpr h.ident)).1, h.ztext, by have := h.dimOk; unfold I32; omega, by have := h.typOk; unfold I32; omega, h.uiOk⟩

/-- the symbol is begun -/
theorem start_ok {e : Env} {z : Cz} (hz : z.Good) {A N T : List Str} {g : Gx} {u : Uel} (ho : Out e z N T g) (hu : g.uel = some u) (hs : ∀ s ∈ u.strs, s ∈ A)
    {name text : Str} {dim typ ui : Int} (h : HeadOk N name text dim typ ui) :
    ∃ g1, dataWriteStrStart g name text dim typ ui = .ok (g1, true) ∧ Rows e z A g1 N.length ⟨name, dim, typ.toNat, ui⟩ [] u T g1 ∧ g1.nd = dim.toNat ∧
      g1.dataSize = dataTypSize typ.toNat := by
  obtain ⟨acros, ha, hnl⟩ := ho.acr
  have hN' := ho.names
  unfold namesOf at hN'
  obtain ⟨syms, hs', rfl⟩ := Option.map_eq_some_iff.mp hN'
  rw [List.length_map]
  have hnew : NewName syms acros name := by
    refine ⟨h.ident, fun t ht => h.new _ (List.mem_map.mpr ⟨t, ht, rfl⟩), fun a hal => ?_⟩
    rw [hnl a hal]
    exact Merge.not_same_nil h.ident
  have f0 := ho.aft.fine hz
  have hst := f0.stat ho.mode
  have hnw : 0 ≤ g.nextWrite := by have := (f0.inv.head hst).next; omega
  cases h1 : dataWriteStrStart g name text dim typ ui with
  | ub => exact absurd h1 (C14_defined g syms acros ho.mode hs' ha hnw name text dim typ ui).2.2.1
  | ok r =>
    obtain ⟨g1, b⟩ := r
    have hb1 := (C14_accept dataWriteStrStart (Or.inr (Or.inr (Or.inl rfl))) g g1 syms acros ho.mode hs' ha name text dim typ ui b h1).1.mpr
      ⟨hnew, h.dimOk, h.typOk⟩
    subst hb1
    obtain ⟨_, hm1, syms', e1, hc1, hO, hp1⟩ := Coll.strStart h1 (fine_names f0)
    rw [hs'] at e1
    cases e1
    have f1 : Fine g1 := f0.step (e := e) (z := z) (c := .strStart name text dim typ ui) h.wf rfl (by show stateOf _ = _; rw [h1]; rfl)
    have hT1 : textsOf g1 = some T := by
      have := ho.texts
      unfold textsOf at this ⊢
      rw [(Merge.strStart_texts h1).1]
      exact this
    exact ⟨g1, rfl, ⟨.nil _, hc1, hp1, hm1, f1, hO.uel.trans hu, hT1, rfl, rfl, rfl, rfl, rfl, rfl, hs⟩, by unfold Gx.nd; rw [hO.dim], hO.size⟩

/-- the symbol is finished -/
theorem finish_ok {e : Env} {z : Cz} (hz : z.Good) {A N T0 T : List Str} {g0 g1 g : Gx} {u : Uel} (ho : Out e z N T0 g0) (hA : (A.length : Int) ≤ 2147483000)
    {name text : Str} {dim typ ui : Int} (h : HeadOk N name text dim typ ui) (h1 : dataWriteStrStart g0 name text dim typ ui = .ok (g1, true))
    {its : List Given} (hr : Rows e z A g1 N.length ⟨name, dim, typ.toNat, ui⟩ its u T g) (hT : T0 <+: T) (hl : (its.length : Int) ≤ intMax)
    (hd : (its.map Prod.fst).Nodup) :
    ∃ g3 ys, dataWriteDone z g = .ok (g3, true) ∧ Out e z (N ++ [name]) T g3 ∧ g3.uel = some u ∧ StaysIn e z g0 g3 ∧ its.Perm ys ∧
      Written e z name dim typ ui N.length (ys.map (entryOf SVTab.default)) g3 ∧ Merge.Explained g3 N.length (makeGoodExplText (assignExpl text)) := by
  have hN' := ho.names
  unfold namesOf at hN'
  obtain ⟨syms, hs', rfl⟩ := Option.map_eq_some_iff.mp hN'
  rw [List.length_map] at hr ⊢
  have f0 := ho.aft.fine hz
  obtain ⟨_, hm1, syms', e1, hc1, hO, hp1⟩ := Coll.strStart h1 (fine_names f0)
  have ht2 : TabFits g := by
    intro v hv
    rw [hr.uel] at hv
    cases hv
    have := hr.few
    omega
  obtain ⟨ss, g3, l, q1, q2, q3, q4, _⟩ := finishSorted hz ho.aft hs' h.wf (Or.inr h1) hr.log (Or.inr hr.mode) ht2 hl
    (DomsFix.none (by
      intro w hw
      rw [hr.bits, hO.new.bits] at hw
      exact List.eq_of_mem_replicate hw)) hr.coll hr.fine
  have hperm : its.Perm ss := q1.perm.symm
  have hnd : (ss.map Prod.fst).Nodup := (hperm.map _).nodup_iff.mp hd
  have hstr := Merge.strict_of q1.sorted hnd
  rw [(storedOf_sorted ss none (by simp) hstr).1, hr.sv, hO.sv, ho.sv] at q4
  obtain ⟨d1, d2, d3⟩ := Merge.dataWriteDone_uel q2
  obtain ⟨d4, d5⟩ := dataWriteDone_unnamed q2
  have hin0 : StaysIn e z g0 g1 := .one (c := .strStart name text dim typ ui) h.wf rfl (by show stateOf _ = _; rw [h1]; rfl)
  have hin1 : StaysIn e z g1 g3 := (StaysIn.sortLog hr.log).trans (.one (c := .writeDone) trivial rfl (by show stateOf _ = _; rw [q2]; rfl))
  have hin : StaysIn e z g0 g3 := hin0.trans hin1
  have hn3 : namesOf g3 = some (syms.map Sym.name ++ [name]) := by
    rw [d3, hr.names, (Merge.strStart_texts h1).2, ho.names]
    rfl
  refine ⟨g3, ss, q2, ⟨ho.aft.more hin, q3, hn3, ?_, ?_, ?_, ?_⟩, d1.trans hr.uel, hin, hperm, q4, ?_⟩
  · obtain ⟨acros, ha, hnl⟩ := ho.acr
    obtain ⟨l', k1, k2⟩ := d4 acros (by rw [hr.acros, strStart_acros h1]; exact ha)
    refine ⟨l', k1, fun a hal => ?_⟩
    rcases k2 a hal with k3 | k3
    · exact hnl a k3
    · exact k3
  · have := hr.texts
    unfold textsOf at this ⊢
    rw [d2]
    exact this
  · obtain ⟨q, rfl⟩ := hT
    rw [List.getElem?_append_left (List.getElem?_eq_some_iff.mp ho.fst).1]
    exact ho.fst
  · rw [d5, hr.sv, hO.sv, ho.sv]
  · unfold namesOf at hn3
    obtain ⟨l3, hl3, _⟩ := Option.map_eq_some_iff.mp hn3
    exact (Merge.strStart_expl h1 hs').stays hz (ho.aft.more hin0) hin1 hl3

/-- gdxGetLastError changes nothing that matters -/
theorem Rows.last {e : Env} {z : Cz} {A : List Str} {g1 g : Gx} {m : Nat} {d : SymDesc} {its : List Given} {u : Uel} {T : List Str}
    (h : Rows e z A g1 m d its u T g) (hA : (A.length : Int) ≤ 2147483000) : Rows e z A g1 m d its u T (getLastError g).1 := by
  have hlog : SortLog e z g [] (getLastError g).1 := .other (c := .getLastError) (Or.inl rfl) trivial (Or.inr (by simp)) rfl (.nil _)
  have hlen := h.few
  have hfit : TabFits (getLastError g).1 := by
    intro v hv
    have hv : g.uel = some v := hv
    rw [h.uel] at hv
    cases hv
    omega
  have hf2 := hlog.fine h.fine
  have hc2 := h.coll.log hlog (Or.inr h.mode) (fun _ => h.str) h.fine hfit (Or.inr h.mode)
  rw [List.append_nil] at hc2
  refine ⟨?_, hc2, ?_, h.mode, hf2, h.uel, h.texts, h.sv, h.bits, h.nd, h.size, h.names, h.acros, h.sub⟩
  · have := h.log.append hlog
    rwa [List.append_nil] at this
  · exact h.str.congr rfl rfl rfl rfl hf2.inv.els (by
      intro u' hu'
      exact ⟨u', hu', [], by simp⟩)

theorem _root_.Gdx.Merge.Out.last {e : Env} {z : Cz} {N T : List Str} {g : Gx} (h : Out e z N T g) : Out e z N T (getLastError g).1 :=
  ⟨h.aft.more (.one (c := .getLastError) trivial rfl rfl), h.mode, h.names, h.acr, h.texts, h.fst, h.sv⟩

/-! ### the labels of the difference file -/

/-- the difference file between two symbols: `N` its symbols, `L` its labels, all out of `A`, `T` its texts -/
structure Ground (e : Env) (z : Cz) (A N L T : List Str) (x : Objs) : Prop where
  out : Out e z N T x.gd
  uels : x.uels = A
  tab : ∃ u, x.gd.uel = some u ∧ u.strs = L ∧ (x.reg = false → Merge.Numbered u)
  sub : ∀ s ∈ L, s ∈ A

theorem regAll_ok (e : Env) (z : Cz) {A : List Str} {b : Gx} (hm : b.mode = .strElem) (hA : (A.length : Int) ≤ 2147483000) : ∀ (ss : List Str) {u : Uel},
    Merge.Labels A u → (∀ s ∈ ss, GoodLabel s ∧ s ∈ A) →
    ∃ u', regAll { b with uel := some u } ss = .ok { b with uel := some u' } ∧ Merge.Labels A u' ∧ u.strs <+: u'.strs ∧
      StaysIn e z { b with uel := some u } { b with uel := some u' }
  | [], u, h, _ => ⟨u, rfl, h, List.prefix_refl _, .refl _⟩
  | s :: ss, u, h, hs => by
    obtain ⟨h1, h2⟩ := hs s (by simp)
    obtain ⟨u1, n, a1, a2, a3, a4, a5⟩ := Merge.register (g := { b with uel := some u }) hm rfl h.num h1.1 h1.2 (by have := h.size; omega)
    obtain ⟨u2, b1, b2, b3, b4⟩ := regAll_ok e z hm hA ss (u := u1) ⟨a2, fun x hx => by
      rcases a4 x hx with h3 | rfl
      · exact h.sub x h3
      · exact h2⟩ fun x hx => hs x (by simp [hx])
    refine ⟨u2, ?_, b2, a3.trans b3, (StaysIn.one (c := .uelStr s) (zfree_goodUEL h1.1) rfl ?_).trans b4⟩
    · unfold regAll
      rw [a1]
      exact b1
    · show stateOf (uelRegisterStr _ s) = _
      rw [a1]
      rfl

theorem registerDiff_ok (o : Opt) {e : Env} {z : Cz} {A N L T : List Str} {x : Objs} (h : Ground e z A N L T x) (hA : (A.length : Int) ≤ 2147483000)
    (hg : ∀ s ∈ A, GoodLabel s) :
    ∃ gd L', registerDiff o x = .ok { x with gd := gd, reg := true } ∧ Ground e z A N L' T { x with gd := gd, reg := true } ∧ L <+: L' ∧ StaysIn e z x.gd gd := by
  unfold registerDiff
  by_cases hr : x.reg = true
  · rw [if_pos hr]
    have hx : { x with gd := x.gd, reg := true } = x := by rw [← hr]
    exact ⟨x.gd, L, by rw [hx], by rw [hx]; exact h, List.prefix_refl _, .refl _⟩
  · rw [if_neg hr]
    have hr : x.reg = false := by simpa using hr
    obtain ⟨u, h1, rfl, h2⟩ := h.tab
    obtain ⟨g1, g2, m, us, st, reg⟩ := x
    dsimp only at h1 hr
    have hm : m.mode = .wInit := h.out.mode
    have hstart : uelRegisterStrStart m = ({ m with uel := some u, modeAft := .wInit, mode := .strElem }, true) := by
      unfold uelRegisterStrStart uelRegisterStart
      rcases chk_cases m [.rInit, .wInit] with ⟨_, hc⟩ | ⟨hc, _⟩
      · simp only [hc, if_true]
        rw [if_pos hm, ← h1]
      · exact absurd (by simp [hm]) hc
    have hdone : ∀ v, uelRegisterDone { m with uel := some v, modeAft := .wInit, mode := .strElem } = ({ m with uel := some v, modeAft := .wInit }, true) := by
      intro v
      unfold uelRegisterDone
      rcases chk_cases ({ m with uel := some v, modeAft := .wInit, mode := .strElem } : Gx) [.rawElem, .mapElem, .strElem] with ⟨_, hc⟩ | ⟨hc, _⟩
      · simp only [hc, if_true]
        have hm' := hm.symm
        cases m
        dsimp only at hm' ⊢
        subst hm'
        rfl
      · exact absurd (by simp) hc
    obtain ⟨u', r1, r2, r3, r4⟩ := regAll_ok e z (b := { m with modeAft := .wInit, mode := .strElem }) rfl hA
      (if o.ignoreOrder then us.take st else us) (u := u) ⟨h2 hr, h.sub⟩ (by
        have hus : us = A := h.uels
        intro s hs
        have : s ∈ us := by
          split at hs
          · exact List.mem_of_mem_take hs
          · exact hs
        rw [hus] at this
        exact ⟨hg s this, this⟩)
    have s1 : StaysIn e z m { m with uel := some u, modeAft := .wInit, mode := .strElem } :=
      .one (c := .uelStrStart) trivial rfl (by show Res.ok (uelRegisterStrStart _).1 = _; rw [hstart])
    have s2 : StaysIn e z { m with uel := some u', modeAft := .wInit, mode := .strElem } { m with uel := some u', modeAft := .wInit } :=
      .one (c := .uelDone) trivial rfl (by show Res.ok (uelRegisterDone _).1 = _; rw [hdone])
    have s3 : StaysIn e z { m with uel := some u', modeAft := .wInit } (getLastError { m with uel := some u', modeAft := .wInit }).1 :=
      .one (c := .getLastError) trivial rfl rfl
    have hin := s1.trans (r4.trans (s2.trans s3))
    refine ⟨(getLastError { m with uel := some u', modeAft := .wInit }).1, u'.strs, ?_, ⟨⟨h.out.aft.more hin, hm, h.out.names, h.out.acr, h.out.texts, h.out.fst, h.out.sv⟩,
      h.uels, ⟨u', rfl, rfl, fun hf => by cases hf⟩, r2.sub⟩, r3, hin⟩
    dsimp only
    rw [hstart]
    dsimp only at r1 ⊢
    rw [r1]
    simp only [Res.bind_ok, hdone, Res.pure_eq]

end Gdx.Diff
