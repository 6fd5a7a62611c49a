import Verif.Proofs.CollKey
import Verif.Proofs.Fine
import Verif.Proofs.RadixSort

/-!
Writing a symbol in the mapped and in the string mode: records are collected and written when the symbol is finished.
-/

namespace Gdx

open Spec

def MapMode (m : Mode) : Prop := m = .wMap ∨ m = .wDomMap
def StrMode (m : Mode) : Prop := m = .wStr ∨ m = .wDomStr
def SortMode (m : Mode) : Prop := MapMode m ∨ StrMode m

theorem SortMode.writing {m : Mode} (h : SortMode m) : Writing m := by
  rcases h with (rfl | rfl) | (rfl | rfl) <;> decide

/-! ### domains -/

/-- the domains that will be checked are bit maps of symbols -/
def DomsOk (g : Gx) : Prop :=
  ∀ d t : Nat, g.wrBits[d]? = some (some t) → 1 ≤ t ∧ ∃ syms s b, g.names = some syms ∧ syms[t - 1]? = some s ∧ s.bitmap = some b

theorem DomsOk.ses {g g' : Gx} (h : DomsOk g) (hs : Ses g g') : DomsOk g' := by
  intro d t hd
  rw [show g'.wrBits = g.wrBits from congrArg SesCore.wrBits hs.ses] at hd
  obtain ⟨h1, syms, s, b, h2, h3, h4⟩ := h d t hd
  obtain ⟨syms', f1, _, f3, _⟩ := hs.names syms h2
  obtain ⟨s', f4, f5⟩ := f3 _ _ h3
  exact ⟨h1, syms', s', b, f1, f4, by rw [f5.bits, h4]⟩

theorem domLoop_bits (syms : List Sym) (cur : Nat) (dim : Int) : ∀ (ss : List Str) (g : Gx) (d : Nat), g.names = some syms → DomsOk g →
    (domLoop syms cur dim g d ss).All fun r => DomsOk r.1
  | [], g, d, _, h => h
  | s :: ss, g, d, hn, h => by
    rw [domLoop]
    simp only
    generalize (if s = star then 0 else symIndex syms s) = n
    have hg1 : (if (decide (s ≠ star) && decide (n ≤ 0)) = true then g.raise Err.unknownDomain else g).names = some syms ∧
        DomsOk (if (decide (s ≠ star) && decide (n ≤ 0)) = true then g.raise Err.unknownDomain else g) := by
      split
      · exact ⟨hn, h⟩
      · exact ⟨hn, h⟩
    generalize (if (decide (s ≠ star) && decide (n ≤ 0)) = true then g.raise Err.unknownDomain else g) = g1 at hg1 ⊢
    obtain ⟨hn1, h1⟩ := hg1
    split
    · refine Res.All.bind (domLoop_bits syms cur dim ss g1 (d + 1) hn1 h1) ?_
      rintro ⟨g2, l, ok, st⟩ h2
      exact h2
    · refine Res.All.bind' ?_
      intro o ho
      cases o with
      | noData => exact h1
      | notSet =>
        refine Res.All.bind (domLoop_bits syms cur dim ss (g1.raise _) (d + 1) hn1 h1) ?_
        rintro ⟨g2, l, ok, st⟩ h2
        exact h2
      | «universe» =>
        refine Res.All.bind (domLoop_bits syms cur dim ss _ (d + 1) hn1 h1) ?_
        rintro ⟨g2, l, ok, st⟩ h2
        exact h2
      | set t =>
        simp only
        refine Res.All.bind' ?_
        intro ts hts
        refine Res.All.bind (domLoop_bits syms cur dim ss _ (d + 1) ?_ ?_) ?_
        · split <;> exact hn1
        · split
          · intro d' t' hd'
            have hd' : (g1.wrBits.set d (if ts.bitmap.isSome then some t.toNat else none))[d']? = some (some t') := hd'
            rw [List.getElem?_set] at hd'
            split at hd'
            · split at hd'
              · split at hd'
                · rename_i hb
                  cases hd'
                  obtain ⟨e1, e2, e3⟩ := at1_ok hts
                  obtain ⟨b, hb⟩ := Option.isSome_iff_exists.mp hb
                  refine ⟨by omega, syms, ts, b, hn1, ?_, hb⟩
                  rw [show t.toNat - 1 = (t - 1).toNat by omega]
                  exact e3
                · cases hd'
              · cases hd'
            · exact h1 d' t' hd'
          · exact h1
        · rintro ⟨g2, l, ok, st⟩ h2
          exact h2

theorem DomsOk.setSym {g : Gx} (h : DomsOk g) {syms : List Sym} {m : Nat} {s s' : Sym} (hn : g.names = some syms) (hm : syms[m]? = some s)
    (hb : s'.bitmap = s.bitmap) : DomsOk { g with names := some (syms.set m s') } := by
  intro d t hd
  obtain ⟨h1, syms', s1, b, h2, h3, h4⟩ := h d t hd
  rw [hn] at h2
  cases h2
  refine ⟨h1, _, if m = t - 1 then s' else s1, b, rfl, ?_, ?_⟩
  · rw [List.getElem?_set]
    split
    · rename_i e
      rw [if_pos (List.getElem?_eq_some_iff.mp hm).1]
    · exact h3
  · split
    · rename_i e
      subst e
      rw [hm] at h3
      cases h3
      rw [hb, h4]
    · exact h4

theorem DomsOk.setDomain {g : Gx} (h : DomsOk g) (ids : List Str) : (symbolSetDomain g ids).All fun r => DomsOk r.1 := by
  unfold symbolSetDomain
  rcases chk_cases g [.wDomRaw, .wDomMap, .wDomStr] with ⟨hm, hc⟩ | ⟨hm, hc⟩
  swap
  · rw [hc]
    exact h
  rw [hc]
  simp only [Bool.true_eq_false, if_false]
  split
  · exact h
  · trivial
  · rename_i n hn
    refine Res.All.bind' ?_
    intro syms hsy
    refine Res.All.bind' ?_
    intro s hs
    split
    · trivial
    refine Res.All.bind ((domLoop_noted syms n s.dim ids g 0).and (domLoop_bits syms n s.dim ids g 0 (need_ok hsy) h)) ?_
    rintro ⟨g1, l, ok, st⟩ ⟨_, h1⟩
    simp only at h1 ⊢
    refine Res.All.bind' ?_
    intro g2 hg2
    obtain ⟨m, syms', s', e1, e2, e3, rfl⟩ := modCur_ok hg2
    have := h1.setSym e2 e3 (s' := { s' with domSyms := some (l ++ List.replicate (s'.dim.toNat - l.length) 0) }) rfl
    refine (?_ : Res.All _ _)
    split
    · exact this
    · exact this

/-- the domains are fixed -/
theorem DomsOk.fix {g : Gx} {m : Nat} (h : DomsOk g) (hm : ∀ syms s b, g.names = some syms → syms[m]? = some s → s.bitmap = some b → ∀ k, b.get k = false) :
    ∃ doms, DomsFix g m doms := by
  classical
  let f : Option Nat → Dom := fun w => w.bind fun t => (g.names.bind fun syms => syms[t - 1]?).bind fun s => s.bitmap.map BitArr.get
  refine ⟨g.wrBits.map f, ⟨?_, ?_⟩⟩
  · intro d hd
    rw [List.getElem?_map]
    cases hw : g.wrBits[d]? with
    | none => rfl
    | some w =>
      rw [hw] at hd
      have hd : w = none := hd
      subst hd
      rfl
  · intro d t _ hd
    obtain ⟨h1, syms, s, b, h2, h3, h4⟩ := h d t hd
    refine ⟨h1, syms, s, b, h2, h3, h4, ?_, ?_⟩
    · rw [List.getElem?_map, hd]
      show some (f (some t)) = _
      simp only [f, h2, h3, h4, Option.bind_some, Option.map_some]
    · rintro rfl
      exact hm syms s b h2 h3 h4

/-! ### collected records -/

/-- Symbol `m + 1` is being written; the records `its` are collected. -/
structure Coll (g : Gx) (m : Nat) (d : SymDesc) (its : List Given) : Prop where
  beg : Begun g m
  sym : ∃ syms s, g.names = some syms ∧ syms[m]? = some s ∧ d.Of s ∧ SymLog s []
  sort : ∃ s, g.sort = some s ∧ LInv g.nd s ∧ s.items = its.map fun x => ⟨x.1, x.2⟩
  size : ∀ x ∈ its, x.2.length = g.dataSize
  bnd : ∀ x ∈ its, InB g.bounds x.1
  tab : ∃ u, g.uel = some u ∧ (∀ b ∈ g.bounds, BndOk u.ents.length b) ∧ ∀ x ∈ its, ∀ k ∈ x.1, 1 ≤ k ∧ k ≤ u.ents.length
  errs : g.errList = none
  doms : DomsOk g

/-- in the string mode: what is remembered about the positions is right -/
structure StrOk (g : Gx) : Prop where
  len : g.lastStr.length = g.nd ∧ g.last.length = g.nd
  pos : ∀ u, g.uel = some u → ∀ p ∈ g.strPoss, PosOk u p

/-- the size of the table of elements fits -/
def TabFits (g : Gx) : Prop := ∀ u, g.uel = some u → (u.ents.length : Int) ≤ 2147483391

theorem Begun.ses {g g' : Gx} {m : Nat} (h : Begun g m) (hs : Ses g g') : Begun g' m := by
  have e := fun {α : Type} (f : SesCore → α) => congrArg f hs.ses
  obtain ⟨syms, s, e1, e2, e3, e4⟩ := h.sym
  obtain ⟨syms', f1, _, f3, _⟩ := hs.names syms e1
  obtain ⟨s', f4, f5⟩ := f3 m s e2
  have hd : g'.curDim = g.curDim := e SesCore.curDim
  refine ⟨(e SesCore.cur).trans h.cur, ⟨syms', s', f1, f4, ?_, ?_⟩, by rw [hd]; exact h.dim, ?_⟩
  · rw [f5.dim, e3, hd]
  · rw [f5.typ, ← e4]; exact e SesCore.dataSize
  · unfold Gx.nd
    rw [hd, show g'.bounds = g.bounds from e SesCore.bounds]
    exact h.bl

theorem Coll.ses {g g' : Gx} {m : Nat} {d : SymDesc} {its : List Given} (h : Coll g m d its) (hs : Ses g g')
    (hu : ∀ u, g.uel = some u → ∃ u', g'.uel = some u' ∧ u.ents.length ≤ u'.ents.length) : Coll g' m d its := by
  have e := fun {α : Type} (f : SesCore → α) => congrArg f hs.ses
  have hb : g'.bounds = g.bounds := e SesCore.bounds
  have hnd : g'.nd = g.nd := by unfold Gx.nd; rw [show g'.curDim = g.curDim from e SesCore.curDim]
  obtain ⟨syms, s, e1, e2, e3, e4⟩ := h.sym
  obtain ⟨syms', f1, _, f3, _⟩ := hs.names syms e1
  obtain ⟨s', f4, f5⟩ := f3 m s e2
  obtain ⟨u, h1, h2, h3⟩ := h.tab
  obtain ⟨u', h4, h5⟩ := hu u h1
  refine ⟨h.beg.ses hs, ⟨syms', s', f1, f4, e3.same f5, e4.same f5⟩, ?_, ?_, by rw [hb]; exact h.bnd, ⟨u', h4, ?_, ?_⟩, ?_, h.doms.ses hs⟩
  · rw [hnd, show g'.sort = g.sort from e SesCore.sort]; exact h.sort
  · rw [show g'.dataSize = g.dataSize from e SesCore.dataSize]; exact h.size
  · rw [hb]; exact fun b hb => (h2 b hb).mono h5
  · intro x hx k hk
    have := h3 x hx k hk
    omega
  · exact (e SesCore.errList).trans h.errs

theorem Coll.mode {g : Gx} {m : Nat} {d : SymDesc} {its : List Given} (h : Coll g m d its) (md : Mode) : Coll { g with mode := md } m d its :=
  ⟨⟨h.beg.cur, h.beg.sym, h.beg.dim, h.beg.bl⟩, h.sym, h.sort, h.size, h.bnd, h.tab, h.errs, h.doms⟩

theorem StrOk.mode {g : Gx} (h : StrOk g) (md : Mode) : StrOk { g with mode := md } := ⟨h.len, h.pos⟩

theorem Coll.raise {g : Gx} {m : Nat} {d : SymDesc} {its : List Given} (h : Coll g m d its) (n : Int) : Coll (g.raise n) m d its :=
  h.ses (Ses.raise g n) fun u hu => ⟨u, hu, le_refl _⟩

/-- what a start call does not touch, and the sizes -/
structure Opening (g g' : Gx) (dim typ : Int) : Prop where
  uel : g'.uel = g.uel
  sv : g'.sv = g.sv
  total : g'.errTotal = g.errTotal
  raised : g'.raised = g.raised
  dim : g'.curDim = dim
  size : g'.dataSize = dataTypSize typ.toNat
  bits : ∀ w ∈ g'.wrBits, w = none
  range : (0 ≤ g'.curDim ∧ g'.curDim ≤ 20) ∧ (0 ≤ typ ∧ typ ≤ 3)
  new : FreshSym g g' typ

/-- the start call -/
theorem Coll.begin {g gp : Gx} {name text : Str} {dim typ ui : Int} (hp : prepareWrite g name text dim typ ui = .ok (gp, true))
    (hu : g.mode = .wInit → g.uel.isSome = true) (md : Mode) (ls : List (Option Str)) :
    g.mode = .wInit ∧ ∃ syms, g.names = some syms ∧
      Coll { gp with sort := some LData.empty, mode := md, lastStr := ls } syms.length ⟨name, dim, typ.toNat, ui⟩ [] ∧
      Opening g { gp with sort := some LData.empty, mode := md, lastStr := ls } dim typ := by
  rcases prepareWrite_cases hp with ⟨hf, _⟩ | ⟨_, hm, syms, sy, h1, h2, h3, h4, h5, h6, h7, h8, h9, hd, ht, he⟩
  · cases hf
  refine ⟨hm, syms, h1, ?_⟩
  subst he
  obtain ⟨u, hu⟩ := Option.isSome_iff_exists.mp (hu hm)
  refine ⟨?_, ⟨rfl, rfl, rfl, rfl, rfl, rfl, fun w hw => List.eq_of_mem_replicate hw, ⟨hd, ht⟩, ⟨rfl, rfl, syms, sy, h1, rfl, rfl, h3, freshSym_bits h9 h3⟩⟩⟩
  refine ⟨⟨rfl, ⟨syms ++ [sy], sy, rfl, by simp, h3, by show dataTypSize _ = _; rw [h4]⟩, hd, by simp [Gx.nd]⟩, ⟨syms ++ [sy], sy, rfl, by simp, ⟨h2, h3, h4, h5⟩,
    SymLog.fresh h4 ht h7 h9⟩, ⟨_, rfl, LInv.empty _, rfl⟩, by simp, by simp, ⟨u, hu, ?_, by simp⟩, rfl, ?_⟩
  · intro b hb
    rw [List.eq_of_mem_replicate hb]
    unfold BndOk intMax
    dsimp only
    omega
  · intro d t hd
    have hd : (List.replicate dim.toNat (none : Option Nat))[d]? = some (some t) := hd
    have := List.eq_of_mem_replicate (List.mem_of_getElem? hd)
    cases this

theorem Coll.mapStart {g g' : Gx} {name text : Str} {dim typ ui : Int} (h : dataWriteMapStart g name text dim typ ui = .ok (g', true))
    (hu : g.mode = .wInit → g.uel.isSome = true) : g.mode = .wInit ∧ MapMode g'.mode ∧ ∃ syms, g.names = some syms ∧ Coll g' syms.length ⟨name, dim, typ.toNat, ui⟩ [] ∧
      Opening g g' dim typ := by
  unfold dataWriteMapStart at h
  obtain ⟨⟨gp, ok⟩, h1, h⟩ := Res.bind_eq_ok.mp h
  cases ok with
  | false => cases h
  | true =>
    simp only [Bool.true_eq_false, if_false] at h
    cases h
    obtain ⟨a, syms, b, c, o⟩ := Coll.begin h1 hu .wDomMap gp.lastStr
    exact ⟨a, Or.inr rfl, syms, b, c, o⟩

theorem Coll.strStart {g g' : Gx} {name text : Str} {dim typ ui : Int} (h : dataWriteStrStart g name text dim typ ui = .ok (g', true))
    (hu : g.mode = .wInit → g.uel.isSome = true) : g.mode = .wInit ∧ StrMode g'.mode ∧ ∃ syms, g.names = some syms ∧ Coll g' syms.length ⟨name, dim, typ.toNat, ui⟩ [] ∧
      Opening g g' dim typ ∧ StrOk g' := by
  unfold dataWriteStrStart at h
  obtain ⟨⟨gp, ok⟩, h1, h⟩ := Res.bind_eq_ok.mp h
  cases ok with
  | false => cases h
  | true =>
    simp only [Bool.true_eq_false, if_false] at h
    cases h
    obtain ⟨a, syms, b, c, o⟩ := Coll.begin h1 hu .wDomStr (List.replicate gp.nd none)
    refine ⟨a, Or.inr rfl, syms, b, c, o, ?_, ?_⟩
    · rcases prepareWrite_cases h1 with ⟨hf, _⟩ | ⟨_, _, _, _, _, _, _, _, _, _, _, _, _, _, _, he⟩
      · cases hf
      · rw [he]; simp [Gx.nd]
    · intro u hu' p hp
      obtain ⟨u2, t1, t2, _⟩ := c.tab
      have hu' : gp.uel = some u := hu'
      have t1 : gp.uel = some u2 := t1
      rw [hu'] at t1
      cases t1
      unfold Gx.strPoss at hp
      obtain ⟨i, hi, hpi⟩ := List.mem_iff_getElem.mp hp
      rw [List.getElem_zipWith] at hpi
      subst hpi
      refine ⟨?_, t2 _ (List.getElem_mem _)⟩
      intro s hs
      simp only [List.getElem_zip] at hs
      rw [List.getElem_replicate] at hs
      cases hs

/-! ### one record -/

theorem Coll.add {g g' : Gx} {m : Nat} {d : SymDesc} {its : List Given} {key : List Int} {vals : List Dbl} (h : Coll g m d its)
    (hb : InB g.bounds key) (hk : ∀ u, g.uel = some u → ∀ k ∈ key, 1 ≤ k ∧ k ≤ u.ents.length) (ht : TabFits g)
    (hs : sortAdd g key vals = .ok g') : Coll g' m d (its ++ [(key, vals)]) ∧ ∃ s, g' = { g with sort := some s } := by
  obtain ⟨s1, s2, s3, s, s', s4, s5, rfl⟩ := sortAdd_ok hs
  obtain ⟨t, t1, t2, t3⟩ := h.sort
  rw [s4] at t1
  cases t1
  obtain ⟨u, u1, u2, u3⟩ := h.tab
  have hsz := ht u u1
  have hk' := hk u u1
  obtain ⟨s'', a1, a2, a3⟩ := t2.add ⟨key, vals⟩ ⟨s2, fun k hk1 => by have := hk' k hk1; omega⟩
  rw [s5] at a1
  cases a1
  refine ⟨⟨⟨h.beg.cur, h.beg.sym, h.beg.dim, h.beg.bl⟩, h.sym, ⟨s', rfl, a3, by rw [a2, t3, List.map_append]; rfl⟩, ?_, ?_, ⟨u, u1, u2, ?_⟩, h.errs, h.doms⟩,
    s', rfl⟩
  · intro x hx
    rcases List.mem_append.mp hx with hx | hx
    · exact h.size x hx
    · rw [List.mem_singleton.mp hx]; exact s1
  · intro x hx
    rcases List.mem_append.mp hx with hx | hx
    · exact h.bnd x hx
    · rw [List.mem_singleton.mp hx]; exact hb
  · intro x hx
    rcases List.mem_append.mp hx with hx | hx
    · exact u3 x hx
    · rw [List.mem_singleton.mp hx]; exact hk'

theorem Coll.bounds {g : Gx} {m : Nat} {d : SymDesc} {its : List Given} (h : Coll g m d its) {bs : List (Int × Int)} (hw : Wider g.bounds bs)
    (hb : ∀ u, g.uel = some u → ∀ b ∈ bs, BndOk u.ents.length b) : Coll { g with bounds := bs } m d its := by
  obtain ⟨u, u1, u2, u3⟩ := h.tab
  refine ⟨⟨h.beg.cur, h.beg.sym, h.beg.dim, ?_⟩, h.sym, h.sort, h.size, fun x hx => (h.bnd x hx).wider hw, ⟨u, u1, hb u u1, u3⟩, h.errs, h.doms⟩
  show bs.length = _
  rw [← hw.length_eq]
  exact h.beg.bl

theorem dataWriteMap_eq {g : Gx} (hr : MapMode g.mode) (key : List Int) (vals : List Dbl) :
    dataWriteMap g key vals = dataWriteMap { g with mode := .wMap } key vals := by
  unfold dataWriteMap
  have h1 : (if g.mode = .wDomMap then ({ g with mode := .wMap } : Gx) else g) = { g with mode := .wMap } := by
    rcases hr with h | h
    · rw [if_neg (by rw [h]; decide), ← h]
    · rw [if_pos h]
  rw [h1, if_neg (by show ¬ (Mode.wMap = Mode.wDomMap); decide)]

/-- the errors `l` were raised on the way; the symbol is the same, and no domain was changed -/
structure RaisedBy (g g' : Gx) (l : List Int) : Prop where
  total : g'.errTotal = g.errTotal + l.length
  raised : g'.raised = g.raised ++ l
  dim : g'.curDim = g.curDim
  size : g'.dataSize = g.dataSize
  sv : g'.sv = g.sv
  bits : g'.wrBits = g.wrBits
  names : g'.names = g.names

theorem RaisedBy.trans {a b c : Gx} {l l' : List Int} (h : RaisedBy a b l) (h' : RaisedBy b c l') : RaisedBy a c (l ++ l') :=
  ⟨by rw [h'.total, h.total, List.length_append]; push_cast; omega, by rw [h'.raised, h.raised, List.append_assoc], h'.dim.trans h.dim,
    h'.size.trans h.size, h'.sv.trans h.sv, h'.bits.trans h.bits, h'.names.trans h.names⟩

theorem RaisedBy.refl (g : Gx) : RaisedBy g g [] := ⟨by simp, by simp, rfl, rfl, rfl, rfl, rfl⟩

/-- one record with numbers of the user -/
theorem Coll.map {g g' : Gx} {m : Nat} {d : SymDesc} {its : List Given} {key : List Int} {vals : List Dbl} {b : Bool} (h : Coll g m d its)
    (hr : MapMode g.mode) (hu : UsrRange g) (ht : TabFits g) (hw : dataWriteMap g key vals = .ok (g', b)) :
    MapMode g'.mode ∧ g'.uel = g.uel ∧ RaisedBy g g' (if b then [] else [Err.badElementIndex]) ∧ ∃ u, g.uel = some u ∧ (b = true ↔ ∀ k ∈ key, u.usr.get k ≠ -1) ∧
      Coll g' m d (if b then its ++ [(key.map u.usr.get, vals)] else its) := by
  rw [dataWriteMap_eq hr] at hw
  have h0 := h.mode .wMap
  unfold dataWriteMap at hw
  rw [if_neg (by show ¬ (Mode.wMap = Mode.wDomMap); decide)] at hw
  rcases chk_cases ({ g with mode := .wMap } : Gx) [.wMap] with ⟨_, hc⟩ | ⟨hc, _⟩
  swap
  · exact absurd (List.mem_singleton.mpr rfl) hc
  simp only [hc, Bool.true_eq_false, if_false] at hw
  split at hw
  · cases hw
  rename_i hl
  obtain ⟨u, h1, hw⟩ := Res.bind_eq_ok.mp hw
  have h1 : g.uel = some u := need_ok h1
  obtain ⟨u', t1, t2, t3⟩ := h0.tab
  have t1 : g.uel = some u' := t1
  rw [h1] at t1
  cases t1
  obtain ⟨m1, m2, m3, m4⟩ := mapKey_spec (hu u h1) key g.bounds (h.beg.bl.trans (not_not.mp hl).symm) t2
  have h2 := h0.bounds (bs := (mapKey u key g.bounds).1) m1 (fun v hv b hb => by
    have hv : g.uel = some v := hv
    rw [h1] at hv
    cases hv
    exact m2 b hb)
  cases hk : (mapKey u key g.bounds).2 with
  | none =>
    rw [hk] at hw
    cases hw
    refine ⟨Or.inl rfl, rfl, ⟨rfl, rfl, rfl, rfl, rfl, rfl, rfl⟩, u, h1, ?_, h2.raise _⟩
    obtain ⟨k, k1, k2⟩ := m4.mp hk
    exact ⟨(fun h => by cases h), fun h => absurd k2 (h k k1)⟩
  | some ks =>
    rw [hk] at hw
    dsimp only at hw
    obtain ⟨g2, h3, hw⟩ := Res.bind_eq_ok.mp hw
    cases hw
    obtain ⟨k1, k2, k3⟩ := m3 ks hk
    obtain ⟨a1, s, a2⟩ := h2.add (key := ks) (vals := vals) k2 (fun v hv => by
      have hv : g.uel = some v := hv
      rw [h1] at hv
      cases hv
      exact k3) ht h3
    refine ⟨by rw [a2]; exact Or.inl rfl, by rw [a2], ⟨by rw [a2]; simp, by rw [a2]; simp, by rw [a2], by rw [a2], by rw [a2], by rw [a2], by rw [a2]⟩, u, h1, ?_, by rw [← k1]; exact a1⟩
    refine ⟨fun _ k hk1 hk2 => ?_, fun _ => rfl⟩
    rw [m4.mpr ⟨k, hk1, hk2⟩] at hk
    cases hk

/-- a record with numbers of the user can be written -/
theorem Coll.mapTotal {g : Gx} {m : Nat} {d : SymDesc} {its : List Given} {key : List Int} {vals : List Dbl} (h : Coll g m d its)
    (hr : MapMode g.mode) (hu : UsrRange g) (ht : TabFits g) (hl : key.length = g.nd) (hv : vals.length = g.dataSize) :
    ∃ r, dataWriteMap g key vals = .ok r := by
  rw [dataWriteMap_eq hr]
  have h0 := h.mode .wMap
  unfold dataWriteMap
  rw [if_neg (by show ¬ (Mode.wMap = Mode.wDomMap); decide)]
  rcases chk_cases ({ g with mode := .wMap } : Gx) [.wMap] with ⟨_, hc⟩ | ⟨hc, _⟩
  swap
  · exact absurd (List.mem_singleton.mpr rfl) hc
  simp only [hc, Bool.true_eq_false, if_false]
  rw [if_neg (not_not.mpr (show key.length = ({ g with mode := .wMap } : Gx).nd from hl))]
  obtain ⟨u, t1, t2, t3⟩ := h0.tab
  have t1 : g.uel = some u := t1
  rw [t1]
  simp only [need, Res.bind_ok]
  obtain ⟨m1, m2, m3, m4⟩ := mapKey_spec (hu u t1) key g.bounds (h.beg.bl.trans hl.symm) t2
  cases hk : (mapKey u key g.bounds).2 with
  | none => exact ⟨_, rfl⟩
  | some ks =>
    dsimp only
    obtain ⟨k1, k2, k3⟩ := m3 ks hk
    have hsz := ht u t1
    obtain ⟨s, s1, s2, s3⟩ := h.sort
    unfold sortAdd
    rw [show ({ g with mode := .wMap, bounds := (mapKey u key g.bounds).1 } : Gx).sort = some s from s1]
    have hl2 : ks.length = g.nd := by rw [k1, List.length_map, hl]
    obtain ⟨s', a1, _⟩ := s2.add ⟨ks, vals⟩ ⟨hl2, fun k hk1 => by have := k3 k hk1; omega⟩
    simp only [need, Res.bind_ok]
    rw [if_neg, a1]
    · exact ⟨_, rfl⟩
    · push Not
      refine ⟨hv, hl2, ?_⟩
      intro k hk1
      have := k3 k hk1
      unfold I32
      omega

theorem dataWriteStr_eq {g : Gx} (hr : StrMode g.mode) (key : List Str) (vals : List Dbl) :
    dataWriteStr g key vals = dataWriteStr { g with mode := .wStr } key vals := by
  unfold dataWriteStr
  have h1 : (if g.mode = .wDomStr then ({ g with mode := .wStr } : Gx) else g) = { g with mode := .wStr } := by
    rcases hr with h | h
    · rw [if_neg (by rw [h]; decide), ← h]
    · rw [if_pos h]
  rw [h1, if_neg (by show ¬ (Mode.wStr = Mode.wDomStr); decide)]

theorem strPoss_map {g : Gx} (h : g.lastStr.length = g.nd ∧ g.last.length = g.nd) (hb : g.bounds.length = g.nd) :
    g.strPoss.length = g.nd ∧ g.strPoss.map StrPos.bnd = g.bounds := by
  unfold Gx.strPoss
  have : (List.zipWith (fun (c : Option Str × Int) b => (⟨c.1, c.2, b⟩ : StrPos)) (g.lastStr.zip g.last) g.bounds).length = g.nd := by
    simp [h.1, h.2, hb]
  refine ⟨this, ?_⟩
  apply List.ext_getElem
  · rw [List.length_map, this, hb]
  · intro i h1 h2
    simp

theorem strPoss_of (ps : List StrPos) :
    List.zipWith (fun (c : Option Str × Int) b => (⟨c.1, c.2, b⟩ : StrPos)) ((ps.map StrPos.cache).zip (ps.map StrPos.last)) (ps.map StrPos.bnd) = ps := by
  induction ps with
  | nil => rfl
  | cons p ps ih => simp only [List.map_cons, List.zip_cons_cons, List.zipWith_cons_cons, ih]

/-- one record with strings -/
theorem Coll.str {g g' : Gx} {m : Nat} {d : SymDesc} {its : List Given} {key : List Str} {vals : List Dbl} {b : Bool} (h : Coll g m d its)
    (hp : StrOk g) (hr : StrMode g.mode) (hg : GoodElems g) (ht : TabFits g') (hw : dataWriteStr g key vals = .ok (g', b)) :
    StrMode g'.mode ∧ StrOk g' ∧ RaisedBy g g' (if b then [] else [Err.badUelStr]) ∧ ∃ u u', g.uel = some u ∧ g'.uel = some u' ∧ KeepStrs u u' ∧
      (if b then ∃ ks, List.Forall₂ (ElemIs u') key ks ∧ Coll g' m d (its ++ [(ks, vals)])
        else Coll g' m d its ∧ ∃ k ∈ key, u'.indexOf (trimRight k) = -1 ∧ goodUEL (trimRight k) = false) := by
  rw [dataWriteStr_eq hr] at hw
  have h0 := h.mode .wStr
  unfold dataWriteStr at hw
  rw [if_neg (by show ¬ (Mode.wStr = Mode.wDomStr); decide)] at hw
  rcases chk_cases ({ g with mode := .wStr } : Gx) [.wStr] with ⟨_, hc⟩ | ⟨hc, _⟩
  swap
  · exact absurd (List.mem_singleton.mpr rfl) hc
  simp only [hc, Bool.true_eq_false, if_false] at hw
  split at hw
  · cases hw
  rename_i hl
  obtain ⟨u, h1, hw⟩ := Res.bind_eq_ok.mp hw
  have h1 : g.uel = some u := need_ok h1
  obtain ⟨⟨u', ps, ok⟩, h2, hw⟩ := Res.bind_eq_ok.mp hw
  have h2 : strKey u g.strPoss key = .ok (u', ps, ok) := h2
  obtain ⟨l1, l2⟩ := strPoss_map hp.len h.beg.bl
  have hl : key.length = g.nd := not_not.mp hl
  obtain ⟨k1, k2, k3, k4, k5, k6⟩ := strKey_spec g.strPoss key u (l1.trans hl.symm) (hg u h1) (hp.pos u h1) u' ps ok h2
  rw [l2] at k4
  dsimp only at hw
  have c1 : Coll ({ g with mode := .wStr, uel := some u', lastStr := ps.map StrPos.cache, last := ps.map StrPos.last, bounds := ps.map StrPos.bnd } : Gx) m d its := by
    obtain ⟨v, t1, t2, t3⟩ := h.tab
    rw [h1] at t1
    cases t1
    refine ⟨⟨h.beg.cur, h.beg.sym, h.beg.dim, by show (ps.map StrPos.bnd).length = g.nd; rw [List.length_map, k2, l1]⟩, h.sym, h.sort, h.size, fun x hx => (h.bnd x hx).wider k4,
      ⟨u', rfl, ?_, ?_⟩, h.errs, h.doms⟩
    · intro b hb
      obtain ⟨p, p1, rfl⟩ := List.mem_map.mp hb
      exact (k3 p p1).bnd
    · intro x hx k hk
      have := t3 x hx k hk
      have := k1.keep.length
      omega
  have p1 : StrOk ({ g with mode := .wStr, uel := some u', lastStr := ps.map StrPos.cache, last := ps.map StrPos.last, bounds := ps.map StrPos.bnd } : Gx) := by
    refine ⟨⟨?_, ?_⟩, ?_⟩
    · show (ps.map StrPos.cache).length = g.nd
      rw [List.length_map, k2, l1]
    · show (ps.map StrPos.last).length = g.nd
      rw [List.length_map, k2, l1]
    · rintro v ⟨⟩ p hp'
      unfold Gx.strPoss at hp'
      dsimp only at hp'
      rw [strPoss_of] at hp'
      exact k3 p hp'
  cases ok with
  | false =>
    simp only [if_true] at hw
    cases hw
    exact ⟨Or.inl rfl, ⟨p1.len, p1.pos⟩, ⟨rfl, rfl, rfl, rfl, rfl, rfl, rfl⟩, u, u', h1, rfl, k1.keep, c1.raise _, k6 rfl⟩
  | true =>
    simp only [Bool.true_eq_false, if_false] at hw
    obtain ⟨g2, h3, hw⟩ := Res.bind_eq_ok.mp hw
    cases hw
    obtain ⟨j1, j2⟩ := k5 rfl
    have hkeys : ∀ k ∈ ps.map StrPos.last, 1 ≤ k ∧ k ≤ u'.ents.length := by
      intro k hk
      obtain ⟨i, hi, rfl⟩ := List.mem_iff_getElem.mp hk
      have := (List.forall₂_iff_get.mp j1).2 i (by rw [(List.forall₂_iff_get.mp j1).1]; exact hi) hi
      exact this.2
    obtain ⟨_, _, _, _, s, _, _, hg2⟩ := sortAdd_ok h3
    obtain ⟨a1, s, a2⟩ := c1.add (key := ps.map StrPos.last) (vals := vals) j2 (by rintro v ⟨⟩; exact hkeys)
      (by
        rintro v ⟨⟩
        exact ht u' (by rw [hg2])) h3
    refine ⟨by rw [a2]; exact Or.inl rfl, ?_, ⟨by rw [a2]; simp, by rw [a2]; simp, by rw [a2], by rw [a2], by rw [a2], by rw [a2], by rw [a2]⟩, u, u', h1, by rw [a2], k1.keep, _, j1, a1⟩
    rw [a2]
    exact ⟨p1.len, p1.pos⟩

end Gdx
