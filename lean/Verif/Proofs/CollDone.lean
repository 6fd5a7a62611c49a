import Verif.Proofs.Coll

/-!
The mapped and the string mode: calls in between, and the end of the symbol.
-/

namespace Gdx

open Spec

/-! ### strings: nothing is undefined -/

theorem strPos_grow {u u1 : Uel} {p p1 : StrPos} {t : Str} (hs : strPos u p t = some (u1, p1)) : u1.ents.length ≤ u.ents.length + 1 := by
  unfold strPos at hs
  split at hs
  · cases hs; omega
  · dsimp only at hs
    split at hs
    · rename_i hi
      split at hs
      · rw [(addObject_new hi).1] at hs
        cases hs
        simp
      · cases hs
    · cases hs; omega

theorem strKey_grow : ∀ {ps : List StrPos} {ks : List Str} {u u' : Uel} {ps' : List StrPos} {ok : Bool}, strKey u ps ks = .ok (u', ps', ok) →
    u'.ents.length ≤ u.ents.length + ks.length := by
  intro ps
  induction ps with
  | nil =>
    intro ks u u' ps' ok h
    have : strKey u [] ks = .ok (u, [], true) := by cases ks <;> rfl
    rw [this] at h
    cases h
    omega
  | cons p ps ih =>
    intro ks u u' ps' ok h
    cases ks with
    | nil => cases h; omega
    | cons k ks =>
      rw [strKey] at h
      obtain ⟨t, _, h⟩ := Res.bind_eq_ok.mp h
      cases hs : strPos u p t with
      | none =>
        rw [hs] at h
        cases h
        omega
      | some r =>
        obtain ⟨u1, p1⟩ := r
        rw [hs] at h
        dsimp only at h
        obtain ⟨⟨u2, ps2, ok2⟩, h2, h⟩ := Res.bind_eq_ok.mp h
        cases h
        have := ih h2
        have := strPos_grow hs
        simp only [List.length_cons]
        omega

theorem strKey_total : ∀ (ps : List StrPos) (ks : List Str) (u : Uel), (∀ k ∈ ks, ∃ t, trimR k = .ok t) →
    ∃ r, strKey u ps ks = .ok r := by
  intro ps
  induction ps with
  | nil => intro ks u _; exact ⟨(u, [], true), by cases ks <;> rfl⟩
  | cons p ps ih =>
    intro ks u hk
    cases ks with
    | nil => exact ⟨(u, p :: ps, true), rfl⟩
    | cons k ks =>
      obtain ⟨t, ht⟩ := hk k (by simp)
      rw [strKey, ht]
      simp only [Res.bind_ok]
      cases hs : strPos u p t with
      | none => exact ⟨(u, p :: ps, false), rfl⟩
      | some r =>
        obtain ⟨u1, p1⟩ := r
        dsimp only
        obtain ⟨⟨u', ps', ok⟩, e1⟩ := ih ks u1 fun k hk' => hk k (by simp [hk'])
        rw [e1]
        exact ⟨_, rfl⟩

theorem Coll.strTotal {g : Gx} {m : Nat} {d : SymDesc} {its : List Given} {key : List Str} {vals : List Dbl} (h : Coll g m d its)
    (hp : StrOk g) (hr : StrMode g.mode) (hg : GoodElems g) (ht : ∀ u, g.uel = some u → ((u.ents.length + key.length : Nat) : Int) ≤ 2147483391)
    (hl : key.length = g.nd) (hk : ∀ k ∈ key, ∃ t, trimR k = .ok t) (hv : vals.length = g.dataSize) :
    ∃ r, dataWriteStr g key vals = .ok r := by
  rw [dataWriteStr_eq hr]
  unfold dataWriteStr
  rw [if_neg (by show ¬ (Mode.wStr = Mode.wDomStr); decide)]
  rcases chk_cases ({ g with mode := .wStr } : Gx) [.wStr] with ⟨_, hc⟩ | ⟨hc, _⟩
  swap
  · exact absurd (List.mem_singleton.mpr rfl) hc
  simp only [hc, Bool.true_eq_false, if_false]
  rw [if_neg (not_not.mpr (show key.length = ({ g with mode := .wStr } : Gx).nd from hl))]
  obtain ⟨u, t1, t2, t3⟩ := h.tab
  rw [t1]
  simp only [need, Res.bind_ok]
  obtain ⟨⟨u', ps, ok⟩, e1⟩ := strKey_total g.strPoss key u hk
  have e2 := strKey_grow e1
  show ∃ r, (strKey u g.strPoss key >>= _) = .ok r
  rw [e1]
  simp only [Res.bind_ok]
  obtain ⟨l1, l2⟩ := strPoss_map hp.len h.beg.bl
  obtain ⟨k1, k2, k3, k4, k5, k6⟩ := strKey_spec g.strPoss key u (l1.trans hl.symm) (hg u t1) (hp.pos u t1) u' ps ok e1
  cases ok with
  | false => exact ⟨_, rfl⟩
  | true =>
    simp only [Bool.true_eq_false, if_false]
    obtain ⟨j1, j2⟩ := k5 rfl
    have hsz := ht u t1
    have hkeys : ∀ k ∈ ps.map StrPos.last, 1 ≤ k ∧ k ≤ u'.ents.length := by
      intro k hk
      obtain ⟨i, hi, rfl⟩ := List.mem_iff_getElem.mp hk
      exact ((List.forall₂_iff_get.mp j1).2 i (by rw [(List.forall₂_iff_get.mp j1).1]; exact hi) hi).2
    obtain ⟨s, s1, s2, s3⟩ := h.sort
    have hl2 : (ps.map StrPos.last).length = g.nd := by rw [List.length_map, k2, l1]
    obtain ⟨s', a1, _⟩ := s2.add ⟨ps.map StrPos.last, vals⟩ ⟨hl2, fun k hk1 => by have := hkeys k hk1; omega⟩
    unfold sortAdd
    simp only [s1, need, Res.bind_ok]
    rw [if_neg, a1]
    · exact ⟨_, rfl⟩
    · push Not
      refine ⟨hv, hl2, ?_⟩
      intro k hk1
      have := hkeys k hk1
      unfold I32
      omega

/-! ### calls in between -/

/-- gdxSymbolSetDomain between the records -/
theorem Coll.setDomain {g : Gx} {m : Nat} {d : SymDesc} {its : List Given} (h : Coll g m d its) (ids : List Str) :
    (symbolSetDomain g ids).All fun r => Coll r.1 m d its ∧ (r.1.mode = g.mode ∨ r.1.mode = g.mode.dataOf) ∧ r.1.uel = g.uel ∧
      r.1.strPoss = g.strPoss ∧ r.1.lastStr = g.lastStr ∧ r.1.last = g.last ∧ r.1.nd = g.nd := by
  refine ((symbolSetDomain_cases g ids).and (h.doms.setDomain ids)).mono ?_
  rintro ⟨g', b⟩ ⟨⟨g1, hn, ⟨rfl, _⟩ | ⟨k, syms, s, dl, e1, e2, e3, e4, e5⟩⟩, hd⟩
  · obtain ⟨a, b', c, d', w, rfl⟩ := hn
    exact ⟨⟨⟨h.beg.cur, h.beg.sym, h.beg.dim, h.beg.bl⟩, h.sym, h.sort, h.size, h.bnd, h.tab, h.errs, hd⟩, Or.inl rfl, rfl, rfl, rfl, rfl, rfl⟩
  · have hk : k = m := by
      rw [h.beg.cur] at e1
      cases e1
      rfl
    subst hk
    obtain ⟨a, b', c, d', w, rfl⟩ := hn
    have hx : ∀ md, Begun ({ g with lastErr := a, errCnt := b', errTotal := c, raised := d', wrBits := w, names := some (syms.set k { s with domSyms := some dl }), mode := md } : Gx) k ∧
        ∃ syms' s', some (syms.set k { s with domSyms := some dl }) = some syms' ∧ syms'[k]? = some s' ∧ d.Of s' ∧ SymLog s' [] := by
      intro md
      have hget : (syms.set k { s with domSyms := some dl })[k]? = some { s with domSyms := some dl } :=
        List.getElem?_set_self (List.getElem?_eq_some_iff.mp e3).1
      obtain ⟨y1, y2, y3, y4, y5, y6⟩ := h.beg.sym
      rw [e2] at y3
      cases y3
      rw [e3] at y4
      cases y4
      obtain ⟨z1, z2, z3, z4, z5, z6⟩ := h.sym
      rw [e2] at z3
      cases z3
      rw [e3] at z4
      cases z4
      exact ⟨⟨h.beg.cur, ⟨_, _, rfl, hget, y5, y6⟩, h.beg.dim, h.beg.bl⟩, ⟨_, _, rfl, hget, ⟨z5.name, z5.dim, z5.typ, z5.ui⟩, ⟨z6.typ, z6.txt, z6.bits⟩⟩⟩
    rcases e5 with e5 | e5
    · simp only at e5
      subst e5
      obtain ⟨x1, x2⟩ := hx g.mode
      exact ⟨⟨x1, x2, h.sort, h.size, h.bnd, h.tab, h.errs, hd⟩, Or.inl rfl, rfl, rfl, rfl, rfl, rfl⟩
    · simp only at e5
      subst e5
      obtain ⟨x1, x2⟩ := hx g.mode.dataOf
      exact ⟨⟨x1, x2, h.sort, h.size, h.bnd, h.tab, h.errs, hd⟩, Or.inr rfl, rfl, rfl, rfl, rfl, rfl⟩

theorem between_calls {c : Call} (hc : c.between) : c.opensRead = false ∧ c.opensWrite = false ∧ c ≠ .close := by
  rcases hc with hq | ⟨ids, rfl⟩
  · revert hq
    cases c <;> simp [Call.quiet, Call.opensRead, Call.opensWrite]
  · exact ⟨rfl, rfl, by simp⟩

/-- strings keep their numbers -/
theorem step_keep {e : Env} {z : Cz} {g g' : Gx} {c : Call} {u : Uel} (hc : c.WF) (ha : Aft g) (hr : c.opensRead = false) (hw : c.opensWrite = false)
    (hcl : c ≠ .close) (hn : ∀ o s, c ≠ .renameUEL o s) (hu : g.uel = some u) (h : step e z g c = .ok g') :
    ∃ u', g'.uel = some u' ∧ KeepStrs u u' := by
  let P : Gx → Prop := fun x => ∃ u', x.uel = some u' ∧ KeepStrs u u'
  have hP : P g := ⟨u, hu, [], by simp⟩
  have hprim : ∀ a b, Prim .all a b → P a → P b := by
    rintro a b hab ⟨v, hv, hk⟩
    cases hab with
    | ctrl h _ _ => exact ⟨v, (congrArg Core.uel h).trans hv, hk⟩
    | uel w w' hw hs =>
      rw [hw] at hv
      cases hv
      exact ⟨w', rfl, hk.trans hs.keep⟩
    | _ => exact ⟨v, hv, hk⟩
  by_cases hsp : c.special = false
  · exact ((step_evo e z g c hc hsp ha).mono fun g' hg' => hg'.toAll.inv hprim hP).of_ok h
  · cases c with
    | openWrite => cases hw
    | openRead => cases hr
    | openAppend => cases hr
    | close => exact absurd rfl hcl
    | renameUEL o s => exact absurd rfl (hn o s)
    | getLastError => cases h; exact hP
    | uelMap k s =>
      refine (stateOf_all (uelRegisterMap_inv (P := P) hprim ?_ k s hP)).of_ok h
      rintro x v v' hv (⟨en, s, d, k, m, h1, h2, h3⟩) ⟨w, hw, t, ht⟩
      rw [hv] at hw
      cases hw
      refine ⟨_, rfl, t, ?_⟩
      rw [← ht]
      exact setMap_strs v _ _
    | _ => exact absurd rfl hsp

theorem Coll.between {e : Env} {z : Cz} {g g' : Gx} {m : Nat} {d : SymDesc} {its : List Given} (h : Coll g m d its) (hr : SortMode g.mode)
    (ha : Aft g) {c : Call} (hc : c.between) (hw : c.WF) (hs : step e z g c = .ok g') :
    (Coll g' m d its ∧ SortMode g'.mode ∧ (MapMode g'.mode ↔ MapMode g.mode) ∧
      g'.lastStr = g.lastStr ∧ g'.last = g.last ∧ g'.bounds = g.bounds ∧ g'.nd = g.nd) ∨ InRead g' := by
  obtain ⟨c1, c2, c3⟩ := between_calls hc
  rcases hc with hq | ⟨ids, rfl⟩
  · have haf : AftOk g := fun he => absurd he hr.writing.ne
    rcases (step_tame e z g c hq haf).of_ok hs with ht | ⟨ht, hp⟩
    · exact Or.inr ht
    · have en := fun {α : Type} (f : SesCore → α) => congrArg f ht.ses
      have hmode : g'.mode = g.mode := by
        rcases hp with ⟨p1, _⟩ | ⟨p, _⟩
        · exact p1
        · exfalso
          rcases p with p | ⟨p, _⟩
          · rcases hr with (hr | hr) | (hr | hr) <;> rw [p] at hr <;> cases hr
          · exact hr.writing.ne p
      refine Or.inl ⟨h.ses ht ?_, by rw [hmode]; exact hr, by rw [hmode], en SesCore.lastStr, en SesCore.last, en SesCore.bounds, ?_⟩
      · intro u hu
        exact AtLeast.step (n := u.ents.length) ⟨u, hu, le_refl _⟩ hw ha c1 c2 c3 hs
      · unfold Gx.nd; rw [show g'.curDim = g.curDim from en SesCore.curDim]
  · refine Or.inl ?_
    refine (stateOf_all (P := fun g' => Coll g' m d its ∧ SortMode g'.mode ∧ (MapMode g'.mode ↔ MapMode g.mode) ∧
      g'.lastStr = g.lastStr ∧ g'.last = g.last ∧ g'.bounds = g.bounds ∧ g'.nd = g.nd) ?_).of_ok hs
    refine ((h.setDomain ids).and (symbolSetDomain_cases g ids)).mono ?_
    rintro ⟨g1, b⟩ ⟨⟨h1, h2, h3, h4, h5, h6, h7⟩, gx, ⟨a, b', c', d', w, rfl⟩, hcase⟩
    have hb : g1.bounds = g.bounds := by
      rcases hcase with ⟨e1, _⟩ | ⟨_, _, _, _, _, _, _, _, e5 | e5⟩
      · rw [show g1 = _ from e1]
      · rw [show g1 = _ from e5]
      · rw [show g1 = _ from e5]
    have hm : SortMode g1.mode ∧ (MapMode g1.mode ↔ MapMode g.mode) := by
      dsimp only at h2
      rcases h2 with h2 | h2
      · rw [h2]; exact ⟨hr, Iff.rfl⟩
      · rw [h2]
        rcases hr with (hr | hr) | (hr | hr) <;> rw [hr]
        · exact ⟨Or.inl (Or.inl rfl), Iff.rfl⟩
        · exact ⟨Or.inl (Or.inl rfl), (fun _ => Or.inr rfl), (fun _ => Or.inl rfl)⟩
        · exact ⟨Or.inr (Or.inl rfl), Iff.rfl⟩
        · exact ⟨Or.inr (Or.inl rfl), (fun h => by rcases h with h | h <;> cases h), (fun h => by rcases h with h | h <;> cases h)⟩
    exact ⟨h1, hm.1, hm.2, h5, h6, hb, h7⟩

theorem StrOk.congr {g g' : Gx} (h : StrOk g) (h1 : g'.lastStr = g.lastStr) (h2 : g'.last = g.last) (h3 : g'.bounds = g.bounds) (h4 : g'.nd = g.nd)
    (hg : GoodElems g') (hk : ∀ u', g'.uel = some u' → ∃ u, g.uel = some u ∧ KeepStrs u u') : StrOk g' := by
  refine ⟨by rw [h1, h2, h4]; exact h.len, ?_⟩
  intro u' hu' p hp
  obtain ⟨u, hu, hk⟩ := hk u' hu'
  have : g'.strPoss = g.strPoss := by unfold Gx.strPoss; rw [h1, h2, h3]
  rw [this] at hp
  exact (h.pos u hu p hp).keep (hg u' hu') hk hk.length

/-! ### the end -/

theorem doWrites_all : ∀ (xs : List Given) (g : Gx), doWrites g (xs.map fun x => ⟨x.1, x.2⟩) = (doWriteAll g xs >>= fun r => .ok r.1)
  | [], g => rfl
  | x :: xs, g => by
    rw [List.map_cons, doWrites, doWriteAll]
    cases h : doWrite g x.1 x.2 with
    | ub => rfl
    | ok r =>
      simp only [Res.bind_ok]
      rw [doWrites_all xs r.1]
      cases h2 : doWriteAll r.1 xs with
      | ub => rfl
      | ok q => rfl

theorem stableSorted_map {its : List Given} {recs : List (LItem (List Dbl))}
    (h : StableSorted LItem.key (its.map fun x => (⟨x.1, x.2⟩ : LItem (List Dbl))) recs) :
    ∃ ss : List Given, recs = ss.map (fun x => ⟨x.1, x.2⟩) ∧ StableSorted Prod.fst its ss := by
  refine ⟨recs.map fun r => (r.key, r.val), ?_, ?_, ?_⟩
  · rw [List.map_map]
    exact (List.map_id recs).symm
  · rw [List.pairwise_map]
    exact h.sorted
  · intro k
    have h1 := congrArg (List.map fun r : LItem (List Dbl) => (r.key, r.val)) (h.stable k)
    rw [List.filter_map, List.map_map] at h1
    rw [List.filter_map]
    refine Eq.trans h1 ?_
    exact List.map_id _

theorem Sess.finishTotal {z : Cz} {g : Gx} {m : Nat} {d : SymDesc} {rs : List Rec} {l : List Given} (h : Sess g m d rs l) (hn : 0 ≤ g.nextWrite) :
    ∃ g', Gdx.finishBlock z g = .ok g' := by
  obtain ⟨syms, s, e1, e2, _⟩ := h.sym
  have hcur := h.blk.cur
  unfold Gdx.finishBlock
  have e3 : g.curSym = .ok s := by
    unfold Gx.curSym
    rw [hcur, e1]
    simp only [need, Res.bind_ok]
    rw [show ((m + 1 : Nat) : Int) = (m : Int) + 1 by push_cast; rfl]
    exact at1_nat e2
  rw [e3]
  simp only [Res.bind_ok]
  rw [if_neg (by omega)]
  unfold Gx.modCur
  rw [hcur, e1]
  simp only [need, Res.bind_ok]
  rw [if_pos ⟨by omega, (List.getElem?_eq_some_iff.mp e2).1⟩]
  exact ⟨_, rfl⟩

theorem Coll.init {g : Gx} {m : Nat} {d : SymDesc} {its : List Given} (h : Coll g m d its) {n : Int} (hn : I32 n) (hw : 0 ≤ g.nextWrite) (ht : TabFits g) :
    ∃ g', initDoWrite g n = .ok g' ∧ Sess g' m d [] [] := by
  obtain ⟨u, t1, t2, t3⟩ := h.tab
  have hsz := ht u t1
  obtain ⟨syms, s, e1, e2, e3, e4⟩ := h.sym
  have hi : ∃ g', initDoWrite g n = .ok g' := by
    unfold initDoWrite
    rw [if_neg]
    · unfold Gx.modCur
      rw [h.beg.cur, e1]
      simp only [need, Res.bind_ok]
      rw [if_pos ⟨by omega, (List.getElem?_eq_some_iff.mp e2).1⟩]
      exact ⟨_, rfl⟩
    · push Not
      refine ⟨hw, ?_, hn⟩
      intro b hb
      have := t2 b hb
      unfold BndOk intMax at this
      unfold I32
      omega
  obtain ⟨g', hi⟩ := hi
  refine ⟨g', hi, h.beg.initDoWrite hi, ?_⟩
  obtain ⟨_, _, _, m', syms', s', a1, a2, a3, rfl⟩ := initDoWrite_ok hi
  rw [h.beg.cur] at a1
  cases a1
  rw [e1] at a2
  cases a2
  rw [e2] at a3
  cases a3
  refine ⟨_, { s with pos := g.nextWrite }, rfl, List.getElem?_set_self (List.getElem?_eq_some_iff.mp e2).1, ⟨e3.name, e3.dim, e3.typ, e3.ui⟩, ⟨e4.typ, e4.txt, e4.bits⟩⟩

theorem DomsFix.setSym {g g' : Gx} {m : Nat} {doms : List Dom} (h : DomsFix g m doms) {syms : List Sym} {s s' : Sym} (hn : g.names = some syms)
    (hm : syms[m]? = some s) (hb : s'.bitmap = s.bitmap) (h1 : g'.wrBits = g.wrBits) (hd : g'.curDim = g.curDim)
    (h2 : g'.names = some (syms.set m s')) : DomsFix g' m doms := by
  have hnd : g'.nd = g.nd := by unfold Gx.nd; rw [hd]
  refine ⟨by rw [h1]; exact h.free, ?_⟩
  rw [h1, hnd]
  intro d t hlt hd
  obtain ⟨a1, syms', s1, b, a2, a3, a4, a5, a6⟩ := h.set d t hlt hd
  rw [hn] at a2
  cases a2
  refine ⟨a1, _, if m = t - 1 then s' else s1, b, h2, ?_, ?_, a5, a6⟩
  · rw [List.getElem?_set]
    split
    · rw [if_pos (List.getElem?_eq_some_iff.mp hm).1]
    · exact a3
  · split
    · rename_i e
      subst e
      rw [hm] at a3
      cases a3
      rw [hb, a4]
    · exact a4

/-- gdxDataWriteDone after records were collected -/
theorem Coll.done {z : Cz} {g : Gx} {m : Nat} {d : SymDesc} {its : List Given} {doms : List Dom} (h : Coll g m d its) (hr : SortMode g.mode)
    (hi : Inv g) (hst : g.stat = .write) (ht : TabFits g) (hn : (its.length : Int) ≤ intMax) (hd : DomsFix g m doms) :
    ∃ ss g', StableSorted Prod.fst its ss ∧ dataWriteDone z g = .ok (g', true) ∧ g'.mode = .wInit ∧
      g'.errTotal = g.errTotal + (refusals doms g.nd none ss).length ∧
      g'.raised = g.raised ++ (refusals doms g.nd none ss).map (fun r => r.1.code) ∧
      NoteAll doms [] (refusals doms g.nd none ss) (g'.errList.getD []) ∧
      ∃ s, d.Of s ∧ SymLog s (storedOf doms g.nd none ss) ∧
        Kept z m s ((storedOf doms g.nd none ss).map fun x => stored g.sv x.1 x.2) g' := by
  have hnext := (hi.head hst).next
  have hac : g.acros.isSome = true := (hi.head hst).tabs.acros
  obtain ⟨s, s1, s2, s3⟩ := h.sort
  have hlen : s.items.length = its.length := by rw [s3, List.length_map]
  obtain ⟨gi, e1, hS⟩ := h.init (n := s.items.length) (by unfold I32 intMax at *; omega) (by omega) ht
  obtain ⟨gis, gib, gin, m', syms', s', a1, a2, a3, hgi⟩ := initDoWrite_ok e1
  rw [h.beg.cur] at a1
  cases a1
  -- the sorted records
  have hread : ∃ ss : List Given, s.readAll g.nd = .ok (ss.map fun x => ⟨x.1, x.2⟩) ∧ StableSorted Prod.fst its ss := by
    unfold LData.readAll
    by_cases h0 : s.items.length = 0
    · rw [if_pos h0]
      have : its = [] := by
        rw [hlen] at h0
        exact List.length_eq_zero_iff.mp h0
      subst this
      exact ⟨[], rfl, ⟨List.Pairwise.nil, fun _ => rfl⟩⟩
    · rw [if_neg h0]
      obtain ⟨s4, b1, b2⟩ := s2.sort
      rw [b1, s3] at *
      obtain ⟨ss, c1, c2⟩ := stableSorted_map b2
      exact ⟨ss, by rw [Res.bind_ok, c1]; rfl, c2⟩
  obtain ⟨ss, r1, r2⟩ := hread
  have hmem : ∀ x ∈ ss, x ∈ its := fun x hx => (r2.mem x).mp hx
  obtain ⟨u, t1, t2, t3⟩ := h.tab
  have hsz := ht u t1
  -- writing them
  have hnd : gi.nd = g.nd := by rw [hgi]; rfl
  have hf : ∀ x ∈ ss, GivenFits gi x := by
    intro x hx
    have hx := hmem x hx
    have hk : ∀ k ∈ x.1, KeyOk k := by
      intro k hk
      have := t3 x hx k hk
      unfold KeyOk
      omega
    have hb := h.bnd x hx
    refine ⟨?_, ⟨?_, hk⟩, ?_, hk⟩
    · rw [hnd]
      have := hb.length_eq
      rw [← this]
      exact h.beg.bl
    · rw [show gi.bounds = g.bounds by rw [hgi]]
      unfold InB at hb
      have hall : ∀ b ∈ g.bounds, 0 ≤ b.1 := fun b hb' => (t2 b hb').1
      generalize g.bounds = bs at hb hall
      generalize x.1 = key at hb hk
      clear * - hb hall hk
      induction hb with
      | nil => exact .nil
      | @cons b k bs ks h1 _ ih =>
        refine .cons ?_ (ih (fun b hb' => hall b (by simp [hb'])) (fun k hk' => hk k (by simp [hk'])))
        have h2 := hall b (by simp)
        have h3 := hk k (by simp)
        unfold KeyOk at h3
        refine ⟨h1.1, h1.2, ?_⟩
        unfold I32
        omega
    · rw [show gi.dataSize = g.dataSize by rw [hgi]]
      exact h.size x hx
  have hdf : DomsFix gi m doms := hd.setSym a2 a3 (s' := { s' with pos := g.nextWrite }) rfl (by rw [hgi]) (by rw [hgi]) (by rw [hgi])
  have hssl : ss.length = its.length := r2.perm.length_eq
  obtain ⟨gd, w1, w2, w3, w4, w5⟩ := hS.all ss hf hdf (by rw [hgi]; exact hac) (by simp) (by rw [hssl]; simpa using hn)
    (by rw [show gi.errList = g.errList by rw [hgi], h.errs]; simp)
  have hlk : lastKey none ([] : List Rec) = none := rfl
  rw [hlk, hnd] at w1 w4 w5
  rw [show gi.sv = g.sv by rw [hgi]] at w5
  simp only [List.nil_append] at w5
  -- the end mark
  have hnx : gd.nextWrite = g.nextWrite := w3.next.trans (by rw [hgi])
  have hmj : gd.majorPos = g.majorPos := w3.major.trans (by rw [hgi])
  have hst2 : gd.stat = .write := w3.stat.trans (by rw [hgi]; exact hst)
  have w6 : Sess { gd with sort := none, readPtr := if ss.map (fun x => (⟨x.1, x.2⟩ : LItem (List Dbl))) = [] then none else some [] } m d
      ((storedOf doms g.nd none ss).map fun x => stored g.sv x.1 x.2) (storedOf doms g.nd none ss) :=
    w5.keep (w5.blk.congr rfl rfl rfl rfl rfl rfl rfl rfl rfl) rfl
  obtain ⟨g', f1⟩ := w6.finishTotal (z := z) (by show 0 ≤ gd.nextWrite; omega)
  obtain ⟨f2, f3⟩ := w6.finishBlock' (by show (gd.majorPos : Int) + 80 ≤ gd.nextWrite; rw [hmj, hnx]; exact hnext) hst2 f1
  refine ⟨ss, g', r2, ?_, f2, ?_, ?_, ?_, f3⟩
  · unfold dataWriteDone
    rcases chk_cases g [.wRaw, .wMap, .wStr, .wDomRaw, .wDomMap, .wDomStr] with ⟨hm, hc⟩ | ⟨hm, hc⟩
    · simp only [hc, Bool.true_eq_false, if_false]
      rw [if_neg (by rcases hr with (hr | hr) | (hr | hr) <;> rw [hr] <;> decide), s1]
      simp only [need, Res.bind_ok]
      rw [e1]
      simp only [Res.bind_ok]
      rw [hnd, r1]
      simp only [Res.bind_ok]
      rw [doWrites_all, w1]
      simp only [Res.bind_ok]
      rw [f1]
      rfl
    · rcases hr with (hr | hr) | (hr | hr) <;> simp [hr] at hm
  all_goals obtain ⟨_, _, _, _, _, _, _, rfl⟩ := finishBlock_ok f1
  · show gd.errTotal = _
    rw [w4.total, hgi]
  · show gd.raised = _
    rw [w4.raised, hgi]
  · show NoteAll _ _ _ (gd.errList.getD [])
    have := w4.list
    rw [show gi.errList = g.errList by rw [hgi], h.errs] at this
    exact this

end Gdx
