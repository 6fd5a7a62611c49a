import Verif.Props.Lengths

/-!
C28: gdxGetDomainElements enumerates the distinct elements of a position.
-/

namespace Gdx.Props

open Gdx Spec

/-! ### reading does not depend on the error list -/

theorem remapIndex_err (g : Gx) (l : Option (List (List Int × List Dbl))) (n : Int) :
    remapIndex { g with errList := l } n = (remapIndex g n >>= fun x => .ok ({ x.1 with errList := l }, x.2)) := by
  unfold remapIndex
  dsimp only
  generalize need g.acros = r
  cases r with
  | ub => rfl
  | ok a =>
    simp only [Res.bind_ok]
    cases acrFind a n with
    | none =>
      simp only
      split
      · rfl
      split <;> rfl
    | some k =>
      simp only
      cases at0 a k with
      | ub => rfl
      | ok x =>
        simp only [Res.bind_ok]
        split
        · rfl
        split
        · rfl
        split <;> rfl

theorem readVal_err (g : Gx) (l : Option (List (List Int × List Dbl))) (v : SVal) :
    readVal { g with errList := l } v = (readVal g v >>= fun x => .ok ({ x.1 with errList := l }, x.2)) := by
  cases v with
  | code c => rfl
  | num d =>
    unfold readVal
    simp only
    split
    · unfold acronymRemap
      split
      · rfl
      split
      · rfl
      cases acrDiv d with
      | ub => rfl
      | ok n =>
        simp only [Res.bind_ok]
        rw [remapIndex_err]
        cases remapIndex g n <;> rfl
    · rfl

theorem readVals_err : ∀ (vs : List SVal) (g : Gx) (l : Option (List (List Int × List Dbl))),
    readVals { g with errList := l } vs = (readVals g vs >>= fun x => .ok ({ x.1 with errList := l }, x.2))
  | [], _, _ => rfl
  | v :: vs, g, l => by
    unfold readVals
    rw [readVal_err]
    cases readVal g v with
    | ub => rfl
    | ok x =>
      simp only [Res.bind_ok]
      rw [readVals_err vs x.1 l]
      cases readVals x.1 vs <;> rfl

theorem doRead_err (g : Gx) (l : Option (List (List Int × List Dbl))) :
    doRead { g with errList := l } = (doRead g >>= fun x => .ok ({ x.1 with errList := l }, x.2)) := by
  unfold doRead
  dsimp only
  split
  · split
    · rfl
    split <;> rfl
  · show (g.curSym >>= _) = (g.curSym >>= _) >>= _
    cases g.curSym with
    | ub => rfl
    | ok s =>
      simp only [Res.bind_ok]
      split
      · rfl
      show (rdOk (decRec g.nd g.deltaRead g.dataSize (g.bounds.map posDesc) g.last) g.rest >>= _) =
        (rdOk (decRec g.nd g.deltaRead g.dataSize (g.bounds.map posDesc) g.last) g.rest >>= _) >>= _
      cases rdOk (decRec g.nd g.deltaRead g.dataSize (g.bounds.map posDesc) g.last) g.rest with
      | ub => rfl
      | ok x =>
        obtain ⟨o, r⟩ := x
        simp only [Res.bind_ok]
        cases o with
        | none => rfl
        | some y =>
          simp only
          have := readVals_err y.2.vals { g with rest := r } l
          have e : ({ g with errList := l, rest := r } : Gx) = { ({ g with rest := r } : Gx) with errList := l } := rfl
          rw [e, this]
          cases readVals { g with rest := r } y.2.vals with
          | ub => rfl
          | ok w =>
            simp only [Res.bind_ok]
            show (remapTexts w.1 s w.2 >>= _) = (remapTexts w.1 s w.2 >>= _) >>= _
            cases remapTexts w.1 s w.2 <;> rfl

theorem addErrDom_eq (g : Gx) (key : List Int) (vals : List Dbl) : ∃ l, addErrDom g key vals = { g with errList := l } := by
  unfold addErrDom
  dsimp only
  split
  · exact ⟨g.errList, rfl⟩
  split <;> exact ⟨_, rfl⟩

/-! ### marking -/

/-- the map has 1 at the numbers of `S` and -1 elsewhere -/
structure Marks (m : IntMap) (S : Int → Prop) : Prop where
  one : ∀ i, m.get i = 1 ↔ S i
  other : ∀ i, ¬ S i → m.get i = -1
  hi : ∀ i, S i → i ≤ m.highest

theorem Marks.empty : Marks IntMap.empty fun _ => False :=
  ⟨fun i => by rw [IntMap.empty_get]; simp, fun i _ => IntMap.empty_get i, fun _ h => h.elim⟩

theorem Marks.congr {m : IntMap} {S T : Int → Prop} (h : Marks m S) (e : ∀ i, S i ↔ T i) : Marks m T := by
  have : S = T := funext fun i => propext (e i)
  exact this ▸ h

theorem Marks.set {m : IntMap} {S : Int → Prop} (h : Marks m S) (e : Int) (he : 0 ≤ e ∧ e < maxCapacity) :
    ∃ m', m.set e 1 = .ok m' ∧ Marks m' fun i => S i ∨ i = e := by
  obtain ⟨m', h1, h2, h3⟩ := IntMap.set_spec m e 1 he
  refine ⟨m', h1, ?_, ?_, ?_⟩
  · intro i
    rw [h2]
    split
    · rename_i hi; simp [hi]
    · rename_i hi; rw [h.one]; simp [hi]
  · intro i hi
    rw [h2, if_neg (fun e => hi (Or.inr e))]
    exact h.other i fun e => hi (Or.inl e)
  · rintro i (hi | hi)
    · have := h.hi i hi
      omega
    · omega

/-- does the element pass the filter? Its user number must be in it. -/
def Passes (g : Gx) (flt : Option Filt) (e : Int) : Prop :=
  ∀ f, flt = some f → ∃ t v, umUelGet g e = .ok (true, t, v) ∧ f.mem v = true

theorem passes_iff {g : Gx} (hg : GoodElems g) {u : Uel} (hu : g.uel = some u) (f : Filt) (e : Int) (he : 1 ≤ e ∧ e ≤ u.ents.length) :
    ∃ v, u.userMap e = .ok v ∧ (Passes g (some f) e ↔ f.mem v = true) := by
  obtain ⟨⟨x, d⟩, hx⟩ := at1_total (l := u.ents) he.1 he.2
  have hget := umUelGet_in hg hu (at1_ok hx).2.2
  rw [show (((e - 1).toNat : Nat) : Int) + 1 = e by omega] at hget
  refine ⟨d, ?_, ?_⟩
  · unfold Uel.userMap
    rw [hx]
    rfl
  · constructor
    · intro h
      obtain ⟨t, v, h1, h2⟩ := h f rfl
      rw [hget] at h1
      cases h1
      exact h2
    · intro h f' hf'
      cases hf'
      exact ⟨x, d, hget, h⟩

/-- the elements in position `d` of the records (that pass the filter) -/
def Occurs (g : Gx) (flt : Option Filt) (d : Nat) (outs : List (RecOut Int)) (e : Int) : Prop :=
  (∃ o ∈ outs, o.key[d]? = some e) ∧ Passes g flt e

theorem passes_same {g g' : Gx} (h : g'.uel = g.uel) (flt : Option Filt) (e : Int) : Passes g' flt e ↔ Passes g flt e := by
  unfold Passes umUelGet
  rw [h]

theorem domLoopRead_yields {u : Uel} (flt : Option Filt) (d : Nat) {g g' : Gx} {outs : List (RecOut Int)} (h : Yields g outs g') :
    GoodElems g → g.uel = some u → d < g.nd → (∀ o ∈ outs, ∃ e, o.key[d]? = some e ∧ 1 ≤ e ∧ e ≤ u.ents.length ∧ e < maxCapacity) →
    ∀ (fuel : Nat) (m : IntMap) (S : Int → Prop) (l : Option (List (List Int × List Dbl))), outs.length < fuel → Marks m S →
      ∃ m' l', domLoopRead flt d fuel { g with errList := l } m = .ok ({ g' with errList := l' }, m') ∧
        Marks m' (fun i => S i ∨ Occurs g flt d outs i) ∧ (flt = none → l' = l) := by
  induction h with
  | @done g g' h =>
    intro hg hu hd hk fuel m S l hf hm
    obtain ⟨n, rfl⟩ : ∃ n, fuel = n + 1 := ⟨fuel - 1, by omega⟩
    refine ⟨m, l, ?_, hm.congr (by intro i; unfold Occurs; simp), fun _ => rfl⟩
    unfold domLoopRead
    rw [doRead_err, h]
    rfl
  | @next g g1 g' fd vals rs h _ ih =>
    intro hg hu hd hk fuel m S l hf hm
    obtain ⟨n, rfl⟩ : ∃ n, fuel = n + 1 := ⟨fuel - 1, by simp at hf; omega⟩
    have hst : RdStep g g1 := ((doRead_step g).of_ok h).1
    have hu1 : g1.uel = some u := hst.uel.trans hu
    have hgood : GoodElems g1 := by
      intro v hv
      rw [hst.uel] at hv
      exact hg v hv
    obtain ⟨e, he1, he2, he3, he4⟩ := hk _ List.mem_cons_self
    have hlast : g1.last[d]? = some e := by
      have h1 : (g1.last.take g1.nd)[d]? = some e := he1
      rw [List.getElem?_take, hst.nd, if_pos hd] at h1
      exact h1
    have ih := ih hgood hu1 (by rw [hst.nd]; exact hd) (fun o ho => hk o (List.mem_cons_of_mem _ ho)) n
    have hlen : rs.length < n := by simp at hf; omega
    have hocc : ∀ i, Occurs g flt d (recOf g1 vals fd :: rs) i ↔ ((i = e ∧ Passes g flt e) ∨ Occurs g1 flt d rs i) := by
      intro i
      unfold Occurs
      rw [passes_same hst.uel]
      constructor
      · rintro ⟨⟨o, ho, hi⟩, hp⟩
        rcases List.mem_cons.mp ho with rfl | ho
        · rw [he1] at hi
          cases hi
          exact Or.inl ⟨rfl, hp⟩
        · exact Or.inr ⟨⟨o, ho, hi⟩, hp⟩
      · rintro (⟨rfl, hp⟩ | ⟨⟨o, ho, hi⟩, hp⟩)
        · exact ⟨⟨_, List.mem_cons_self, he1⟩, hp⟩
        · exact ⟨⟨o, List.mem_cons_of_mem _ ho, hi⟩, hp⟩
    have hhead : ∀ k : Gx × Option (Nat × List Dbl) → Res (Gx × IntMap),
        (doRead { g with errList := l } >>= k) = k ({ g1 with errList := l }, some (fd, vals)) := by
      intro k
      rw [doRead_err, h]
      rfl
    obtain ⟨m1, hm1, hm2⟩ := hm.set e ⟨by omega, he4⟩
    have hmark : Passes g flt e → ∃ m' l', domLoopRead flt d n { g1 with errList := l } m1 = .ok ({ g' with errList := l' }, m') ∧
        Marks m' (fun i => S i ∨ Occurs g flt d (recOf g1 vals fd :: rs) i) ∧ (flt = none → l' = l) := by
      intro hp
      obtain ⟨m', l', e1, e2, e3⟩ := ih m1 _ l hlen hm2
      refine ⟨m', l', e1, e2.congr ?_, e3⟩
      intro i
      rw [hocc]
      simp only [hp, and_true]
      tauto
    cases flt with
    | none =>
      obtain ⟨m', l', e1, e2, e3⟩ := hmark (fun f hf => by cases hf)
      refine ⟨m', l', ?_, e2, e3⟩
      rw [domLoopRead, hhead]
      simp only
      show (need g1.last[d]? >>= _) = _
      rw [hlast]
      simp only [need, Res.bind_ok]
      rw [hm1]
      exact e1
    | some f =>
      obtain ⟨v, hv1, hv2⟩ := passes_iff hg hu f e ⟨he2, he3⟩
      by_cases hp : f.mem v = true
      · obtain ⟨m', l', e1, e2, e3⟩ := hmark (hv2.mpr hp)
        refine ⟨m', l', ?_, e2, e3⟩
        rw [domLoopRead, hhead]
        simp only
        show (need g1.last[d]? >>= _) = _
        rw [hlast, show need (some e) = .ok e from rfl]
        simp only [Res.bind_ok]
        rw [show need g1.uel = .ok u by rw [hu1]; rfl]
        simp only [Res.bind_ok]
        rw [hv1]
        simp only [Res.bind_ok]
        rw [if_pos hp, hm1]
        exact e1
      · obtain ⟨l1, hl1⟩ := addErrDom_eq { g1 with errList := l } (g1.last.modify d (- ·)) vals
        obtain ⟨m', l', e1, e2, e3⟩ := ih m _ l1 hlen hm
        refine ⟨m', l', ?_, e2.congr ?_, fun h => by cases h⟩
        · rw [domLoopRead, hhead]
          simp only
          show (need g1.last[d]? >>= _) = _
          rw [hlast, show need (some e) = .ok e from rfl]
          simp only [Res.bind_ok]
          rw [show need g1.uel = .ok u by rw [hu1]; rfl]
          simp only [Res.bind_ok]
          rw [hv1]
          simp only [Res.bind_ok]
          rw [if_neg hp, hl1]
          exact e1
        · intro i
          rw [hocc]
          have : ¬ Passes g (some f) e := fun h => hp (hv2.mp h)
          simp [this]

/-! ### the elements found -/

theorem marked_mem {m : IntMap} {S : Int → Prop} (h : Marks m S) (e : Int) : e ∈ marked m ↔ S e ∧ 1 ≤ e := by
  unfold marked
  rw [List.mem_filterMap]
  constructor
  · rintro ⟨n, _, hn⟩
    split at hn
    · rename_i h1
      cases hn
      exact ⟨(h.one _).mp h1, by omega⟩
    · cases hn
  · rintro ⟨h1, h2⟩
    have := h.hi e h1
    refine ⟨(e - 1).toNat, List.mem_range.mpr (by omega), ?_⟩
    rw [show (((e - 1).toNat : Nat) : Int) + 1 = e by omega, if_pos ((h.one e).mpr h1)]

theorem marked_lt (m : IntMap) : (marked m).Pairwise (· < ·) := by
  unfold marked
  rw [List.pairwise_filterMap]
  refine List.Pairwise.imp ?_ List.pairwise_lt_range
  intro a b hab x hx y hy
  split at hx
  · split at hy
    · cases hx
      cases hy
      omega
    · cases hy
  · cases hx

/-! ### user numbers -/

theorem numberAll_ok : ∀ (es : List Int) (u : Uel), (∀ e ∈ es, 1 ≤ e ∧ e ≤ u.ents.length) → 0 ≤ u.usr.highest →
    u.usr.highest + es.length < maxCapacity → ∃ u' ps, numberAll u es = .ok (u', ps) ∧ ps.map Prod.snd = es ∧ u'.strs = u.strs ∧
      (∀ e v, 0 ≤ v → u.userMap e = .ok v → u'.userMap e = .ok v) ∧ (∀ p ∈ ps, u'.userMap p.2 = .ok p.1 ∧ 0 ≤ p.1) ∧ (UsrOk u → UsrOk u')
  | [], u, _, _, _ => ⟨u, [], rfl, rfl, rfl, fun _ _ _ h => h, by simp, id⟩
  | e :: es, u, he, h0, hh => by
    obtain ⟨h1, h2⟩ := he e List.mem_cons_self
    obtain ⟨⟨x, d⟩, hx⟩ := at1_total (l := u.ents) h1 h2
    have hum : u.userMap e = .ok d := by
      unfold Uel.userMap
      rw [hx]
      rfl
    have key : ∃ u1 v, u.newUsrUel e = .ok (u1, v) ∧ 0 ≤ v ∧ u1.strs = u.strs ∧ u1.ents.length = u.ents.length ∧
        0 ≤ u1.usr.highest ∧ u1.usr.highest ≤ u.usr.highest + 1 ∧
        u1.userMap e = .ok v ∧ (∀ e v, 0 ≤ v → u.userMap e = .ok v → u1.userMap e = .ok v) ∧ (UsrOk u → UsrOk u1) := by
      unfold Uel.newUsrUel
      rw [hum]
      simp only [Res.bind_ok]
      by_cases hd : d < 0
      · rw [if_pos hd]
        obtain ⟨m', s1, s2, s3⟩ := IntMap.set_spec u.usr (u.usr.highest + 1) (e.toNat : Int) ⟨by omega, by simp at hh; omega⟩
        have hstep := UelStep.newUsr (k := fun _ => True) u e.toNat x d m' (by rw [Int.toNat_of_nonneg (by omega)]; exact hx) hd s1
        have hget : ∀ y : Int, 1 ≤ y → y ≤ u.ents.length → ∀ w, at1 u.ents y = .ok w →
            at1 (u.setMap e.toNat (u.usr.highest + 1)).ents y = .ok (if y = e then (w.1, u.usr.highest + 1) else w) := by
          intro y y1 y2 w hw
          have := (at1_ok hw).2.2
          unfold at1 Uel.setMap
          simp only
          rw [if_pos y1, List.getElem?_modify, this]
          by_cases hy : y = e
          · subst hy
            rw [if_pos rfl]
            show (match some (if y.toNat - 1 = (y - 1).toNat then (w.1, u.usr.highest + 1) else w) with | some a => Res.ok a | none => Res.ub) = _
            rw [if_pos (by omega)]
          · rw [if_neg hy]
            show (match some (if e.toNat - 1 = (y - 1).toNat then (w.1, u.usr.highest + 1) else w) with | some a => Res.ok a | none => Res.ub) = _
            rw [if_neg (by omega)]
        have hnew : u.newUsr e.toNat = .ok ({ u.setMap e.toNat (u.usr.highest + 1) with usr := m', stat := none }, u.usr.highest + 1) := by
          unfold Uel.newUsr
          dsimp only
          rw [s1]
          rfl
        refine ⟨_, u.usr.highest + 1, hnew, by omega, setMap_strs u _ _, ?_, ?_, ?_, ?_, ?_, ?_⟩
        · simp [Uel.setMap]
        · show 0 ≤ m'.highest
          omega
        · show m'.highest ≤ _
          omega
        · unfold Uel.userMap
          show (at1 (u.setMap e.toNat (u.usr.highest + 1)).ents e >>= _) = _
          rw [hget e h1 h2 _ hx, if_pos rfl]
          rfl
        · intro y v hv hy
          obtain ⟨s, hs⟩ := userMap_ok hy
          have hr := at1_ok hs
          unfold Uel.userMap
          show (at1 (u.setMap e.toNat (u.usr.highest + 1)).ents y >>= _) = _
          rw [hget y hr.1 hr.2.1 _ hs]
          by_cases hye : y = e
          · subst hye
            rw [hum] at hy
            cases hy
            omega
          · rw [if_neg hye]
            rfl
        · exact fun hk => hstep.usrOk hk
      · rw [if_neg hd]
        exact ⟨_, d, rfl, by omega, rfl, rfl, h0, by show u.usr.highest ≤ _; omega, hum, fun _ _ _ h => h, fun hk => UelStep.usrOk (lc := fun _ => True) (.stat u none (Or.inl rfl)) hk⟩
    obtain ⟨u1, v, k1, k2, k3, k4, k5, k6, k7, k8, k9⟩ := key
    simp only [List.length_cons] at hh
    obtain ⟨u', ps, e1, e2, e3, e4, e5, e6⟩ := numberAll_ok es u1 (by
      intro y hy
      rw [k4]
      exact he y (List.mem_cons_of_mem _ hy)) k5 (by omega)
    refine ⟨u', (v, e) :: ps, ?_, by simp [e2], e3.trans k3, fun y w hw hy => e4 y w hw (k8 y w hw hy), ?_, fun hk => e6 (k9 hk)⟩
    · unfold numberAll
      rw [k1]
      simp only [Res.bind_ok]
      rw [e1]
      rfl
    · intro p hp
      rcases List.mem_cons.mp hp with rfl | hp
      · exact ⟨e4 e v k2 k7, k2⟩
      · exact e5 p hp

theorem insPair_perm (p : Int × Int) : ∀ l, (insPair p l).Perm (p :: l)
  | [] => List.Perm.refl _
  | q :: qs => by
    unfold insPair
    split
    · exact ((insPair_perm p qs).cons q).trans (List.Perm.swap p q qs)
    · exact List.Perm.refl _

theorem sortPairs_perm : ∀ l, (sortPairs l).Perm l
  | [] => List.Perm.refl _
  | p :: ps => (insPair_perm p _).trans ((sortPairs_perm ps).cons p)

theorem insPair_sorted (p : Int × Int) : ∀ l : List (Int × Int), l.Pairwise (fun a b => a.1 ≤ b.1) → (insPair p l).Pairwise (fun a b => a.1 ≤ b.1)
  | [], _ => by simp [insPair]
  | q :: qs, h => by
    unfold insPair
    obtain ⟨h1, h2⟩ := List.pairwise_cons.mp h
    split
    · rename_i hlt
      refine List.pairwise_cons.mpr ⟨?_, insPair_sorted p qs h2⟩
      intro r hr
      rcases List.mem_cons.mp ((insPair_perm p qs).subset hr) with rfl | hr
      · omega
      · exact h1 r hr
    · rename_i hlt
      refine List.pairwise_cons.mpr ⟨?_, h⟩
      intro r hr
      rcases List.mem_cons.mp hr with rfl | hr
      · omega
      · have := h1 r hr
        omega

theorem sortPairs_sorted : ∀ l : List (Int × Int), (sortPairs l).Pairwise (fun a b => a.1 ≤ b.1)
  | [] => List.Pairwise.nil
  | p :: ps => insPair_sorted p _ (sortPairs_sorted ps)

/-- the filter that a number stands for: none for DOMC_EXPAND, otherwise the registered one -/
def FilterOf (g : Gx) (flt : Int) (F : Option Filt) : Prop :=
  (flt = -1 ∧ F = none) ∨ (flt ≠ -1 ∧ ∃ l f, g.filters = some l ∧ findFilter l flt = some f ∧ F = some f)

theorem getDomain_run {z : Cz} {g g1 g2 : Gx} {nr n dimPos flt : Int} {F : Option Filt} {outs : List (RecOut Int)} (cb : Bool)
    (hm : g.mode = .rInit) (hg : GoodElems g) {u : Uel} (hu : g.uel = some u) (hf : g.filters ≠ none)
    (h : dataReadRawStart z g nr = .ok (g1, (true, n))) (hr : DeliversRaw g1 outs g2)
    (hn : 1 ≤ nr) (hd : 1 ≤ dimPos ∧ dimPos ≤ (symbolInfo g nr).dim ∧ dimPos ≤ g1.curDim) (hF : FilterOf g flt F)
    (hk : ∀ o ∈ outs, ∃ e, o.key[dimPos.toNat - 1]? = some e ∧ 1 ≤ e ∧ e ≤ u.ents.length) (hc : u.ents.length < maxCapacity) :
    ∃ m l, Marks m (Occurs g F (dimPos.toNat - 1) outs) ∧ (F = none → { g2 with errList := l } = g2) ∧ g2.uel = some u ∧ g2.mode = .rInit ∧
      getDomainElements z g nr dimPos flt cb = (if cb = false then .ok ({ g2 with errList := l }, (true, ((marked m).length : Int), []))
        else numberAll u (marked m) >>= fun x => .ok ({ g2 with errList := l, uel := some x.1 },
          (true, ((marked m).length : Int), (sortPairs x.2).map fun p => (p.2, p.1)))) := by
  obtain ⟨h1, h2, h3, h4⟩ := rawStart_prep h
  obtain ⟨s1, s2, s3, s4, syms, t, s5, s6, s7, s8⟩ := rawStart_same hm h
  obtain ⟨g', h5, h6⟩ := hr.yields h3
  have hu1 : g1.uel = some u := s1.trans hu
  have hg1 : GoodElems g1 := by
    intro v hv
    rw [s1] at hv
    exact hg v hv
  have hnd : dimPos.toNat - 1 < g1.nd := by
    have : g1.nd = g1.curDim.toNat := rfl
    omega
  obtain ⟨m, l, e1, e2, e3⟩ := domLoopRead_yields F (dimPos.toNat - 1) h5 hg1 hu1 hnd
    (fun o ho => by obtain ⟨e, a1, a2, a3⟩ := hk o ho; exact ⟨e, a1, a2, a3, by omega⟩) g1.fuel IntMap.empty (fun _ => False) g1.errList
    (Nat.lt_of_le_of_lt h5.len (left_lt_fuel g1)) Marks.empty
  have hst := h5.step
  rw [readDone_ok (hst.mode.trans h3) (hst.nrMapped.trans h4)] at h6
  simp only [Res.ok.injEq, Prod.mk.injEq, and_true] at h6
  subst h6
  have herr : g'.errList = g1.errList := by rw [hst]
  refine ⟨m, l, e2.congr ?_, ?_, hst.uel.trans hu1, rfl, ?_⟩
  · intro i
    unfold Occurs
    rw [passes_same s1]
    simp
  · intro hF0
    rw [e3 hF0, ← herr]
  · obtain ⟨fl, hfl⟩ := Option.ne_none_iff_exists'.mp hf
    obtain ⟨s, hs⟩ := at1_total (l := syms) hn s6.2
    have hsd : (symbolInfo g nr).dim = s.dim := by
      have := (at1_ok hs).2.2
      unfold symbolInfo
      rw [if_neg (by omega)]
      unfold Gx.symAt
      rw [s5]
      simp only
      rw [if_pos ⟨hn, s6.2⟩, this]
    rw [hsd] at hd
    unfold getDomainElements
    rw [show need g.names = .ok syms by rw [s5]; rfl]
    simp only [Res.bind_ok]
    rw [if_neg (by omega), hs]
    simp only [Res.bind_ok]
    rw [if_neg (by omega), if_neg (by omega), show need g.filters = .ok fl by rw [hfl]; rfl]
    simp only [Res.bind_ok]
    have hdf : domFilter fl flt = F ∧ ¬ (flt ≠ domcExpand ∧ domFilter fl flt = none) := by
      unfold domFilter
      rcases hF with ⟨rfl, rfl⟩ | ⟨hne, l', f, a1, a2, rfl⟩
      · simp [domcExpand]
      · rw [hfl] at a1
        cases a1
        rw [if_neg (show ¬ flt = domcExpand from hne), a2]
        simp
    rw [if_neg hdf.2, hdf.1]
    unfold prepareRawUnchecked
    rw [h1]
    simp only [Res.bind_ok]
    rw [if_neg (by omega)]
    simp only [Res.pure_eq, Res.bind_ok]
    rw [show ({ g1 with errList := g1.errList } : Gx) = g1 from rfl] at e1
    rw [e1]
    simp only [Res.bind_ok]
    rw [readDone_ok (g := { g' with errList := l }) (hst.mode.trans h3) (hst.nrMapped.trans h4)]
    simp only [Res.bind_ok]
    split
    · rfl
    · rw [show need g'.uel = .ok u by rw [hst.uel, hu1]; rfl]
      simp only [Res.bind_ok]

/-- C28 without a callback: NrElem is the number of the distinct elements `L` that occur in the position (and whose user number is
    in the filter, if there is one). -/
theorem C28_count (z : Cz) (g g1 g2 : Gx) (nr n dimPos flt : Int) (F : Option Filt) (outs : List (RecOut Int))
    (hm : g.mode = .rInit) (hg : GoodElems g) (hu : g.uel ≠ none) (hf : g.filters ≠ none)
    (h : dataReadRawStart z g nr = .ok (g1, (true, n))) (hr : DeliversRaw g1 outs g2)
    (hn : 1 ≤ nr) (hd : 1 ≤ dimPos ∧ dimPos ≤ (symbolInfo g nr).dim ∧ dimPos ≤ g1.curDim) (hF : FilterOf g flt F)
    (hk : ∀ o ∈ outs, ∃ e, o.key[dimPos.toNat - 1]? = some e ∧ 1 ≤ e ∧ e ≤ (systemInfo g).2) (hc : (systemInfo g).2 ≤ intMax) :
    ∃ (g3 : Gx) (L : List Int), getDomainElements z g nr dimPos flt false = .ok (g3, (true, ((L.length : Nat) : Int), [])) ∧ L.Nodup ∧
      (∀ e, e ∈ L ↔ Occurs g F (dimPos.toNat - 1) outs e) ∧ g3.mode = .rInit ∧ (F = none → g3 = g2) := by
  obtain ⟨u, hu⟩ := Option.ne_none_iff_exists'.mp hu
  have hcnt : (systemInfo g).2 = u.ents.length := by unfold systemInfo; rw [hu]; rfl
  rw [hcnt] at hk hc
  obtain ⟨m, l, h1, h2, h3, h4, h5⟩ := getDomain_run false hm hg hu hf h hr hn hd hF hk (by unfold maxCapacity; unfold intMax at hc; omega)
  rw [if_pos rfl] at h5
  refine ⟨_, marked m, h5, (marked_lt m).imp (fun h => by omega), ?_, h4, h2⟩
  intro e
  rw [marked_mem h1]
  constructor
  · exact And.left
  · intro he
    obtain ⟨⟨o, ho, hoe⟩, _⟩ := id he
    obtain ⟨e', a1, a2, _⟩ := hk o ho
    rw [hoe] at a1
    cases a1
    exact ⟨he, a2⟩

/-- C28 with a callback: it is called once for each of the distinct elements, in the order of the user numbers, with the user number
    that the element has afterwards. -/
theorem C28_callback (z : Cz) (g g1 g2 : Gx) (nr n dimPos flt : Int) (F : Option Filt) (outs : List (RecOut Int))
    (hm : g.mode = .rInit) (hg : GoodElems g) (hu : g.uel ≠ none) (hf : g.filters ≠ none)
    (h : dataReadRawStart z g nr = .ok (g1, (true, n))) (hr : DeliversRaw g1 outs g2)
    (hn : 1 ≤ nr) (hd : 1 ≤ dimPos ∧ dimPos ≤ (symbolInfo g nr).dim ∧ dimPos ≤ g1.curDim) (hF : FilterOf g flt F)
    (hk : ∀ o ∈ outs, ∃ e, o.key[dimPos.toNat - 1]? = some e ∧ 1 ≤ e ∧ e ≤ (systemInfo g).2)
    (hc : ∀ u, g.uel = some u → 0 ≤ u.usr.highest ∧ u.usr.highest + (systemInfo g).2 ≤ intMax) :
    ∃ (g3 : Gx) (ps : List (Int × Int)), getDomainElements z g nr dimPos flt true = .ok (g3, (true, ((ps.length : Nat) : Int), ps)) ∧ (ps.map Prod.fst).Nodup ∧
      (∀ e, e ∈ ps.map Prod.fst ↔ Occurs g F (dimPos.toNat - 1) outs e) ∧ (ps.map Prod.snd).Pairwise (· ≤ ·) ∧
      (∀ p ∈ ps, 0 ≤ p.2 ∧ ∃ t, umUelGet g3 p.1 = .ok (true, t, p.2)) ∧ (UsrCons g → (ps.map Prod.snd).Pairwise (· < ·)) ∧
      g3.mode = .rInit := by
  obtain ⟨u, hu⟩ := Option.ne_none_iff_exists'.mp hu
  have hcnt : (systemInfo g).2 = u.ents.length := by unfold systemInfo; rw [hu]; rfl
  have hc := hc u hu
  rw [hcnt] at hk hc
  obtain ⟨m, l, h1, h2, h3, h4, h5⟩ := getDomain_run true hm hg hu hf h hr hn hd hF hk (by unfold maxCapacity; unfold intMax at hc; omega)
  rw [if_neg (by simp)] at h5
  have hmem : ∀ e, e ∈ marked m ↔ Occurs g F (dimPos.toNat - 1) outs e := by
    intro e
    rw [marked_mem h1]
    constructor
    · exact And.left
    · intro he
      obtain ⟨⟨o, ho, hoe⟩, _⟩ := id he
      obtain ⟨e', a1, a2, _⟩ := hk o ho
      rw [hoe] at a1
      cases a1
      exact ⟨he, a2⟩
  have hin : ∀ e ∈ marked m, 1 ≤ e ∧ e ≤ u.ents.length := by
    intro e he
    obtain ⟨⟨o, ho, hoe⟩, _⟩ := (hmem e).mp he
    obtain ⟨e', a1, a2, a3⟩ := hk o ho
    rw [hoe] at a1
    cases a1
    exact ⟨a2, a3⟩
  have hnd : (marked m).Nodup := (marked_lt m).imp (fun h => by omega)
  have hlen : (marked m).length ≤ u.ents.length := by
    have hsub : ((marked m).map fun e => (e - 1).toNat) ⊆ List.range u.ents.length := by
      intro k hk
      obtain ⟨e, he, rfl⟩ := List.mem_map.mp hk
      have := hin e he
      exact List.mem_range.mpr (by omega)
    have hnd2 : ((marked m).map fun e => (e - 1).toNat).Nodup := by
      refine List.Nodup.map_on ?_ hnd
      intro a ha b hb hab
      have := hin a ha
      have := hin b hb
      omega
    have := (hnd2.subperm hsub).length_le
    simpa using this
  obtain ⟨u', ps, e1, e2, e3, e4, e5, e6⟩ := numberAll_ok (marked m) u hin hc.1 (by unfold maxCapacity; unfold intMax at hc; omega)
  rw [e1] at h5
  simp only [Res.bind_ok] at h5
  have hp := sortPairs_perm ps
  have hfst : ((sortPairs ps).map fun p => (p.2, p.1)).map Prod.fst = (sortPairs ps).map Prod.snd := by simp [List.map_map, Function.comp_def]
  have hsnd : ((sortPairs ps).map fun p => (p.2, p.1)).map Prod.snd = (sortPairs ps).map Prod.fst := by simp [List.map_map, Function.comp_def]
  have hpm : ((sortPairs ps).map Prod.snd).Perm (marked m) := e2 ▸ hp.map Prod.snd
  have hll : (((sortPairs ps).map fun p => (p.2, p.1)).length : Int) = (marked m).length := by
    rw [List.length_map, ← e2, List.length_map, hp.length_eq]
  have hgood : GoodElems { g2 with errList := l, uel := some u' } := by
    intro v hv
    cases hv
    have := hg u hu
    exact ⟨by rw [e3]; exact this.distinct, by rw [e3]; exact this.good⟩
  rw [← hll] at h5
  refine ⟨{ g2 with errList := l, uel := some u' }, (sortPairs ps).map fun p => (p.2, p.1), h5, ?_, ?_, ?_, ?_, ?_, h4⟩
  · rw [hfst]
    exact hpm.nodup_iff.mpr hnd
  · intro e
    rw [hfst, hpm.mem_iff]
    exact hmem e
  · rw [hsnd]
    exact List.pairwise_map.mpr (sortPairs_sorted ps)
  · intro p hp'
    obtain ⟨q, hq, rfl⟩ := List.mem_map.mp hp'
    obtain ⟨a1, a2⟩ := e5 q (hp.subset hq)
    obtain ⟨s, hs⟩ := userMap_ok a1
    have hr := at1_ok hs
    have := umUelGet_in hgood rfl hr.2.2
    rw [show (((q.2 - 1).toNat : Nat) : Int) + 1 = q.2 by omega] at this
    exact ⟨a2, s, this⟩
  · intro huc
    rw [hsnd]
    have hok := e6 (huc u hu)
    have hne : (ps.map Prod.fst).Nodup := by
      have hnds : (ps.map Prod.snd).Nodup := e2 ▸ hnd
      refine List.Nodup.map_on ?_ (List.Nodup.of_map Prod.snd hnds)
      intro a ha b hb hab
      obtain ⟨a1, a2⟩ := e5 a ha
      obtain ⟨b1, b2⟩ := e5 b hb
      obtain ⟨s, hs⟩ := userMap_ok a1
      obtain ⟨s', hs'⟩ := userMap_ok b1
      have ra := at1_ok hs
      have rb := at1_ok hs'
      have ka := (hok.bwd _ _ _ ra.2.2).resolve_left (by omega)
      have kb := (hok.bwd _ _ _ rb.2.2).resolve_left (by omega)
      rw [hab] at ka
      refine Prod.ext hab ?_
      omega
    have hnes : ((sortPairs ps).map Prod.fst).Nodup := (hp.map Prod.fst).nodup_iff.mpr hne
    have hsort : ((sortPairs ps).map Prod.fst).Pairwise (· ≤ ·) := List.pairwise_map.mpr (sortPairs_sorted ps)
    exact hsort.imp₂ (fun a b h1 h2 => by omega) hnes

/-- C28 for a symbol that holds the records `xs`, all with registered elements: position `dimPos`, no filter. The number is that of
    the distinct elements there; with a callback it is called once for each of them. -/
theorem C28_loaded (z : Cz) (hz : z.Good) (g : Gx) (hg : GoodElems g) (m : Nat) (d : SymDesc) (xs : List RawEntry) (h : Loaded z g m d xs)
    (nr : Int) (ht : Targets g nr m) (hx : ∀ x ∈ xs, ∀ e ∈ x.key, 1 ≤ e ∧ e ≤ (systemInfo g).2) (dimPos : Int) (h1 : 1 ≤ dimPos)
    (h2 : dimPos ≤ (symbolInfo g nr).dim) (h3 : dimPos ≤ d.dim)
    (hc : ∀ u, g.uel = some u → 0 ≤ u.usr.highest ∧ u.usr.highest + (systemInfo g).2 ≤ intMax) :
    (∃ (g3 : Gx) (L : List Int), getDomainElements z g nr dimPos (-1) false = .ok (g3, (true, ((L.length : Nat) : Int), [])) ∧ L.Nodup ∧
      (∀ e, e ∈ L ↔ ∃ x ∈ xs, x.key[dimPos.toNat - 1]? = some e) ∧ g3.mode = .rInit ∧ RdSame g g3) ∧
    ∃ (g3 : Gx) (ps : List (Int × Int)), getDomainElements z g nr dimPos (-1) true = .ok (g3, (true, ((ps.length : Nat) : Int), ps)) ∧
      (ps.map Prod.fst).Nodup ∧ (∀ e, e ∈ ps.map Prod.fst ↔ ∃ x ∈ xs, x.key[dimPos.toNat - 1]? = some e) ∧
      (ps.map Prod.snd).Pairwise (· ≤ ·) ∧ (∀ p ∈ ps, 0 ≤ p.2 ∧ ∃ t, umUelGet g3 p.1 = .ok (true, t, p.2)) ∧
      (UsrCons g → (ps.map Prod.snd).Pairwise (· < ·)) ∧ g3.mode = .rInit := by
  obtain ⟨outs, a1, ⟨g1, g2, a2, a3, a4, a5⟩, _⟩ := h.reads hz ht
  obtain ⟨hm, _, ⟨s, hs1, _, hs3⟩, u, hu, _⟩ := h
  have hdim : g1.curDim = d.dim := (target_dim hm hs3 ht a2).trans hs1.dim
  have hc0 := hc u hu
  have hu : g.uel ≠ none := by rw [hu]; simp
  have hf : g.filters ≠ none := by
    intro hf
    have := hs3.filt
    rw [hf] at this
    cases this
  unfold Delivered at a1
  rw [if_neg (by omega)] at a1
  have hkeys := sameRec_keys a1.recs
  have hn : 1 ≤ nr := by
    obtain ⟨_, _, b, _⟩ := ht
    exact b
  have hocc : ∀ e, Occurs g none (dimPos.toNat - 1) outs e ↔ ∃ x ∈ xs, x.key[dimPos.toNat - 1]? = some e := by
    intro e
    unfold Occurs Passes
    have b1 : (∃ o ∈ outs, o.key[dimPos.toNat - 1]? = some e) ↔ ∃ k ∈ outs.map RecOut.key, k[dimPos.toNat - 1]? = some e := by simp
    have b2 : (∃ x ∈ xs, x.key[dimPos.toNat - 1]? = some e) ↔ ∃ k ∈ xs.map fun x => x.key, k[dimPos.toNat - 1]? = some e := by simp
    rw [b1, b2, hkeys]
    simp
  have hk : ∀ o ∈ outs, ∃ e, o.key[dimPos.toNat - 1]? = some e ∧ 1 ≤ e ∧ e ≤ (systemInfo g).2 := by
    intro o ho
    have hl := a1.len o ho
    have hlt : dimPos.toNat - 1 < o.key.length := by omega
    have hmem : o.key ∈ xs.map fun x => x.key := by rw [← hkeys]; exact List.mem_map_of_mem ho
    obtain ⟨x, hx1, hx2⟩ := List.mem_map.mp hmem
    refine ⟨_, List.getElem?_eq_getElem hlt, hx x hx1 _ ?_⟩
    rw [hx2]
    exact List.getElem_mem hlt
  have hF : FilterOf g (-1) none := Or.inl ⟨rfl, rfl⟩
  constructor
  · obtain ⟨g3, L, e1, e2, e3, e4, e5⟩ := C28_count z g g1 g2 nr _ dimPos (-1) none outs hm hg hu hf a2 a3 hn ⟨h1, h2, by omega⟩ hF hk
      (by omega)
    refine ⟨g3, L, e1, e2, fun e => (e3 e).trans (hocc e), e4, ?_⟩
    rw [e5 rfl]
    exact a5
  · obtain ⟨g3, ps, e1, e2, e3, e4, e5, e6, e7⟩ := C28_callback z g g1 g2 nr _ dimPos (-1) none outs hm hg hu hf a2 a3 hn ⟨h1, h2, by omega⟩ hF hk hc
    exact ⟨g3, ps, e1, e2, fun e => (e3 e).trans (hocc e), e4, e5, e6, e7⟩

/-! ### examples -/

/-- the second position of {a.a, a.b, b.b, b.a}: two elements -/
def exDomElCalls : List Call :=
  [.openWrite false 0 [65] 0, .strStart [105] [] 2 0 0, .writeStr [[97], [98]] [0], .writeStr [[97], [97]] [0],
    .writeStr [[99], [98]] [0], .writeDone, .close]

example : exCb exDomElCalls (fun g => do
    let r ← getDomainElements Cz.id g 1 1 (-1) false
    let q ← getDomainElements Cz.id r.1 1 2 (-1) true
    pure (r.2.2.1, q.2.2.2)) = .ok (2, [(1, 1), (2, 2)]) := by decide +kernel

#print axioms C28_count
#print axioms C28_callback
#print axioms C28_loaded

end Gdx.Props
