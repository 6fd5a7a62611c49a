import Verif.Props.RawSession
import Verif.Proofs.DomFix
import Verif.Proofs.FirstOf

/-!
Writing a symbol in the string mode, in the mapped mode, and with domains, over whole histories of API calls: C02, C03, C25, C44.
-/

namespace Gdx.Props

open Gdx Spec

/-! ### domains -/

/-- the elements of a one-dimensional set with these records -/
def elementsOf (acc : List RawEntry) (k : Int) : Bool := decide (0 ≤ k) && acc.any fun x => decide (x.key = [k])

/-- symbol `m + 1` has a bit map with its elements (see `recorded`) -/
def Recorded (g : Gx) (m : Nat) : Prop := ∀ syms s, g.names = some syms → syms[m]? = some s → s.bitmap.isSome = true

/-- The name stands for a domain: "*" for everything, a one-dimensional set that was written to the file, or an alias of it, for the
    elements that were stored for it. If bogus domains are allowed (gdxAllowBogusDomains, the default), the set must have been recorded. -/
inductive DomOf (e : Env) (z : Cz) (g : Gx) : Str → Dom → Prop
  | star : DomOf e z g Gdx.star none
  | set {id name : Str} {ui : Int} {m : Nat} {acc : List RawEntry} (h : Written e z name 1 0 ui m acc g)
      (hr : g.allowBogus = true → Recorded g m) (hs : SameNoCase name id) :
      DomOf e z g id (some (elementsOf acc))
  | alias {id name : Str} {ui : Int} {m n : Nat} {acc : List RawEntry} {syms : List Sym} {a : Sym} (h : Written e z name 1 0 ui m acc g)
      (hr : g.allowBogus = true → Recorded g m) (hn : g.names = some syms) (ha : syms[n]? = some a) (hta : a.typ = dtAlias) (hu : a.userInfo = (m : Int) + 1)
      (hs : SameNoCase a.name id) : DomOf e z g id (some (elementsOf acc))

theorem recorded_of {e : Env} {z : Cz} {g0 g1 g : Gx} {syms : List Sym} (hn : g0.names = some syms) (hs : g0.storeDom = true)
    (hf : FreshSym g0 g1 0) (hd : g1.curDim = 1) (ha : Aft g1) {cs : List Call} (hc : NoOpen cs) (h : run e z g1 cs = .ok g) :
    Recorded g syms.length := by
  obtain ⟨syms', sy, k1, k2, _, k4, _, k6⟩ := hf.tab
  rw [hn] at k1
  cases k1
  intro syms' s' e1 e2
  obtain ⟨t, t1, t2⟩ := (Holds.run e z cs g1 hc ha _ k2).of_ok h syms' e1 syms.length sy (by simp)
  rw [e2] at t1
  cases t1
  rw [t2.bits]
  exact k6 rfl (k4.trans hd) hs

/-- A one-dimensional set that was begun while gdxStoreDomainSets was on (the default) is recorded, as long as no file is opened. -/
theorem recorded {e : Env} {z : Cz} (hz : z.Good) {f : Gx → Str → Str → Int → Int → Int → Res (Gx × Bool)} (hf : Starts f) {g0 g1 g : Gx}
    {syms : List Sym} {name text : Str} {ui : Int} (hh : After e z g0) (hn : g0.names = some syms) (hs : g0.storeDom = true)
    (h1 : f g0 name text 1 0 ui = .ok (g1, true)) (ha : Aft g1) {cs : List Call} (hc : NoOpen cs) (h : run e z g1 cs = .ok g) :
    Recorded g syms.length := by
  have f0 := hh.fine hz
  rcases hf with rfl | rfl | rfl | ⟨bs, rfl⟩
  · have := rawStart_started h1
    exact recorded_of hn hs this.new this.dim ha hc h
  · obtain ⟨_, _, _, _, _, hO⟩ := Coll.mapStart h1 (fine_names f0)
    exact recorded_of hn hs hO.new hO.dim ha hc h
  · obtain ⟨_, _, _, _, _, hO, _⟩ := Coll.strStart h1 (fine_names f0)
    exact recorded_of hn hs hO.new hO.dim ha hc h
  · have := (rawStartBounds_started h1).1
    exact recorded_of hn hs this.new this.dim ha hc h

theorem notStar {s id : Str} (h : isGoodIdent s = true) (hs : SameNoCase s id) : id ≠ Gdx.star := by
  rintro rfl
  have hi := (C14_ident s).mp h
  cases s with
  | nil => cases hs
  | cons c l =>
    have hs : (c :: l).map lower = [lower 42] := hs
    rw [List.map_cons] at hs
    injection hs with h1 h2
    have h3 := hi.2.1
    have h4 := congrArg UInt8.toNat h1
    have h5 : (lower 42).toNat = 42 := by decide
    rw [lower_toNat, h5] at h4
    obtain ⟨c', hc', hl⟩ := h3
    cases hc'
    simp only [UInt8.le_iff_toNat_le] at hl
    change _ ≤ _ ∧ _ ≤ _ ∨ _ at hl
    have e1 : (65 : UInt8).toNat = 65 := rfl
    have e2 : (90 : UInt8).toNat = 90 := rfl
    have e3 : (97 : UInt8).toNat = 97 := rfl
    have e4 : (122 : UInt8).toNat = 122 := rfl
    rw [e1, e2, e3, e4] at hl
    split at h4 <;> omega

theorem symIndex_at {syms : List Sym} {nd : Nat} (h : SymsOk syms nd) {n : Nat} {s : Sym} (hn : syms[n]? = some s) {id : Str}
    (hs : SameNoCase s.name id) : symIndex syms id = (n : Int) + 1 := by
  have := h.distinct.lookup (n := n) (x := s.name) (s := id) (by rw [List.getElem?_map, hn]; rfl) (by simpa [SameName] using hs)
  unfold symIndex indexOf1
  rw [this]

theorem DomOf.elem {e : Env} {z : Cz} (hz : z.Good) {g : Gx} {syms : List Sym} {id : Str} {dm : Dom} (hm : g.mode = .wInit)
    (hn : g.names = some syms) (h : DomOf e z g id dm) : ElemDom g.allowBogus syms id dm := by
  have key : ∀ {name : Str} {ui : Int} {m : Nat} {acc : List RawEntry}, Written e z name 1 0 ui m acc g →
      ∃ s, syms[m]? = some s ∧ s.name = name ∧ s.typ = dtSet ∧ s.dim = 1 ∧ (∀ b, s.bitmap = some b → b.get = elementsOf acc) ∧
        ∃ nd, SymsOk syms nd := by
    intro name ui m acc hw
    obtain ⟨f, _, hk⟩ := hw.kept hz
    rcases hk with (hk | ⟨hk, _⟩) | ⟨s0, a1, a2, a3⟩
    · rw [hm] at hk; exact absurd hk (by decide)
    · rw [hm] at hk; exact absurd hk (by decide)
    obtain ⟨syms', s, b1, b2, b3, _⟩ := a3.sym
    rw [hn] at b1
    cases b1
    have ho := a1.same b3
    have hl := a2.same b3
    refine ⟨s, b2, ho.name, ho.typ, ho.dim, ?_, _, f.inv.tab.syms _ hn⟩
    intro b hb
    obtain ⟨_, _, hx⟩ := hl.bits b hb
    funext k
    rw [Bool.eq_iff_iff, hx k]
    unfold elementsOf
    rw [Bool.and_eq_true, decide_eq_true_eq, List.any_eq_true]
    refine and_congr_right fun _ => ⟨?_, ?_⟩
    · rintro ⟨x, hx, he⟩
      obtain ⟨y, hy, rfl⟩ := List.mem_map.mp hx
      exact ⟨y, hy, by simpa using he⟩
    · rintro ⟨y, hy, he⟩
      exact ⟨_, List.mem_map.mpr ⟨y, hy, rfl⟩, by simpa using he⟩
  cases h with
  | star => exact .star
  | set h hr hs =>
    obtain ⟨s, a1, a2, a3, a4, a5, nd, a6⟩ := key h
    rw [← a2] at hs
    exact .set (symIndex_at a6 a1 hs) (notStar (a6.each _ _ a1).good hs) a1 a3 a4 a5 (fun hq => hr hq _ _ hn a1)
  | «alias» h hr hn' ha hta hu hs =>
    rename_i name ui m n acc syms' a
    rw [hn] at hn'
    cases hn'
    obtain ⟨s, a1, a2, a3, a4, a5, nd, a6⟩ := key h
    have hd : a.dim = 1 := by
      rcases (a6.each _ _ ha).ali hta with ⟨_, hd⟩ | ⟨m', t, _, c2, c3, _, c5⟩
      · exact hd
      · have : m' = m := by omega
        subst this
        rw [a1] at c3
        cases c3
        rw [c5, a4]
    exact .alias (symIndex_at a6 ha hs) (notStar (a6.each _ _ ha).good hs) ha hta hd hu a1 a3 a4 a5 (fun hq => hr hq _ _ hn a1)

/-- gdxSymbolSetDomain with the names `ids`, or no such call -/
def declare (g : Gx) : Option (List Str) → Res (Gx × Bool)
  | none => .ok (g, true)
  | some ids => symbolSetDomain g ids

/-- what the names given to `declare` stand for; without the call everything is admitted -/
inductive DomainsAre (e : Env) (z : Cz) (g : Gx) : Option (List Str) → List Dom → Prop
  | free : DomainsAre e z g none []
  | given {ids : List Str} {doms : List Dom} (hz : ∀ s ∈ ids, ZFree s) (h : List.Forall₂ (DomOf e z g) ids doms) :
      DomainsAre e z g (some ids) doms

theorem distinct_names {g : Gx} (f : Fine g) : ∀ syms, g.names = some syms → Gdx.Distinct false (syms.map Sym.name) :=
  fun syms h => (f.inv.tab.syms syms h).distinct

theorem declare_ok {e : Env} {z : Cz} (hz : z.Good) {g0 g1 g : Gx} {syms : List Sym} {o : Option (List Str)} {doms : List Dom}
    (hm : g0.mode = .wInit) (hn : g0.names = some syms) {typ : Int} (hf : FreshSym g0 g1 typ) (f1 : Fine g1)
    (hd : DomainsAre e z g0 o doms) (h : declare g1 o = .ok (g, true)) :
    DomsFix g syms.length doms ∧ Fine g ∧ (∃ w t, g = { g1 with wrBits := w, names := t, mode := g.mode }) ∧
      (g.mode = g1.mode ∨ g.mode = g1.mode.dataOf) ∧ (g = g1 ∨ ∃ ids, (Call.setDomain ids).WF ∧ step e z g1 (.setDomain ids) = .ok g) := by
  cases hd with
  | free =>
    cases h
    refine ⟨DomsFix.none ?_, f1, ⟨_, _, rfl⟩, Or.inl rfl, Or.inl rfl⟩
    intro w hw
    rw [hf.bits] at hw
    exact List.eq_of_mem_replicate hw
  | given hzf hd =>
    rename_i ids
    have h : symbolSetDomain g1 ids = .ok (g, true) := h
    have hs : step e z g1 (.setDomain ids) = .ok g := by show stateOf _ = _; rw [h]; rfl
    obtain ⟨a, w, t, hg⟩ := hf.setDomain (distinct_names f1) hn (hd.imp fun _ _ hx => hx.elem hz hm hn) h
    have hgm : g.mode = g1.mode.dataOf := by rw [hg]
    refine ⟨a, f1.step (c := .setDomain ids) hzf rfl hs, ⟨w, t, ?_⟩, Or.inr hgm, Or.inr ⟨ids, hzf, hs⟩⟩
    rw [hgm]
    exact hg

theorem MapMode.dataOf {m : Mode} (h : MapMode m) : MapMode m.dataOf := by rcases h with rfl | rfl <;> exact Or.inl rfl
theorem StrMode.dataOf {m : Mode} (h : StrMode m) : StrMode m.dataOf := by rcases h with rfl | rfl <;> exact Or.inl rfl
theorem RawMode.dataOf {m : Mode} (h : RawMode m) : RawMode m.dataOf := by rcases h with rfl | rfl <;> exact Or.inl rfl

/-! ### the mapped and the string mode -/

/-- the common end: the collected records `its` are written by gdxDataWriteDone -/
theorem finishSorted {e : Env} {z : Cz} (hz : z.Good) {g0 g1 g2 : Gx} {syms : List Sym} {name text : Str} {dim typ ui : Int}
    (hh : After e z g0) (hn : g0.names = some syms) (hw : ZFree name ∧ ZFree text ∧ I32 dim ∧ I32 typ ∧ I32 ui)
    (h1 : dataWriteMapStart g0 name text dim typ ui = .ok (g1, true) ∨ dataWriteStrStart g0 name text dim typ ui = .ok (g1, true))
    {its : List Given} (h2 : SortLog e z g1 its g2) (hr : SortMode g2.mode) (ht : TabFits g2) (hl : (its.length : Int) ≤ intMax)
    {doms : List Dom} (hd : DomsFix g2 syms.length doms) (hc : Coll g2 syms.length ⟨name, dim, typ.toNat, ui⟩ its) (f2 : Fine g2) :
    ∃ ss g3 l, StableSorted Prod.fst its ss ∧ dataWriteDone z g2 = .ok (g3, true) ∧ g3.mode = .wInit ∧
      Written e z name dim typ ui syms.length ((storedOf doms dim.toNat none ss).map (entryOf g2.sv)) g3 ∧
      errorCount g3 = g2.errTotal + (refusals doms dim.toNat none ss).length ∧
      g3.raised = g2.raised ++ (refusals doms dim.toNat none ss).map (fun r => r.1.code) ∧
      NoteAll doms [] (refusals doms dim.toNat none ss) l ∧ ErrorList g3 l := by
  have hst : g2.stat = .write := f2.ph.stat (Or.inr hr.writing)
  obtain ⟨ss, g3, a1, a2, a3, a4, a5, a6, _⟩ := hc.done (z := z) hr f2.inv hst ht hl hd
  have hnd : g2.nd = dim.toNat := by
    obtain ⟨syms', s', e1, e2, e3, _⟩ := hc.beg.sym
    obtain ⟨syms'', s'', e4, e5, e6, _⟩ := hc.sym
    rw [e1] at e4
    cases e4
    rw [e2] at e5
    cases e5
    unfold Gx.nd
    rw [← e3]
    exact congrArg Int.toNat e6.dim
  rw [hnd] at a4 a5 a6
  obtain ⟨cs, c1, c2, c3⟩ := hh
  exact ⟨ss, g3, _, a1, a2, a3, .sorted ⟨cs, [], syms, g0, g1, g2, g3, text, true, its, ss, doms, c1, c2, c3, hn, rfl, hw, h1, h2, hr, ht, hl, hd, a1,
    a2, by simp, rfl, rfl⟩, a4, a5, a6, errorList_of a3⟩

/-- a record that may be given to gdxDataWriteStr: right number of strings and values, strings of at most 255 bytes -/
structure StrRecOk (dim nv : Nat) (x : List Str × List Dbl) : Prop where
  len : x.1.length = dim
  nval : x.2.length = nv
  strs : ∀ k ∈ x.1, ZFree k ∧ k.length ≤ 255

/-- the string is, up to case and trailing blanks, the element with this number -/
def IsElement (els : List Str) (k : Str) (n : Int) : Prop :=
  1 ≤ n ∧ ∃ x, els[(n - 1).toNat]? = some x ∧ SameNoCase x (trimRight k)

/-- the record with the numbers of the elements instead of the strings -/
def Numbered (els : List Str) (x : List Str × List Dbl) (y : Given) : Prop := List.Forall₂ (IsElement els) x.1 y.1 ∧ y.2 = x.2

theorem trimR_short {k : Str} (h : k.length ≤ 255) : ∃ t, trimR k = .ok t := by
  unfold trimR
  refine ⟨trimRight k, if_neg ?_⟩
  have : (trimRight k).length ≤ k.length := by
    unfold trimRight
    rw [List.length_take]
    omega
  omega

/-- C02, C25, C44, C50 (string mode): In any history of calls that left the object ready for a new symbol: starting a symbol in the string mode,
    with a new name, dimension 0..20 and type 0..3, then (optionally) giving domains, then writing any sequence of records of strings
    in any order, and finishing it is never undefined. A record is refused at once, with an error, iff one of its strings is no legal
    element; all other records are collected as `its`, with the numbers of the elements (the table has 2^31 - 257 entries at most). When
    the symbol is finished they are taken in the order of their keys, equal keys in the order of the calls: `ss`. What is stored are
    `storedOf doms … ss`, and what is refused are `refusals doms … ss`: see `sorted_exact` for both. One error is raised for each
    refused record. The error list is what `NoteAll` says (at most 11 records; a domain violation is noted only if it marks an element at
    a position where it was not marked yet; marked positions are negated). What is read from the file is said by `C01_session`, since
    this is `Written`. -/
theorem C02_session {e : Env} {z : Cz} (hz : z.Good) {g0 : Gx} (hh : After e z g0) (hm : g0.mode = .wInit) {syms : List Sym}
    {acros : List Acr} {u0 : Uel} (hs : g0.names = some syms) (ha : g0.acros = some acros) (hu0 : g0.uel = some u0) {name text : Str}
    {dim typ ui : Int} (hn : NewName syms acros name) (hz1 : ZFree name) (hz2 : ZFree text) (hd : 0 ≤ dim ∧ dim ≤ 20)
    (ht : 0 ≤ typ ∧ typ ≤ 3) (hu : I32 ui) (xs : List (List Str × List Dbl))
    (hx : ∀ x ∈ xs, StrRecOk dim.toNat (dataTypSize typ.toNat) x) (hl : (xs.length : Int) ≤ intMax)
    (hel : ((u0.strs.length + strCount xs : Nat) : Int) ≤ 2147483391) :
    ∃ g1, dataWriteStrStart g0 name text dim typ ui = .ok (g1, true) ∧
      ∀ o doms, DomainsAre e z g0 o doms → ∀ g, declare g1 o = .ok (g, true) →
        ∃ g2 u its ss g3 l, writesStr g xs = .ok (g2, xs.map Legal) ∧ g2.uel = some u ∧ u0.strs <+: u.strs ∧
          List.Forall₂ (Numbered u.strs) (xs.filter Legal) its ∧ StableSorted Prod.fst its ss ∧
          dataWriteDone z g2 = .ok (g3, true) ∧ g3.mode = .wInit ∧
          Written e z name dim typ ui syms.length ((storedOf doms dim.toNat none ss).map (entryOf g0.sv)) g3 ∧
          errorCount g3 = errorCount g0 + (xs.filter fun x => !Legal x).length + (refusals doms dim.toNat none ss).length ∧
          g3.raised = g0.raised ++ (xs.filter fun x => !Legal x).map (fun _ => Err.badUelStr) ++
            (refusals doms dim.toNat none ss).map (fun r => r.1.code) ∧
          NoteAll doms [] (refusals doms dim.toNat none ss) l ∧ ErrorList g3 l := by
  have f0 := hh.fine hz
  have hst := f0.stat hm
  have hnw : 0 ≤ g0.nextWrite := by have := (f0.inv.head hst).next; omega
  have i1 : I32 dim := by unfold I32; omega
  have i2 : I32 typ := by unfold I32; omega
  cases h1 : dataWriteStrStart g0 name text dim typ ui with
  | ub => exact absurd h1 (C14_defined g0 syms acros hm hs ha hnw name text dim typ ui).2.2.1
  | ok r =>
    obtain ⟨g1, b⟩ := r
    have hb1 := (C14_accept dataWriteStrStart (Or.inr (Or.inr (Or.inl rfl))) g0 g1 syms acros hm hs ha name text dim typ ui b h1).1.mpr ⟨hn, hd, ht⟩
    subst hb1
    refine ⟨g1, rfl, ?_⟩
    intro o doms hdo g hg
    obtain ⟨_, hm1, syms', e1, hc1, hO, hp1⟩ := Coll.strStart h1 (fine_names f0)
    rw [hs] at e1
    cases e1
    have f1 : Fine g1 := f0.step (e := e) (z := z) (c := .strStart name text dim typ ui) ⟨hz1, hz2, i1, i2, hu⟩ rfl (by show stateOf _ = _; rw [h1]; rfl)
    obtain ⟨d1, d2, ⟨w, t, d3⟩, d4, d5⟩ := declare_ok hz hm hs hO.new f1 hdo hg
    have hmg : StrMode g.mode := by
      rcases d4 with d4 | d4 <;> rw [d4]
      · exact hm1
      · exact StrMode.dataOf hm1
    have hcg : Coll g syms.length ⟨name, dim, typ.toNat, ui⟩ [] := by
      rcases d5 with rfl | ⟨ids, _, hs5⟩
      · exact hc1
      · have h5 : stateOf (symbolSetDomain g1 ids) = .ok g := hs5
        obtain ⟨x, hx, hxx⟩ : ∃ x, symbolSetDomain g1 ids = .ok x ∧ x.1 = g := by
          cases hq : symbolSetDomain g1 ids with
          | ub => rw [hq] at h5; cases h5
          | ok x => rw [hq] at h5; cases h5; exact ⟨x, rfl, rfl⟩
        subst hxx
        exact ((hc1.setDomain ids).of_ok hx).1
    have huel : g.uel = some u0 := by rw [d3]; exact hO.uel.trans hu0
    have hpg : StrOk g := hp1.congr (by rw [d3]) (by rw [d3]) (by rw [d3]) (by rw [d3]; rfl) d2.inv.els (by
      intro u' hu'
      exact ⟨u', by rw [hO.uel, hu0, ← huel, hu'], ⟨[], by simp⟩⟩)
    have hdim : g.curDim = dim := by rw [d3]; exact hO.dim
    have hsz : g.dataSize = dataTypSize typ.toNat := by rw [d3]; exact hO.size
    have hnd : g.nd = dim.toNat := by unfold Gx.nd; rw [hdim]
    have hlen0 : u0.strs.length = u0.ents.length := by simp [Uel.strs]
    obtain ⟨g2, u, its, w1, w2, w3, w4, w5, w6, w7, w8⟩ := Coll.writesStr (e := e) (z := z) xs hcg hpg hmg d2 huel (by rw [← hlen0]; exact hel) (by
      intro x hx'
      obtain ⟨a, b, c⟩ := hx x hx'
      exact ⟨a.trans hnd.symm, fun k hk => ⟨(c k hk).1, trimR_short (c k hk).2⟩, b.trans hsz.symm⟩)
    have ht2 : TabFits g2 := by
      intro v hv
      rw [w3] at hv
      cases hv
      omega
    have hlog : SortLog e z g1 its g2 := by
      rcases d5 with rfl | ⟨ids, hwf, hs5⟩
      · exact w8
      · exact .other (Or.inr ⟨ids, rfl⟩) hwf (Or.inr fun _ _ => (by simp)) hs5 w8
    have f2 := w8.fine d2
    have hc2 := hcg.log w8 (Or.inr hmg) (fun _ => hpg) d2 ht2 (Or.inr w2)
    rw [List.nil_append] at hc2
    have hil : (its.length : Int) ≤ intMax := by
      have := w7.length_eq
      have := List.length_filter_le Legal xs
      omega
    obtain ⟨ss, g3, l, q1, q2, q3, q4, q5, q6, q7, q8⟩ := finishSorted hz hh hs ⟨hz1, hz2, i1, i2, hu⟩ (Or.inr h1) hlog (Or.inr w2) ht2 hil
      (d1.congr w6.bits w6.dim (Or.inl w6.names)) hc2 f2
    have hsv : g2.sv = g0.sv := by rw [w6.sv, d3]; exact hO.sv
    have htot : g.errTotal = g0.errTotal := by rw [d3]; exact hO.total
    have hrai : g.raised = g0.raised := by rw [d3]; exact hO.raised
    rw [hsv] at q4
    refine ⟨g2, u, its, ss, g3, l, w1, w3, ?_, ?_, q1, q2, q3, q4, ?_, ?_, q7, q8⟩
    · obtain ⟨x, hx⟩ := w4
      exact ⟨x, hx.symm⟩
    · refine w7.imp fun x y hxy => ⟨hxy.1.imp fun k n hk => ⟨hk.2.1, hk.str⟩, hxy.2.symm⟩
    · rw [q5, w6.total, htot, List.length_map]
      rfl
    · rw [q6, w6.raised, hrai]

theorem mapNotStr {m : Mode} (h : StrMode m) : ¬ MapMode m := by
  intro h'
  rcases h with rfl | rfl <;> rcases h' with h' | h' <;> cases h'

/-- a record that may be given to gdxDataWriteMap: right number of indices and values -/
structure MapRecOk (dim nv : Nat) (x : Given) : Prop where
  len : x.1.length = dim
  nval : x.2.length = nv
  ints : ∀ k ∈ x.1, I32 k

/-- C03, C25, C44, C50 (mapped mode): The same for the mapped mode. `u0.usr.get` gives for a number of the user the number of the element for
    which it is registered, -1 if there is none. A record is refused at once, with an error, iff one of its numbers is not registered;
    all others are collected with the numbers of the elements. -/
theorem C03_session {e : Env} {z : Cz} (hz : z.Good) {g0 : Gx} (hh : After e z g0) (hm : g0.mode = .wInit) {syms : List Sym}
    {acros : List Acr} {u0 : Uel} (hs : g0.names = some syms) (ha : g0.acros = some acros) (hu0 : g0.uel = some u0) {name text : Str}
    {dim typ ui : Int} (hn : NewName syms acros name) (hz1 : ZFree name) (hz2 : ZFree text) (hd : 0 ≤ dim ∧ dim ≤ 20)
    (ht : 0 ≤ typ ∧ typ ≤ 3) (hu : I32 ui) (xs : List Given)
    (hx : ∀ x ∈ xs, MapRecOk dim.toNat (dataTypSize typ.toNat) x) (hl : (xs.length : Int) ≤ intMax)
    (hel : (u0.strs.length : Int) ≤ 2147483391) :
    ∃ g1, dataWriteMapStart g0 name text dim typ ui = .ok (g1, true) ∧
      ∀ o doms, DomainsAre e z g0 o doms → ∀ g, declare g1 o = .ok (g, true) →
        ∃ g2 ss g3 l, writesMap g xs = .ok (g2, xs.map (Known u0.usr.get)) ∧ g2.uel = some u0 ∧
          StableSorted Prod.fst ((xs.filter (Known u0.usr.get)).map fun x => (x.1.map u0.usr.get, x.2)) ss ∧
          dataWriteDone z g2 = .ok (g3, true) ∧ g3.mode = .wInit ∧
          Written e z name dim typ ui syms.length ((storedOf doms dim.toNat none ss).map (entryOf g0.sv)) g3 ∧
          errorCount g3 = errorCount g0 + (xs.filter fun x => !Known u0.usr.get x).length + (refusals doms dim.toNat none ss).length ∧
          g3.raised = g0.raised ++ (xs.filter fun x => !Known u0.usr.get x).map (fun _ => Err.badElementIndex) ++
            (refusals doms dim.toNat none ss).map (fun r => r.1.code) ∧
          NoteAll doms [] (refusals doms dim.toNat none ss) l ∧ ErrorList g3 l := by
  have f0 := hh.fine hz
  have hst := f0.stat hm
  have hnw : 0 ≤ g0.nextWrite := by have := (f0.inv.head hst).next; omega
  have i1 : I32 dim := by unfold I32; omega
  have i2 : I32 typ := by unfold I32; omega
  cases h1 : dataWriteMapStart g0 name text dim typ ui with
  | ub => exact absurd h1 (C14_defined g0 syms acros hm hs ha hnw name text dim typ ui).2.1
  | ok r =>
    obtain ⟨g1, b⟩ := r
    have hb1 := (C14_accept dataWriteMapStart (Or.inr (Or.inl rfl)) g0 g1 syms acros hm hs ha name text dim typ ui b h1).1.mpr ⟨hn, hd, ht⟩
    subst hb1
    refine ⟨g1, rfl, ?_⟩
    intro o doms hdo g hg
    obtain ⟨_, hm1, syms', e1, hc1, hO⟩ := Coll.mapStart h1 (fine_names f0)
    rw [hs] at e1
    cases e1
    have f1 : Fine g1 := f0.step (e := e) (z := z) (c := .mapStart name text dim typ ui) ⟨hz1, hz2, i1, i2, hu⟩ rfl (by show stateOf _ = _; rw [h1]; rfl)
    obtain ⟨d1, d2, ⟨w, t, d3⟩, d4, d5⟩ := declare_ok hz hm hs hO.new f1 hdo hg
    have hmg : MapMode g.mode := by
      rcases d4 with d4 | d4 <;> rw [d4]
      · exact hm1
      · exact MapMode.dataOf hm1
    have hcg : Coll g syms.length ⟨name, dim, typ.toNat, ui⟩ [] := by
      rcases d5 with rfl | ⟨ids, _, hs5⟩
      · exact hc1
      · have h5 : stateOf (symbolSetDomain g1 ids) = .ok g := hs5
        obtain ⟨x, hx, hxx⟩ : ∃ x, symbolSetDomain g1 ids = .ok x ∧ x.1 = g := by
          cases hq : symbolSetDomain g1 ids with
          | ub => rw [hq] at h5; cases h5
          | ok x => rw [hq] at h5; cases h5; exact ⟨x, rfl, rfl⟩
        subst hxx
        exact ((hc1.setDomain ids).of_ok hx).1
    have huel : g.uel = some u0 := by rw [d3]; exact hO.uel.trans hu0
    have hdim : g.curDim = dim := by rw [d3]; exact hO.dim
    have hsz : g.dataSize = dataTypSize typ.toNat := by rw [d3]; exact hO.size
    have hnd : g.nd = dim.toNat := by unfold Gx.nd; rw [hdim]
    have hlen0 : u0.strs.length = u0.ents.length := by simp [Uel.strs]
    have htg : TabFits g := by
      intro v hv
      rw [huel] at hv
      cases hv
      omega
    obtain ⟨g2, w1, w2, w3, w6, w8⟩ := Coll.writesMap (e := e) (z := z) xs hcg hmg d2 htg huel (by
      intro x hx'
      obtain ⟨a, b, c⟩ := hx x hx'
      exact ⟨a.trans hnd.symm, c, b.trans hsz.symm⟩)
    have ht2 : TabFits g2 := by
      intro v hv
      rw [w3] at hv
      cases hv
      omega
    generalize hits : ((xs.filter (Known u0.usr.get)).map fun x => (x.1.map u0.usr.get, x.2)) = its at w8 ⊢
    have hlog : SortLog e z g1 its g2 := by
      rcases d5 with rfl | ⟨ids, hwf, hs5⟩
      · exact w8
      · exact .other (Or.inr ⟨ids, rfl⟩) hwf (Or.inl hm1) hs5 w8
    have f2 := w8.fine d2
    have hc2 := hcg.log w8 (Or.inl hmg) (fun hs => absurd hmg (mapNotStr hs)) d2 ht2 (Or.inl w2)
    rw [List.nil_append] at hc2
    have hil : (its.length : Int) ≤ intMax := by
      have := List.length_filter_le (Known u0.usr.get) xs
      rw [← hits, List.length_map]
      omega
    obtain ⟨ss, g3, l, q1, q2, q3, q4, q5, q6, q7, q8⟩ := finishSorted hz hh hs ⟨hz1, hz2, i1, i2, hu⟩ (Or.inl h1) hlog (Or.inl w2) ht2 hil
      (d1.congr w6.bits w6.dim (Or.inl w6.names)) hc2 f2
    have hsv : g2.sv = g0.sv := by rw [w6.sv, d3]; exact hO.sv
    have htot : g.errTotal = g0.errTotal := by rw [d3]; exact hO.total
    have hrai : g.raised = g0.raised := by rw [d3]; exact hO.raised
    rw [hsv] at q4
    refine ⟨g2, ss, g3, l, w1, w3, q1, q2, q3, q4, ?_, ?_, q7, q8⟩
    · rw [q5, w6.total, htot, List.length_map]
      rfl
    · rw [q6, w6.raised, hrai]

/-- C02, C03, C25: what is stored and what is refused of the collected records `its` of a symbol of dimension at least 1 (`ss`: sorted by
    key). The records stored are in strictly increasing order of the keys; for each key within the domains that was written, the
    first record with that key. The others are refused: as domain violations iff outside of the domains, all others as duplicates. Every
    record is either stored or refused. -/
theorem sorted_exact (doms : List Dom) {dim : Nat} (hd : dim ≠ 0) {its ss : List Given} (h : StableSorted Prod.fst its ss) :
    FirstOfEach (its.filter fun x => inside doms x.1) (storedOf doms dim none ss) ∧
      (∀ r ∈ refusals doms dim none ss, r.2 ∈ its ∧ r.1 = if inside doms r.2.1 then .duplicate else .outside) ∧
      (storedOf doms dim none ss).length + (refusals doms dim none ss).length = its.length := by
  obtain ⟨h1, h2⟩ := firstOfEach (doms := doms) hd h
  refine ⟨h1, fun r hr => ⟨?_, h2 r hr⟩, ?_⟩
  · exact (h.mem r.2).mp (refusals_mem ss none hr).1
  · rw [stored_refused, h.perm.length_eq]

/-- C25, C44, C50, C51 (raw mode): like `C51_session`, with domains given by gdxSymbolSetDomain. -/
theorem C25_raw {e : Env} {z : Cz} (hz : z.Good) {g0 : Gx} (hh : After e z g0) (hm : g0.mode = .wInit) {syms : List Sym}
    {acros : List Acr} (hs : g0.names = some syms) (ha : g0.acros = some acros) {name text : Str} {dim typ ui : Int}
    (hn : NewName syms acros name) (hz1 : ZFree name) (hz2 : ZFree text) (hd : 0 ≤ dim ∧ dim ≤ 20) (ht : 0 ≤ typ ∧ typ ≤ 3) (hu : I32 ui)
    (b : Option (List (Int × Int))) (hb : BoundsOk dim.toNat b) (xs : List Given)
    (hx : ∀ x ∈ xs, RecOk dim.toNat (dataTypSize typ.toNat) b x) (hl : (xs.length : Int) ≤ intMax) :
    ∃ g1, startRaw g0 name text dim typ ui b = .ok (g1, true) ∧
      ∀ o doms, DomainsAre e z g0 o doms → ∀ g, declare g1 o = .ok (g, true) →
        ∃ g2 g3 l, writesRaw g xs = .ok (g2, (verdicts doms dim.toNat none xs).map fun v => decide (v = .stored)) ∧
          dataWriteDone z g2 = .ok (g3, true) ∧ g3.mode = .wInit ∧
          Written e z name dim typ ui syms.length ((storedOf doms dim.toNat none xs).map (entryOf g0.sv)) g3 ∧
          errorCount g3 = errorCount g0 + (refusals doms dim.toNat none xs).length ∧
          g3.raised = g0.raised ++ (refusals doms dim.toNat none xs).map (fun r => r.1.code) ∧
          NoteAll doms [] (refusals doms dim.toNat none xs) l ∧ ErrorList g3 l := by
  have i1 : I32 dim := by unfold I32; omega
  have i2 : I32 typ := by unfold I32; omega
  obtain ⟨g1, bs, h1, hS, hbl, hkf, hse, f1, hor⟩ := startRaw_ok hz hh hm hs ha hn hz1 hz2 hd ht hu b hb xs hx (text := text)
  refine ⟨g1, h1, ?_⟩
  intro o doms hdo g hg
  obtain ⟨d1, d2, ⟨w, t, d3⟩, d4, d5⟩ := declare_ok hz hm hs hS.new f1 hdo hg
  have hmg : RawMode g.mode := by
    rcases d4 with d4 | d4 <;> rw [d4]
    · exact hS.mode
    · exact RawMode.dataOf hS.mode
  have hlog : RawLog e z g1 [] g := by
    rcases d5 with rfl | ⟨ids, hwf, hs5⟩
    · exact .nil _
    · exact .other (Or.inr ⟨ids, rfl⟩) hwf hs5 (.nil _)
  have hseg : Sess g syms.length ⟨name, dim, typ.toNat, ui⟩ [] [] := by
    have := hse.rawLog hlog hS.mode (by simp) hmg
    simpa [logRecs, logGiven] using this
  have hdim : g.curDim = dim := by rw [d3]; exact hS.dim
  have hnd : g.nd = dim.toNat := by unfold Gx.nd; rw [hdim]
  have hbd : g.bounds = bs := by rw [d3]; exact hS.bounds
  have hsz : g.dataSize = dataTypSize typ.toNat := by rw [d3]; exact hS.size
  have hsv : g.sv = g0.sv := by rw [d3]; exact hS.sv
  obtain ⟨g2, g3, w1, w2, w3, w4, w5, w6, w7, w8, w9⟩ := writeAndFinish (e := e) (z := z) (doms := doms) d2 hseg hmg xs
    (fun x hx' => ⟨(hx x hx').len.trans hnd.symm, by rw [hbd]; exact hkf x hx', (hx x hx').nval.trans hsz.symm, (hx x hx').key⟩)
    d1 (by rw [d3]; show g1.acros.isSome = true; rw [hS.acros, ha]; rfl) hl (by rw [d3]; exact hS.errs)
  rw [hnd, hsv] at w3 w4
  rw [hnd] at w1 w7 w8 w9
  have hlog2 : RawLog e z g1 (seqLog g0.sv doms dim.toNat none xs) g2 := by
    rcases d5 with rfl | ⟨ids, hwf, hs5⟩
    · exact w3
    · exact .other (Or.inr ⟨ids, rfl⟩) hwf hs5 w3
  refine ⟨g2, g3, _, w1, w5, w6, ?_, ?_, ?_, w9, errorList_of w6⟩
  · obtain ⟨cs, c1, c2, c3⟩ := hh
    exact .raw _ ⟨cs, [], syms, g0, g1, g2, g3, text, true, c1, c2, c3, hs, rfl, ⟨hz1, hz2, i1, i2, hu⟩, hor, hlog2, w2, w4, w5, by simp, rfl⟩
      (seqLog_accepted ..).symm
  · show g3.errTotal = g0.errTotal + _
    rw [w7, d3]
    show g1.errTotal + _ = _
    rw [hS.total]
  · rw [w8, d3]
    show g1.raised ++ _ = _
    rw [hS.raised]

/-! ### what being inside of the domains means: C25 -/

theorem outsides_get : ∀ (doms : List Dom) (key : List Int) (d : Nat),
    (outsides doms key)[d]? = key[d]?.map fun k => match doms[d]? with | some (some f) => !f k | _ => false
  | _, [], d => by simp [outsides]
  | [], k :: ks, 0 => by simp [outsides]
  | [], k :: ks, d + 1 => by
    have := outsides_get [] ks d
    simpa [outsides] using this
  | none :: ds, k :: ks, 0 => by simp [outsides]
  | none :: ds, k :: ks, d + 1 => by simpa [outsides] using outsides_get ds ks d
  | some f :: ds, k :: ks, 0 => by simp [outsides]
  | some f :: ds, k :: ks, d + 1 => by simpa [outsides] using outsides_get ds ks d

/-- C25: a record is inside of the domains iff each index is in the domain of its position -/
theorem inside_iff (doms : List Dom) (key : List Int) :
    inside doms key = true ↔ ∀ (d : Nat) (k : Int) (f : Int → Bool), key[d]? = some k → doms[d]? = some (some f) → f k = true := by
  unfold inside
  rw [decide_eq_true_eq]
  constructor
  · intro h d k f hk hf
    by_contra hc
    apply h
    have := outsides_get doms key d
    rw [hk, hf] at this
    refine List.mem_of_getElem? (i := d) ?_
    rw [this]
    show some (!f k) = some true
    rw [Bool.eq_false_iff.mpr hc]
    rfl
  · intro h hm
    obtain ⟨d, hd⟩ := List.mem_iff_getElem?.mp hm
    rw [outsides_get] at hd
    obtain ⟨k, hk, he⟩ := Option.map_eq_some_iff.mp hd
    split at he
    · rename_i f hf
      rw [h d k f hk hf] at he
      cases he
    · cases he

/-- C25: in a marked key exactly the indices outside of their domains are negated -/
theorem mark_get (doms : List Dom) (key : List Int) (d : Nat) :
    (mark doms key)[d]? = key[d]?.map fun k => match doms[d]? with | some (some f) => if f k then k else -k | _ => k := by
  unfold mark
  rw [List.getElem?_zipWith, outsides_get]
  cases key[d]? with
  | none => rfl
  | some k =>
    simp only [Option.map_some]
    cases doms[d]? with
    | none => rfl
    | some o =>
      cases o with
      | none => rfl
      | some f => cases hf : f k <;> simp [hf]

/-- C25, in every mode: what is stored is inside of the domains, and a record is refused as a domain violation iff it is not inside -/
theorem C25_exact (doms : List Dom) (dim : Nat) : ∀ (xs : List Given) (o : Option (List Int)),
    (∀ x ∈ storedOf doms dim o xs, inside doms x.1 = true) ∧ (∀ r ∈ refusals doms dim o xs, r.1 = .outside ↔ inside doms r.2.1 = false)
  | [], _ => by simp [storedOf, refusals]
  | (k, v) :: l, o => by
    have hv : verdict doms dim o k = .outside ↔ inside doms k = false := by
      unfold verdict inside
      by_cases hi : true ∈ outsides doms k
      · simp [hi]
      · simp only [hi, if_false, not_false_eq_true, decide_true, Bool.true_eq_false, iff_false]
        split
        · decide
        · split
          · decide
          · split
            · decide
            · split <;> decide
    unfold storedOf refusals
    by_cases h : verdict doms dim o k = .stored
    · rw [if_pos h, if_pos h]
      obtain ⟨i1, i2⟩ := C25_exact doms dim l (some k)
      refine ⟨?_, i2⟩
      intro x hx
      rcases List.mem_cons.mp hx with rfl | hx
      · by_contra hc
        have := hv.mpr (Bool.eq_false_iff.mpr hc)
        rw [h] at this
        cases this
      · exact i1 x hx
    · rw [if_neg h, if_neg h]
      obtain ⟨i1, i2⟩ := C25_exact doms dim l o
      refine ⟨i1, ?_⟩
      intro r hr
      rcases List.mem_cons.mp hr with rfl | hr
      · exact hv
      · exact i2 r hr

/-! ### the error list: C44 -/

theorem noteOne_len {doms : List Dom} {l l' : List Given} {r : Verdict × Given} (h : NoteOne doms l r l') (hl : l.length ≤ 11) :
    l.length ≤ l'.length ∧ l'.length ≤ 11 ∧ l'.length ≤ l.length + 1 := by
  cases h with
  | full h => omega
  | known h _ => omega
  | plain h _ => rw [List.length_append, List.length_singleton]; omega
  | domain h _ => rw [List.length_append, List.length_singleton]; omega

theorem noteAll_len {doms : List Dom} {l l' : List Given} {rs : List (Verdict × Given)} (h : NoteAll doms l rs l') (hl : l.length ≤ 11) :
    l'.length ≤ 11 ∧ l'.length ≤ l.length + rs.length := by
  induction h with
  | nil => exact ⟨hl, by simp⟩
  | cons h _ ih =>
    obtain ⟨a, b, c⟩ := noteOne_len h hl
    obtain ⟨i1, i2⟩ := ih b
    refine ⟨i1, ?_⟩
    rw [List.length_cons]
    omega

/-- C44 for all modes when no domain was violated: the error list has the first eleven refused records in the order of refusal. With domain
    violations it can have less, see `C44_counterexample`. -/
theorem C44_list_partial {doms : List Dom} {dim : Nat} {xs l : List Given} (h : NoteAll doms [] (refusals doms dim none xs) l)
    (hd : ∀ r ∈ refusals doms dim none xs, r.1 ≠ .outside) : l = (refusedOf doms dim none xs).take 11 := by
  rw [noted_plain h hd (by simp), List.nil_append]
  rfl

/-! ### examples -/

/-- a set `i` with the elements 1 and 3, then a parameter over `i` -/
def exDomCalls : List Call :=
  [.openWrite false 0 [] 0, .uelRawStart, .uelRaw [97], .uelRaw [98], .uelRaw [99], .uelDone, .rawStart [105] [] 1 0 0, .writeRaw [1] [Dbl.zero],
    .writeRaw [3] [Dbl.zero], .writeDone]

/-- C44 (and the part of C25 about the error list) fails: two records are refused, the list has one, since the second violation is the
    same element at the same position -/
theorem C44_counterexample :
    after (exDomCalls ++ [.rawStart [112] [] 1 1 0, .setDomain [[105]], .writeRaw [2] [Dbl.one], .writeRaw [2] [Dbl.zero], .writeDone])
      (fun g => .ok (g.raised, errorCount g, dataErrorCount g)) = .ok ([-100058, -100058], 2, 1) := by decide +kernel

/-- C25 fails when bogus domains are allowed (the default) and the domain was written before the file was opened for appending, since there
    is no bit map then: gdxSymbolSetDomain succeeds, and 2 is stored although it is not in the domain -/
theorem C25_append_counterexample :
    after (exDomCalls ++ [.close]) (fun g => do
      let g ← run ⟨[]⟩ Cz.id Gx.new [.openAppend (.content g.file) [65], .rawStart [112] [] 1 1 0]
      let (g, b) ← symbolSetDomain g [[105]]
      let (g, c) ← dataWriteRaw g [2] [Dbl.one]
      pure (b, c, g.raised)) = .ok (true, true, []) := by decide +kernel

/-- the same when gdxStoreDomainSets was off while the set was written -/
theorem C25_off_counterexample :
    after (.storeDomainSets false :: exDomCalls ++ [.rawStart [112] [] 1 1 0]) (fun g => do
      let (g, b) ← symbolSetDomain g [[105]]
      let (g, c) ← dataWriteRaw g [2] [Dbl.one]
      pure (b, c, g.raised)) = .ok (true, true, []) := by decide +kernel

/-- C02 fails if an element is renamed while a symbol is written in the string mode: the last string of each position is remembered with its
    number, so the second `a` is taken for the renamed element, and refused as a duplicate -/
theorem C02_rename :
    after [.openWrite false 0 [] 0, .strStart [112] [] 1 1 0, .writeStr [[97]] [Dbl.one], .renameUEL [97] [98], .writeStr [[97]] [Dbl.zero], .writeDone]
      (fun g => .ok (g.raised, g.uel.map Uel.strs)) = .ok ([Err.dataDuplicate], some [[98]]) := by decide +kernel

/-- the domain is checked: 1 and 3 are stored, 2 is refused and marked -/
example : after (exDomCalls ++ [.rawStart [112] [] 2 1 0, .setDomain [[42], [105]], .writeRaw [1, 1] [Dbl.one], .writeRaw [1, 2] [Dbl.zero],
      .writeRaw [2, 3] [Dbl.one], .writeDone])
    (fun g => .ok [(dataErrorRecordX g 1).2, (dataErrorRecordX g 2).2, (dataErrorRecord g 1).2]) =
      .ok [some ([1, -2], [Dbl.zero]), none, some ([1, 2], [Dbl.zero])] := by decide +kernel

example : after (exDomCalls ++ [.rawStart [112] [] 2 1 0, .setDomain [[42], [105]], .writeRaw [1, 1] [Dbl.one], .writeRaw [1, 2] [Dbl.zero],
      .writeRaw [2, 3] [Dbl.one], .writeDone, .close])
    (fun g => reopened g fun g => rawSym g 2) = .ok (true, 2, [⟨[1, 1], [Dbl.one], 1⟩, ⟨[2, 3], [Dbl.one], 1⟩]) := by decide +kernel

/-- string mode: records in any order, with a repeated key (in another spelling) and an illegal string -/
def exStrCalls : List Call :=
  [.openWrite false 0 [] 0, .strStart [112] [] 2 1 0, .writeStr [[98], [97]] [Dbl.one], .writeStr [[97], [98]] [Dbl.zero],
    .writeStr [[66, 32], [65]] [Dbl.zero], .writeStr [[39, 34], [97]] [Dbl.one], .writeStr [[98], [98]] [Dbl.one], .writeDone]

example : after exStrCalls (fun g => .ok (g.raised, dataErrorCount g)) = .ok ([Err.badUelStr, Err.dataDuplicate], 1) := by decide +kernel

example : after exStrCalls (fun g => .ok (dataErrorRecordX g 1).2) = .ok (some ([1, 2], [Dbl.zero])) := by decide +kernel

example : after (exStrCalls ++ [.close]) (fun g => reopened g fun g => rawSym g 1) =
    .ok (true, 3, [⟨[1, 1], [Dbl.one], 1⟩, ⟨[1, 2], [Dbl.one], 2⟩, ⟨[2, 1], [Dbl.zero], 1⟩]) := by decide +kernel

/-- mapped mode: the user numbers 7 and 5 stand for the elements 1 and 2; 6 is not registered -/
def exMapCalls : List Call :=
  [.openWrite false 0 [] 0, .uelMapStart, .uelMap 7 [97], .uelMap 5 [98], .uelDone, .mapStart [112] [] 1 1 0, .writeMap [5] [Dbl.one],
    .writeMap [6] [Dbl.zero], .writeMap [7] [Dbl.zero], .writeMap [5] [Dbl.zero], .writeDone]

example : after exMapCalls (fun g => .ok (g.raised, dataErrorCount g)) = .ok ([Err.badElementIndex, Err.dataDuplicate], 1) := by decide +kernel

example : after (exMapCalls ++ [.close]) (fun g => reopened g fun g => rawSym g 1) =
    .ok (true, 2, [⟨[1], [Dbl.zero], 1⟩, ⟨[2], [Dbl.one], 1⟩]) := by decide +kernel

end Gdx.Props
