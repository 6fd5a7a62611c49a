import Verif.Proofs.SymInv

/-!
C14: which symbols are accepted, that their names are distinct and found in any capitalisation.
C30: which aliases are accepted, that following aliases ends, and that reading an alias is reading its set.
C35: comments of a symbol.
-/

namespace Gdx.Props

open Gdx Gdx.Spec

/-! ### C14 -/

/-- a legal name that neither a symbol nor an acronym has, up to case -/
def NewName (syms : List Sym) (acros : List Acr) (s : Str) : Prop :=
  Ident s ∧ (∀ t ∈ syms, ¬ SameNoCase t.name s) ∧ ∀ a ∈ acros, ¬ SameNoCase a.name s

theorem symIndex_none {syms : List Sym} {s : Str} : ¬ symIndex syms s ≥ 1 ↔ ∀ t ∈ syms, ¬ SameNoCase t.name s := by
  have h0 : (∀ t ∈ syms, ¬ SameNoCase t.name s) ↔ lookup false s (syms.map Sym.name) = none := by
    rw [lookup_none]
    simp [SameName]
  rw [h0]
  unfold symIndex
  rcases indexOf1_cases false s (syms.map Sym.name) with ⟨h, hi⟩ | ⟨n, h, hi⟩
  · simp [h, hi]
  · rw [h, hi]
    simp

theorem acrFindName_iff {acros : List Acr} {s : Str} :
    ¬ (acrFindName acros s).isSome = true ↔ ∀ a ∈ acros, ¬ SameNoCase a.name s := by
  rw [Bool.not_eq_true, Option.isSome_eq_false_iff, Option.isNone_iff_eq_none, acrFindName_none]
  constructor
  · intro h a ha hs
    have := h a ha
    rw [show sameText false a.name s = true from (sameText_iff false _ _).mpr hs] at this
    cases this
  · intro h a ha
    rw [Bool.eq_false_iff]
    intro hs
    exact h a ha ((sameText_iff false _ _).mp hs)

theorem isGoodNewSymbol_iff (g : Gx) (syms : List Sym) (acros : List Acr) (s : Str) :
    (isGoodNewSymbol g syms acros s).2 = true ↔ NewName syms acros s := by
  unfold isGoodNewSymbol NewName
  rw [← symIndex_none (syms := syms), ← acrFindName_iff (acros := acros), ← C14_ident]
  split
  · simp_all
  split
  · simp_all
  split
  · simp_all
  · simp_all

/-- the four functions that begin a symbol -/
def Starts (f : Gx → Str → Str → Int → Int → Int → Res (Gx × Bool)) : Prop :=
  f = dataWriteRawStart ∨ f = dataWriteMapStart ∨ f = dataWriteStrStart ∨
    ∃ bs, f = fun g name text dim typ ui => dataWriteRawStartKeyBounds g name text dim typ ui bs

/-- `g'` has, compared to the table `syms`, one more symbol -/
def OneMore (g' : Gx) (syms : List Sym) (name : Str) (dim typ ui : Int) : Prop :=
  ∃ sy, g'.names = some (syms ++ [sy]) ∧ sy.name = name ∧ sy.dim = dim ∧ (sy.typ : Int) = typ ∧ sy.userInfo = ui

theorem prepareWrite_ok (g : Gx) (syms : List Sym) (acros : List Acr) (hm : g.mode = .wInit) (hs : g.names = some syms)
    (ha : g.acros = some acros) (name text : Str) (dim typ ui : Int) :
    ∃ g' b, prepareWrite g name text dim typ ui = .ok (g', b) ∧
      (b = true ↔ NewName syms acros name ∧ (0 ≤ dim ∧ dim ≤ 20) ∧ (0 ≤ typ ∧ typ ≤ 3)) ∧
      (b = true → OneMore g' syms name dim typ ui ∧ g'.cur = .sym (syms.length + 1) ∧ g'.nextWrite = g.nextWrite ∧
        g'.curDim = dim) := by
  unfold prepareWrite
  generalize hg0 : ({ g with cur := .none, errList := none, sort := none } : Gx) = g0
  have e1 : g0.mode = .wInit := by rw [← hg0]; exact hm
  have e2 : g0.names = some syms := by rw [← hg0]; exact hs
  have e3 : g0.acros = some acros := by rw [← hg0]; exact ha
  have e4 : g0.nextWrite = g.nextWrite := by rw [← hg0]
  rcases chk_cases g0 [.wInit] with ⟨_, hc⟩ | ⟨hc, _⟩
  swap
  · rw [e1] at hc; exact absurd (by simp) hc
  simp only [hc, Bool.true_eq_false, if_false, e2, e3, need, Res.bind_ok]
  have key := isGoodNewSymbol_iff g0 syms acros name
  rcases isGoodNewSymbol_cases g0 syms acros name with ⟨h, _⟩ | ⟨n, _, h⟩
  · rw [h] at key ⊢
    have key := key.mp rfl
    simp only [Bool.true_eq_false, if_false]
    by_cases hd : 0 ≤ dim ∧ dim ≤ (maxDim : Int)
    · by_cases ht : 0 ≤ typ ∧ typ ≤ 3
      · rw [if_neg (not_not.mpr hd), if_neg (not_not.mpr ht)]
        refine ⟨_, true, rfl, ⟨fun _ => ⟨key, hd, ht⟩, fun _ => rfl⟩, fun _ => ⟨⟨_, rfl, rfl, rfl, ?_, rfl⟩, rfl, e4, rfl⟩⟩
        show ((typ.toNat : Nat) : Int) = typ
        omega
      · rw [if_neg (not_not.mpr hd), if_pos ht]
        exact ⟨_, false, rfl, ⟨fun h => Bool.noConfusion h, fun h => absurd h.2.2 ht⟩, fun h => Bool.noConfusion h⟩
    · rw [if_pos hd]
      exact ⟨_, false, rfl, ⟨fun h => Bool.noConfusion h, fun h => absurd h.2.1 hd⟩, fun h => Bool.noConfusion h⟩
  · rw [h] at key ⊢
    simp only [if_true]
    refine ⟨_, false, rfl, ⟨fun h => Bool.noConfusion h, fun h => ?_⟩, fun h => Bool.noConfusion h⟩
    exact key.mpr h.1

theorem replicate_i32 (n : Nat) : ∀ b ∈ List.replicate n ((0 : Int), intMax), I32 b.1 ∧ I32 b.2 := by
  intro b hb
  rw [(List.mem_replicate.mp hb).2]
  decide

theorem initDoWrite_more {g : Gx} {n : Int} {syms : List Sym} {name : Str} {dim typ ui : Int}
    (hc : g.cur = .sym (syms.length + 1)) (ho : OneMore g syms name dim typ ui) (hw : 0 ≤ g.nextWrite)
    (hb : ∀ b ∈ g.bounds, I32 b.1 ∧ I32 b.2) (hn : I32 n) :
    ∃ g', initDoWrite g n = .ok g' ∧ OneMore g' syms name dim typ ui := by
  obtain ⟨sy, h1, h2, h3, h4, h5⟩ := ho
  unfold initDoWrite
  rw [if_neg (by push Not; exact ⟨hw, hb, hn⟩)]
  unfold Gx.modCur
  simp only [hc, h1]
  rw [if_pos (by simp)]
  refine ⟨_, rfl, { sy with pos := g.nextWrite }, ?_, h2, h3, h4, h5⟩
  show some (List.modify _ _ _) = _
  rw [Nat.add_sub_cancel, modify_eq_set_of (a := sy) (by simp)]
  simp

/-- C14, acceptance: in a file being written, each of the four start functions accepts exactly the new legal names with
    dimension 0..20 and type 0..3; then there is one more symbol, which has that name, dimension, type and user info. -/
theorem C14_accept (f : Gx → Str → Str → Int → Int → Int → Res (Gx × Bool)) (hf : Starts f) (g g' : Gx) (syms : List Sym)
    (acros : List Acr) (hm : g.mode = .wInit) (hs : g.names = some syms) (ha : g.acros = some acros) (name text : Str)
    (dim typ ui : Int) (b : Bool) (h : f g name text dim typ ui = .ok (g', b)) :
    (b = true ↔ NewName syms acros name ∧ (0 ≤ dim ∧ dim ≤ 20) ∧ (0 ≤ typ ∧ typ ≤ 3)) ∧
      (b = true → OneMore g' syms name dim typ ui) := by
  obtain ⟨g1, b1, h1, h2, h3⟩ := prepareWrite_ok g syms acros hm hs ha name text dim typ ui
  have key : ∀ (k : Gx → Res (Gx × Bool)),
      (prepareWrite g name text dim typ ui >>= fun x => if x.2 = false then pure (x.1, false) else k x.1) = .ok (g', b) →
      (∀ x, k g1 = .ok x → x.2 = true ∧ (b1 = true → OneMore x.1 syms name dim typ ui)) →
      (b = true ↔ NewName syms acros name ∧ (0 ≤ dim ∧ dim ≤ 20) ∧ (0 ≤ typ ∧ typ ≤ 3)) ∧
        (b = true → OneMore g' syms name dim typ ui) := by
    intro k hk hx
    rw [h1, Res.bind_ok] at hk
    cases hb : b1 with
    | false =>
      rw [hb] at hk h2
      simp only [if_true, Res.pure_eq, Res.ok.injEq, Prod.mk.injEq] at hk
      rw [← hk.2]
      exact ⟨h2, fun h => Bool.noConfusion h⟩
    | true =>
      rw [hb] at hk h2
      simp only [Bool.true_eq_false, if_false] at hk
      have := hx _ hk
      simp only at this
      rw [this.1]
      exact ⟨h2, fun _ => this.2 hb⟩
  rcases hf with rfl | rfl | rfl | ⟨bs, rfl⟩
  · refine key (fun g1 => initDoWrite { g1 with bounds := List.replicate g1.nd (0, intMax) } (-1) >>=
      fun g2 => pure ({ g2 with mode := .wDomRaw }, true)) ?_ ?_
    · unfold dataWriteRawStart at h; exact h
    · intro x hx
      obtain ⟨g2, h4, h5⟩ := Res.bind_eq_ok.mp hx
      cases h5
      refine ⟨rfl, fun hb => ?_⟩
      obtain ⟨h6, h7, _⟩ := h3 hb
      by_cases hw : 0 ≤ g1.nextWrite
      · obtain ⟨g3, h8, h9⟩ := initDoWrite_more (g := { g1 with bounds := List.replicate g1.nd (0, intMax) }) (n := -1) h7 h6 hw
          (replicate_i32 _) (by decide)
        rw [h4] at h8
        cases h8
        exact h9
      · unfold initDoWrite at h4
        rw [if_pos (Or.inl (by show g1.nextWrite < 0; omega))] at h4
        cases h4
  · refine key (fun g1 => pure ({ g1 with sort := some LData.empty, mode := .wDomMap }, true)) ?_ ?_
    · unfold dataWriteMapStart at h; exact h
    · intro x hx
      cases hx
      exact ⟨rfl, fun hb => (h3 hb).1⟩
  · refine key (fun g1 => pure ({ g1 with lastStr := List.replicate g1.nd none, sort := some LData.empty, mode := .wDomStr },
      true)) ?_ ?_
    · unfold dataWriteStrStart at h; exact h
    · intro x hx
      cases hx
      exact ⟨rfl, fun hb => (h3 hb).1⟩
  · refine key (fun g1 => if bs.length ≠ g1.nd then .ub else initDoWrite { g1 with bounds := bs } (-1) >>=
      fun g2 => pure ({ g2 with mode := .wDomRaw }, true)) ?_ ?_
    · simp only at h; unfold dataWriteRawStartKeyBounds at h; exact h
    · intro x hx
      split at hx
      · cases hx
      obtain ⟨g2, h4, h5⟩ := Res.bind_eq_ok.mp hx
      cases h5
      refine ⟨rfl, fun hb => ?_⟩
      obtain ⟨h6, h7, _⟩ := h3 hb
      by_cases hw : 0 ≤ g1.nextWrite ∧ ∀ b ∈ bs, I32 b.1 ∧ I32 b.2
      · obtain ⟨g3, h8, h9⟩ := initDoWrite_more (g := { g1 with bounds := bs }) (n := -1) h7 h6 hw.1 hw.2 (by decide)
        rw [h4] at h8
        cases h8
        exact h9
      · unfold initDoWrite at h4
        rw [if_pos (by
          by_cases h0 : g1.nextWrite < 0
          · exact Or.inl h0
          · exact Or.inr (Or.inl fun hb => hw ⟨by omega, hb⟩))] at h4
        cases h4

/-- C14: the start functions have a defined result (the bounds given to the KeyBounds variant must be ints and as many as
    the dimension says). -/
theorem C14_defined (g : Gx) (syms : List Sym) (acros : List Acr) (hm : g.mode = .wInit) (hs : g.names = some syms)
    (ha : g.acros = some acros) (hw : 0 ≤ g.nextWrite) (name text : Str) (dim typ ui : Int) :
    dataWriteRawStart g name text dim typ ui ≠ .ub ∧ dataWriteMapStart g name text dim typ ui ≠ .ub ∧
      dataWriteStrStart g name text dim typ ui ≠ .ub ∧
      ∀ bs : List (Int × Int), bs.length = dim.toNat → (∀ b ∈ bs, I32 b.1 ∧ I32 b.2) →
        dataWriteRawStartKeyBounds g name text dim typ ui bs ≠ .ub := by
  obtain ⟨g1, b1, h1, h2, h3⟩ := prepareWrite_ok g syms acros hm hs ha name text dim typ ui
  unfold dataWriteRawStart dataWriteMapStart dataWriteStrStart dataWriteRawStartKeyBounds
  simp only [h1, Res.bind_ok]
  cases hb : b1 with
  | false => simp
  | true =>
    obtain ⟨h6, h7, h8, h9⟩ := h3 hb
    have hw1 : 0 ≤ g1.nextWrite := by rw [h8]; exact hw
    simp only [Bool.true_eq_false, if_false]
    refine ⟨?_, by simp, by simp, ?_⟩
    · obtain ⟨g3, h8, h9⟩ := initDoWrite_more (g := { g1 with bounds := List.replicate g1.nd (0, intMax) }) (n := -1) h7 h6 hw1
        (replicate_i32 _) (by decide)
      rw [h8]
      simp
    · intro bs hbs hb32
      rw [if_neg (by simp [Gx.nd, h9, hbs])]
      obtain ⟨g3, h8, h9⟩ := initDoWrite_more (g := { g1 with bounds := bs }) (n := -1) h7 h6 hw1 hb32 (by decide)
      rw [h8]
      simp

/-- C14: gdxFindSymbol with any capitalisation of the name of symbol `n` returns `n` -/
theorem C14_found (g : Gx) (hg : TabOk g) (syms : List Sym) (hs : g.names = some syms) (n : Nat) (s : Sym)
    (hn : syms[n]? = some s) (name : Str) (h : SameNoCase s.name name) : findSymbol g name = (true, (n : Int) + 1) := by
  have hok := hg.syms syms hs
  have hl : lookup false name (syms.map Sym.name) = some n :=
    hok.distinct.lookup (x := s.name) (by rw [List.getElem?_map, hn]; rfl) h
  have hstar : name ≠ star := by
    rintro rfl
    have hid := (C14_ident _).mp (hok.each n s hn).good
    have hlen : s.name.length = 1 := by
      have := congrArg List.length h
      simpa [star] using this
    obtain ⟨c, hc, hc'⟩ := hid.2.1
    obtain ⟨x, hx⟩ := List.length_eq_one_iff.mp hlen
    rw [hx] at hc h
    simp at hc
    subst hc
    unfold SameNoCase star at h
    simp at h
    rw [show lower 42 = 42 from rfl] at h
    unfold lower at h
    split at h
    · have h' : x = 10 := by
        have := congrArg (· - 32) h
        simpa using this
      subst h'
      revert hc'
      decide
    · subst h
      revert hc'
      decide
  unfold findSymbol
  rw [if_neg hstar, hs]
  simp only [symIndex, indexOf1, hl]
  simp

/-- C14 over histories: in every object that a history of calls leads to, distinct symbols have distinct names up to case,
    all names are identifiers, and gdxFindSymbol finds every symbol in any capitalisation. About files that are opened the
    same has to be known. -/
theorem C14_distinct (e : Env) (z : Cz) (cs : List Call) (hc : ∀ c ∈ cs, c.WF) (ho : OpensOk TabOk e z Gx.new cs) (g : Gx)
    (hg : run e z Gx.new cs = .ok g) (syms : List Sym) (hs : g.names = some syms) :
    (∀ (i j : Nat) (a b : Sym), syms[i]? = some a → syms[j]? = some b → SameNoCase a.name b.name → i = j) ∧
      (∀ s ∈ syms, Ident s.name) ∧
      ∀ (n : Nat) (s : Sym), syms[n]? = some s → ∀ name, SameNoCase s.name name → findSymbol g name = (true, (n : Int) + 1) := by
  have h := ((TabOk.run e z cs Gx.new hc aft_new TabOk.new ho).of_ok hg).2
  have hok := h.syms syms hs
  refine ⟨?_, ?_, ?_⟩
  · intro i j a b hi hj hab
    exact hok.distinct.eq (a := a.name) (b := b.name) (by rw [List.getElem?_map, hi]; rfl)
      (by rw [List.getElem?_map, hj]; rfl) hab
  · intro s hs'
    obtain ⟨n, hn⟩ := List.getElem?_of_mem hs'
    exact (C14_ident _).mp (hok.each n s hn).good
  · intro n s hn name hsame
    exact C14_found g h syms hs n s hn name hsame

/-- C14: symbols keep their number, name, dimension and type until the file is closed -/
theorem C14_stable (e : Env) (z : Cz) (cs : List Call) (g g' : Gx) (hc : NoOpen cs) (ha : Aft g) (syms syms' : List Sym)
    (hs : g.names = some syms) (hg : run e z g cs = .ok g') (hs' : g'.names = some syms') (n : Nat) (s : Sym)
    (hn : syms[n]? = some s) :
    ∃ s', syms'[n]? = some s' ∧ s'.name = s.name ∧ s'.dim = s.dim ∧ s'.typ = s.typ ∧ s'.userInfo = s.userInfo ∧
      s'.expl = s.expl := by
  obtain ⟨s', h1, h2⟩ := (Holds.run e z cs g hc ha syms hs).of_ok hg syms' hs' n s hn
  exact ⟨s', h1, h2.name, h2.dim, h2.typ, h2.ui, h2.expl⟩

/-- "i" as a set, then "I" again (refused), "j" of type alias (refused), "3" (refused); then ask for "I" -/
example : after [.openWrite false 0 [] 0, .rawStart [105] [] 1 0 0, .writeDone, .rawStart [73] [] 1 0 0,
    .rawStart [106] [] 1 4 0, .rawStart [51] [] 1 0 0, .rawStart [107] [] 21 0 0]
    (fun g => .ok (findSymbol g [73], findSymbol g [106], g.names.map List.length, errorCount g)) =
    .ok ((true, 1), (false, -1), some 1, 4) := by decide +kernel

/-! ### C30 -/

/-- `s` names a set, an alias or the universe -/
def KnownSet (syms : List Sym) (s : Str) : Prop :=
  s = star ∨ ∃ t ∈ syms, SameNoCase t.name s ∧ (t.typ = dtSet ∨ t.typ = dtAlias)

theorem newName_star {syms : List Sym} {acros : List Acr} : ¬ NewName syms acros star := by
  rintro ⟨⟨_, ⟨c, hc, hc'⟩, _⟩, _⟩
  cases hc
  revert hc'
  decide

theorem aliasNr_new {syms : List Sym} {acros : List Acr} {s : Str} (h : NewName syms acros s) : aliasNr syms s = -1 := by
  unfold aliasNr
  rw [if_neg (by rintro rfl; exact newName_star h)]
  have := symIndex_none.mpr h.2.1
  unfold symIndex at *
  rcases indexOf1_cases false s (syms.map Sym.name) with ⟨h, hi⟩ | ⟨n, h, hi⟩
  · exact hi
  · rw [hi] at this; omega

theorem aliasNr_known {syms : List Sym} {s : Str} (h : KnownSet syms s) : aliasNr syms s > 0 := by
  unfold aliasNr
  split
  · decide
  · rename_i hs
    rcases h with h | ⟨t, ht, h, _⟩
    · exact absurd h hs
    · by_contra hc
      exact symIndex_none.mp (by omega) t ht h

theorem aliasNr_cases {syms : List Sym} (hd : Distinct false (syms.map Sym.name)) (s : Str) :
    (aliasNr syms s = intMax ∧ s = star) ∨ aliasNr syms s = -1 ∨
      ∃ (n : Nat) (t : Sym), aliasNr syms s = (n : Int) + 1 ∧ syms[n]? = some t ∧ s ≠ star ∧
        (KnownSet syms s ↔ t.typ = dtSet ∨ t.typ = dtAlias) := by
  unfold aliasNr
  split
  · rename_i h; exact Or.inl ⟨rfl, h⟩
  · rename_i hstar
    right
    unfold symIndex
    rcases indexOf1_cases false s (syms.map Sym.name) with ⟨h, hi⟩ | ⟨n, h, hi⟩
    · exact Or.inl hi
    · right
      obtain ⟨x, hx, hsame⟩ := lookup_some h
      rw [List.getElem?_map] at hx
      obtain ⟨t, ht, rfl⟩ := Option.map_eq_some_iff.mp hx
      refine ⟨n, t, hi, ht, hstar, ?_, fun h => Or.inr ⟨t, List.mem_of_getElem? ht, hsame, h⟩⟩
      rintro (h | ⟨t', ht', h1, h2⟩)
      · exact absurd h hstar
      · obtain ⟨m, hm⟩ := List.getElem?_of_mem ht'
        have : m = n := hd.eq (a := t'.name) (b := t.name) (by rw [List.getElem?_map, hm]; rfl)
          (by rw [List.getElem?_map, ht]; rfl) (sameName_tr h1 (sameName_comm hsame))
        subst this
        rw [ht] at hm
        cases hm
        exact h2

/-- the new alias `name` of `target` -/
def AliasAdded (g g' : Gx) (syms : List Sym) (target name : Str) : Prop :=
  ∃ sy, g' = { g with names := some (syms ++ [sy]) } ∧ sy.name = name ∧ sy.typ = dtAlias ∧
    ((target = star ∧ sy.userInfo = 0 ∧ sy.dim = 1) ∨
      ∃ (n : Nat) (t : Sym), syms[n]? = some t ∧ SameNoCase t.name target ∧ sy.userInfo = (n : Int) + 1 ∧ sy.dim = t.dim)

theorem symIndex_some {syms : List Sym} {s : Str} {n : Nat} {t : Sym} (h : symIndex syms s = (n : Int) + 1)
    (ht : syms[n]? = some t) : SameNoCase t.name s := by
  unfold symIndex at h
  rcases indexOf1_cases false s (syms.map Sym.name) with ⟨_, hi⟩ | ⟨m, hm, hi⟩
  · rw [hi] at h; omega
  · have : m = n := by rw [hi] at h; omega
    subst this
    obtain ⟨x, hx, hsame⟩ := lookup_some hm
    rw [List.getElem?_map, ht] at hx
    cases hx
    exact hsame

theorem addAliasTo_ok (g : Gx) (syms : List Sym) (nd : Nat) (acros : List Acr) (hok : SymsOk syms nd) (hlen : (syms.length : Int) < intMax) (a b : Str) (ha : aliasNr syms a > 0) :
    ∃ g' r, addAliasTo g syms acros (aliasNr syms a) b = .ok (g', r) ∧
      (r = true ↔ KnownSet syms a ∧ NewName syms acros b) ∧ (r = true → AliasAdded g g' syms a b) ∧
      (r = false → ∃ n, g' = g.raise n) := by
  unfold addAliasTo
  have key := isGoodNewSymbol_iff g syms acros b
  rcases aliasNr_cases hok.distinct a with ⟨h1, h2⟩ | h1 | ⟨n, t, h1, h2, h3, h4⟩
  · rw [if_pos h1]
    have hk : KnownSet syms a := Or.inl h2
    rcases isGoodNewSymbol_cases g syms acros b with ⟨h, _⟩ | ⟨n, _, h⟩
    · rw [h] at key ⊢
      simp only [Bool.true_eq_false, if_false]
      exact ⟨_, true, rfl, ⟨fun _ => ⟨hk, key.mp rfl⟩, fun _ => rfl⟩, fun _ => ⟨_, rfl, rfl, rfl, Or.inl ⟨h2, rfl, rfl⟩⟩,
        fun h => Bool.noConfusion h⟩
    · rw [h] at key ⊢
      simp only [if_true]
      exact ⟨_, false, rfl, ⟨fun h => Bool.noConfusion h, fun h => key.mpr h.2⟩, fun h => Bool.noConfusion h, fun _ => ⟨n, rfl⟩⟩
  · omega
  · have hn := (List.getElem?_eq_some_iff.mp h2).1
    rw [if_neg (by omega), h1, at1_nat h2, Res.bind_ok]
    by_cases ht : t.typ = dtSet ∨ t.typ = dtAlias
    · rw [if_neg (not_not.mpr ht)]
      have hk := h4.mpr ht
      rcases isGoodNewSymbol_cases g syms acros b with ⟨h, _⟩ | ⟨m, _, h⟩
      · rw [h] at key ⊢
        simp only [Bool.true_eq_false, if_false]
        rw [if_neg (by have := (ident_zfree (hok.each n t h2).good).2; omega)]
        refine ⟨_, true, rfl, ⟨fun _ => ⟨hk, key.mp rfl⟩, fun _ => rfl⟩, fun _ => ?_, fun h => Bool.noConfusion h⟩
        refine ⟨_, rfl, rfl, rfl, Or.inr ⟨n, t, h2, ?_, rfl, rfl⟩⟩
        unfold aliasNr at h1
        rw [if_neg h3] at h1
        exact symIndex_some h1 h2
      · rw [h] at key ⊢
        simp only [if_true]
        exact ⟨_, false, rfl, ⟨fun h => Bool.noConfusion h, fun h => key.mpr h.2⟩, fun h => Bool.noConfusion h,
          fun _ => ⟨m, rfl⟩⟩
    · rw [if_pos ht]
      exact ⟨_, false, rfl, ⟨fun h => Bool.noConfusion h, fun h => absurd (h4.mp h.1) ht⟩, fun h => Bool.noConfusion h,
        fun _ => ⟨_, rfl⟩⟩

/-- C30, acceptance: while writing, gdxAddAlias succeeds exactly when one identifier names a set, an alias or the universe
    and the other one is a new legal name; then there is one more symbol, an alias, that stands for the first one. Otherwise
    only an error is raised. -/
theorem C30_accept (g : Gx) (hm : g.mode ∈ anyWrite) (syms : List Sym) (hs : g.names = some syms) (hok : TabOk g)
    (acros : List Acr) (ha : g.acros = some acros) (hlen : (syms.length : Int) < intMax) (id1 id2 : Str) :
    ∃ g' r, addAlias g id1 id2 = .ok (g', r) ∧
      (r = true ↔ (KnownSet syms id1 ∧ NewName syms acros id2) ∨ (KnownSet syms id2 ∧ NewName syms acros id1)) ∧
      (r = true → AliasAdded g g' syms id1 id2 ∨ AliasAdded g g' syms id2 id1) ∧ (r = false → ∃ n, g' = g.raise n) := by
  have hok := hok.syms syms hs
  unfold addAlias
  rcases chk_cases g anyWrite with ⟨_, hc⟩ | ⟨h, _⟩
  · rw [hc]
    simp only [Bool.true_eq_false, if_false, hs, ha, need, Res.bind_ok]
    have c1 := aliasNr_cases hok.distinct id1
    have c2 := aliasNr_cases hok.distinct id2
    have im : intMax = 2147483647 := rfl
    have s1 : aliasNr syms id1 > 0 ∨ aliasNr syms id1 = -1 := by
      rcases c1 with ⟨h, _⟩ | h | ⟨n, t, h, _⟩ <;> omega
    have s2 : aliasNr syms id2 > 0 ∨ aliasNr syms id2 = -1 := by
      rcases c2 with ⟨h, _⟩ | h | ⟨n, t, h, _⟩ <;> omega
    have nk : ∀ x, aliasNr syms x = -1 → ¬ KnownSet syms x := fun x h hk => by have := aliasNr_known hk; omega
    have nn : ∀ x, aliasNr syms x > 0 → ¬ NewName syms acros x := fun x h hk => by have := aliasNr_new hk; omega
    rcases s1 with s1 | s1 <;> rcases s2 with s2 | s2
    · rw [if_pos (by rw [decide_eq_true (by omega), decide_eq_true (by omega)]; rfl)]
      refine ⟨_, false, rfl, ⟨fun h => Bool.noConfusion h, ?_⟩, fun h => Bool.noConfusion h, fun _ => ⟨_, rfl⟩⟩
      rintro (h | h)
      · exact absurd h.2 (nn id2 s2)
      · exact absurd h.2 (nn id1 s1)
    · rw [if_neg (by rw [decide_eq_true (by omega), decide_eq_false (by omega)]; decide), if_pos s1]
      obtain ⟨g', r, h1, h2, h3, h4⟩ := addAliasTo_ok g syms g.nDom acros hok hlen id1 id2 s1
      refine ⟨g', r, h1, ⟨fun h => Or.inl (h2.mp h), ?_⟩, fun h => Or.inl (h3 h), h4⟩
      rintro (h | h)
      · exact h2.mpr h
      · exact absurd h.1 (nk id2 s2)
    · rw [if_neg (by rw [decide_eq_false (by omega), decide_eq_true (by omega)]; decide), if_neg (by omega)]
      obtain ⟨g', r, h1, h2, h3, h4⟩ := addAliasTo_ok g syms g.nDom acros hok hlen id2 id1 s2
      refine ⟨g', r, h1, ⟨fun h => Or.inr (h2.mp h), ?_⟩, fun h => Or.inr (h3 h), h4⟩
      rintro (h | h)
      · exact absurd h.1 (nk id1 s1)
      · exact h2.mpr h
    · rw [if_pos (by rw [decide_eq_false (by omega), decide_eq_false (by omega)]; rfl)]
      refine ⟨_, false, rfl, ⟨fun h => Bool.noConfusion h, ?_⟩, fun h => Bool.noConfusion h, fun _ => ⟨_, rfl⟩⟩
      rintro (h | h)
      · exact absurd h.1 (nk id1 s1)
      · exact absurd h.1 (nk id2 s2)
  · exact absurd hm h

/-- The set that symbol `n` (from 1) stands for, through any number of aliases; `none` is the universe. -/
inductive StandsFor (syms : List Sym) : Int → Option Nat → Prop where
  | set (n : Nat) (s : Sym) (h : syms[n]? = some s) (ht : s.typ = dtSet) : StandsFor syms ((n : Int) + 1) (some (n + 1))
  | univ (n : Nat) (s : Sym) (h : syms[n]? = some s) (ht : s.typ = dtAlias) (hu : s.userInfo = 0) :
      StandsFor syms ((n : Int) + 1) none
  | ali (n : Nat) (s : Sym) (r : Option Nat) (h : syms[n]? = some s) (ht : s.typ = dtAlias) (hu : s.userInfo ≠ 0)
      (hr : StandsFor syms s.userInfo r) : StandsFor syms ((n : Int) + 1) r

theorem aliasTarget_ok (syms : List Sym) (nd : Nat) (hok : SymsOk syms nd) : ∀ (fuel n : Nat) (s : Sym), n < fuel →
    syms[n]? = some s → (s.typ = dtSet ∨ s.typ = dtAlias) →
    ∃ r, aliasTarget syms fuel ((n : Int) + 1) = .ok r ∧ StandsFor syms ((n : Int) + 1) r
  | 0, n, s, h, _, _ => by omega
  | fuel + 1, n, s, h, hs, ht => by
    unfold aliasTarget
    rw [at1_nat hs, Res.bind_ok]
    by_cases ha : s.typ = dtAlias
    · rw [if_pos ha]
      rcases (hok.each n s hs).ali ha with ⟨hu, _⟩ | ⟨m, t, h1, h2, h3, h4, _⟩
      · rw [if_pos hu]
        exact ⟨none, rfl, .univ n s hs ha hu⟩
      · rw [if_neg (by omega), h2]
        obtain ⟨r, hr1, hr2⟩ := aliasTarget_ok syms nd hok fuel m t (by omega) h3 h4
        exact ⟨r, hr1, .ali n s r hs ha (by omega) (by rw [h2]; exact hr2)⟩
    · have ht := ht.resolve_right ha
      rw [if_neg ha, if_pos ht]
      exact ⟨some (n + 1), by simp, .set n s hs ht⟩

/-- C30: in every object a history leads to, following the aliases from a set or an alias ends at a set or the universe. -/
theorem C30_ends (e : Env) (z : Cz) (cs : List Call) (hc : ∀ c ∈ cs, c.WF) (ho : OpensOk TabOk e z Gx.new cs) (g : Gx)
    (hg : run e z Gx.new cs = .ok g) (syms : List Sym) (hs : g.names = some syms) (n : Nat) (s : Sym)
    (hn : syms[n]? = some s) (ht : s.typ = dtSet ∨ s.typ = dtAlias) :
    ∃ r, readTarget syms ((n : Int) + 1) = .ok r ∧ StandsFor syms ((n : Int) + 1) r := by
  have hok := (((TabOk.run e z cs Gx.new hc aft_new TabOk.new ho).of_ok hg).2).syms syms hs
  have hlt := (List.getElem?_eq_some_iff.mp hn).1
  obtain ⟨r, h1, h2⟩ := aliasTarget_ok syms g.nDom hok (syms.length + 1) n s (by omega) hn ht
  refine ⟨r, ?_, h2⟩
  unfold readTarget
  rw [if_neg (by omega), at1_nat hn, Res.bind_ok]
  by_cases ha : s.typ = dtAlias
  · rw [if_pos ha]; exact h1
  · rw [if_neg ha]
    unfold aliasTarget at h1
    rw [at1_nat hn, Res.bind_ok, if_neg ha, if_pos (ht.resolve_right ha)] at h1
    exact h1

theorem StandsFor.target {syms : List Sym} {n : Int} {m : Nat} (h : StandsFor syms n (some m)) :
    ∃ (k : Nat) (t : Sym), m = k + 1 ∧ syms[k]? = some t ∧ t.typ = dtSet := by
  generalize hr : some m = r at h
  induction h with
  | set k s hk ht => cases hr; exact ⟨k, s, rfl, hk, ht⟩
  | univ => cases hr
  | ali _ _ _ _ _ _ _ ih => exact ih hr

theorem dataReadDone_names (g : Gx) : (dataReadDone g).All fun x => x.1.names = g.names := by
  unfold dataReadDone
  rcases chk_cases ({ g with sort := none, cur := .none } : Gx) [.rInit, .rRaw, .rMap, .rMapR, .rStr, .rSlice] with
    ⟨_, hc⟩ | ⟨_, hc⟩
  · simp only [hc, Bool.true_eq_false, if_false]
    split
    · refine Res.All.bind' fun u _ => Res.All.bind' fun u' _ => ?_
      rfl
    · rfl
  · simp only [hc, if_true]
    rfl

theorem prepareStart_names {g g1 : Gx} {ok : Bool} (h : prepareStart g = .ok (g1, ok)) : g1.names = g.names := by
  unfold prepareStart at h
  obtain ⟨g2, h1, h2⟩ := Res.bind_eq_ok.mp h
  have h3 : g2.names = g.names := by
    unfold finishRead at h1
    split at h1
    · obtain ⟨x, h4, h5⟩ := Res.bind_eq_ok.mp h1
      cases h5
      exact (dataReadDone_names g).of_ok h4
    · cases h1; rfl
  rcases chk_cases ({ g2 with nrMapped := 0, errList := none, cur := .none, sort := none } : Gx) [.rInit] with
    ⟨_, hc⟩ | ⟨_, hc⟩
  · simp only [hc] at h2; simp at h2; rw [← h2.1]; exact h3
  · simp only [hc] at h2; simp at h2; rw [← h2.1]; exact h3

/-- C30: reading an alias of a set is reading that set: the same result and the same object afterwards, so all further
    calls behave in the same way; likewise for aliases of the universe and symbol 0. -/
theorem C30_read (z : Cz) (g : Gx) (syms : List Sym) (hs : g.names = some syms) (n : Int) (r : Option Nat)
    (hr : readTarget syms n = .ok r) (hsf : StandsFor syms n r) (hn : 1 ≤ n ∧ n ≤ syms.length) (acts : List Int)
    (newmode : Mode) :
    prepareRead z g n acts newmode = prepareRead z g ((r.getD 0 : Nat) : Int) acts newmode := by
  have hsame : readTarget syms ((r.getD 0 : Nat) : Int) = .ok r := by
    cases r with
    | none => rfl
    | some m =>
      obtain ⟨k, t, h1, h2, h3⟩ := hsf.target
      subst h1
      unfold readTarget
      rw [if_neg (by simp; omega)]
      simp only [Option.getD_some, Nat.cast_add, Nat.cast_one]
      rw [at1_nat h2, Res.bind_ok, if_neg (by rw [h3]; decide)]
      simp
  have hrange : ((r.getD 0 : Nat) : Int) = 0 ∨ (1 ≤ ((r.getD 0 : Nat) : Int) ∧ ((r.getD 0 : Nat) : Int) ≤ syms.length) := by
    cases r with
    | none => left; rfl
    | some m =>
      obtain ⟨k, t, h1, h2, h3⟩ := hsf.target
      have := (List.getElem?_eq_some_iff.mp h2).1
      right
      simp only [Option.getD_some]
      omega
  unfold prepareRead
  cases hp : prepareStart g with
  | ub => rfl
  | ok x =>
    obtain ⟨g1, ok⟩ := x
    have hn1 : g1.names = some syms := by rw [prepareStart_names hp]; exact hs
    simp only [Res.bind_ok]
    cases ok with
    | false => rfl
    | true =>
      simp only [Bool.true_eq_false, if_false, hn1]
      cases hf : g1.filters with
      | none => rfl
      | some fl =>
        simp only [need, Res.bind_ok]
        rw [if_neg (show ¬ (n ≠ 0 ∧ ¬ (1 ≤ n ∧ n ≤ (syms.length : Int))) by omega),
          if_neg (show ¬ (((r.getD 0 : Nat) : Int) ≠ 0 ∧ ¬ (1 ≤ ((r.getD 0 : Nat) : Int) ∧ ((r.getD 0 : Nat) : Int) ≤
            (syms.length : Int))) by omega), hr, hsame]
        simp only [Res.bind_ok]
        cases r with
        | none => rfl
        | some m =>
          obtain ⟨k, t, h1, h2, h3⟩ := hsf.target
          rw [show decide (n = 0) = false from decide_eq_false (by omega),
            show decide ((((some m).getD 0 : Nat) : Int) = 0) = false from decide_eq_false (by simp only [Option.getD_some]; omega)]

/-- set "i" with one record, alias "a" of "i", alias "b" of "a"; reading "b" gives the record of "i" -/
example : after [.openWrite false 0 [] 0, .uelRawStart, .uelRaw [65], .uelDone, .rawStart [105] [] 1 0 0, .writeRaw [1] [0],
    .writeDone, .addAlias [97] [105], .addAlias [97] [98], .addAlias [98] [105]]
    (fun g => do
      let (g, _) ← dataReadRawStart Cz.id { g with mode := .rInit } 3
      let (_, r) ← dataReadRaw g
      let u ← need g.names
      pure [decide (u.length = 3), decide (r.map (fun x => x.key) = some [1]), decide (errorCount g = 1)]) =
    .ok [true, true, true] := by decide +kernel

/-! ### C35 -/

/-- C35: a comment is put behind the comments of its symbol (given by number, or the one being written); nothing else
    changes -/
theorem C35_add (g g' : Gx) (nr : Int) (txt : Str) (h : symbolAddComment g nr txt = .ok (g', true)) :
    ∃ (syms : List Sym) (n : Nat) (s : Sym), g.names = some syms ∧ syms[n]? = some s ∧
      (nr = (n : Int) + 1 ∨ (nr ≤ 0 ∧ g.cur = .sym (n + 1))) ∧
      g' = { g with names := some (syms.set n
        { s with comments := s.comments ++ [if txt.length ≤ 255 then some txt else none] }) } := by
  unfold symbolAddComment at h
  rcases chk_cases g anyWrite with ⟨_, hc⟩ | ⟨_, hc⟩
  · simp only [hc, Bool.true_eq_false, if_false] at h
    split at h
    · rename_i hnr
      have key : ∀ f : Sym → Sym, (g.modCur f >>= fun g => pure (g, true)) = .ok (g', true) →
          ∃ (syms : List Sym) (n : Nat) (s : Sym), g.names = some syms ∧ syms[n]? = some s ∧ g.cur = .sym (n + 1) ∧
            g' = { g with names := some (syms.set n (f s)) } := by
        intro f hf
        obtain ⟨g1, h1, h2⟩ := Res.bind_eq_ok.mp hf
        cases h2
        unfold Gx.modCur at h1
        split at h1
        · rename_i n l hcur hl
          split at h1
          · rename_i hn
            cases h1
            obtain ⟨s, hs⟩ : ∃ s, l[n - 1]? = some s := ⟨_, List.getElem?_eq_getElem (by omega)⟩
            exact ⟨l, n - 1, s, hl, hs, by rw [hcur]; congr 1; omega, by rw [modify_eq_set_of hs]⟩
          · cases h1
        · cases h1
      split at h
      · cases h
      · obtain ⟨syms, n, s, h1, h2, h3, h4⟩ := key _ h
        exact ⟨syms, n, s, h1, h2, Or.inr ⟨hnr, h3⟩, h4⟩
    · rename_i hnr
      split at h
      · rename_i l hl
        split at h
        · rename_i hn
          obtain ⟨s, hs⟩ : ∃ s, l[nr.toNat - 1]? = some s := ⟨_, List.getElem?_eq_getElem (by omega)⟩
          rw [modify_eq_set_of hs] at h
          cases h
          exact ⟨l, nr.toNat - 1, s, hl, hs, Or.inl (by omega), rfl⟩
        · cases h
      · cases h
  · simp only [hc, if_true] at h
    cases h

/-- C35: gdxSymbolGetComment returns the comment with this number, and fails for other numbers. Comments of more than 255
    bytes are excluded (`C35_long`). -/
theorem C35_get (g : Gx) (syms : List Sym) (hs : g.names = some syms) (n : Nat) (s : Sym) (hn : syms[n]? = some s)
    (cs : List Str) (hcs : s.comments = cs.map some) (k : Int) :
    symbolGetComment g ((n : Int) + 1) k =
      if 1 ≤ k ∧ k ≤ cs.length then .ok (true, (cs[(k - 1).toNat]?).getD []) else .ok (false, []) := by
  have hlt := (List.getElem?_eq_some_iff.mp hn).1
  unfold symbolGetComment Gx.symAt
  simp only [hs]
  rw [if_pos (by omega), show ((n : Int) + 1 - 1).toNat = n by omega, hn]
  simp only [hcs, List.length_map, List.getElem?_map]
  split
  · rename_i hk
    obtain ⟨c, hc⟩ : ∃ c, cs[(k - 1).toNat]? = some c := ⟨_, List.getElem?_eq_getElem (by omega)⟩
    rw [hc]
    rfl
  · rfl

/-- C35 over histories: what was among the comments of a symbol stays there under its number, until the file is closed -/
theorem C35_stable (e : Env) (z : Cz) (cs : List Call) (g g' : Gx) (hc : NoOpen cs) (ha : Aft g) (syms syms' : List Sym)
    (hs : g.names = some syms) (hg : run e z g cs = .ok g') (hs' : g'.names = some syms') (n k : Nat) (s : Sym)
    (hn : syms[n]? = some s) (c : Option Str) (hk : s.comments[k]? = some c) :
    ∃ s', syms'[n]? = some s' ∧ s'.comments[k]? = some c := by
  obtain ⟨s', h1, h2⟩ := (Holds.run e z cs g hc ha syms hs).of_ok hg syms' hs' n s hn
  obtain ⟨t, ht⟩ := h2.com
  exact ⟨s', h1, by rw [← ht, List.getElem?_append_left (List.getElem?_eq_some_iff.mp hk).1]; exact hk⟩

/-- The code violates C35 for comments of more than 255 bytes: the copy has no terminating 0 and reading it runs on behind
    the buffer. -/
theorem C35_long (txt : Str) (hl : 255 < txt.length) : ∃ g g' : Gx, symbolAddComment g 1 txt = .ok (g', true) ∧
    symbolGetComment g' 1 1 = .ub := by
  refine ⟨{ Gx.new with mode := .wInit, names := some [{ name := [105], dim := 1, typ := 0, userInfo := 0 }] },
    { Gx.new with mode := .wInit, names := some [{ name := [105], dim := 1, typ := 0, userInfo := 0, comments := [none] }] },
    ?_, rfl⟩
  have : (if txt.length ≤ 255 then some txt else none) = none := if_neg (by omega)
  unfold symbolAddComment
  rw [this]
  rfl

/-- two comments for "i", one while it is written and one after that; the third does not exist -/
example : after [.openWrite false 0 [] 0, .rawStart [105] [] 1 0 0, .addComment 0 [97], .writeDone, .addComment 1 [98]]
    (fun g => do
      let a ← symbolGetComment g 1 1
      let b ← symbolGetComment g 1 2
      let c ← symbolGetComment g 1 3
      pure (a, b, c)) = .ok ((true, [97]), (true, [98]), (false, [])) := by decide +kernel

end Gdx.Props
