import Verif.Proofs.Hist

/-!
The symbol table during histories: what every symbol satisfies, and what never changes.
-/

namespace Gdx

open Gdx.Props

theorem ident_quotable {s : Str} (h : isGoodIdent s = true) : Props.Quotable s := by
  have key : ∀ c ∈ s, isIdentChar c = true := by
    cases s with
    | nil => cases h
    | cons c cs =>
      unfold isGoodIdent at h
      simp only [Bool.and_eq_true, List.all_eq_true] at h
      intro d hd
      rcases List.mem_cons.mp hd with rfl | hd
      · unfold isIdentChar
        rw [h.1.1]
        rfl
      · exact h.1.2 d hd
  have hc : ∀ c, isIdentChar c = true → 32 ≤ c ∧ c ≠ 39 := by
    intro c hc
    refine ⟨?_, by rintro rfl; revert hc; decide⟩
    unfold isIdentChar isLetter at hc
    simp only [Bool.or_eq_true, Bool.and_eq_true, decide_eq_true_eq, UInt8.le_iff_toNat_le, beq_iff_eq] at hc ⊢
    rcases hc with (hc | hc) | hc
    · rcases hc with hc | hc <;> (have := hc.1; simp at this ⊢; omega)
    · have := hc.1; simp at this ⊢; omega
    · rw [hc]; decide
  exact ⟨fun c h => (hc c (key c h)).1, fun h => (hc 39 (key 39 h.1)).2 rfl⟩

theorem quotable_append {s t : Str} (hs : (∀ c ∈ s, 32 ≤ c) ∧ 39 ∉ s ∧ 34 ∉ s) (ht : Props.Quotable t) : Props.Quotable (s ++ t) := by
  refine ⟨?_, ?_⟩
  · intro c hc
    rcases List.mem_append.mp hc with hc | hc
    · exact hs.1 c hc
    · exact ht.1 c hc
  · rintro ⟨h1, h2⟩
    refine ht.2 ⟨?_, ?_⟩
    · exact (List.mem_append.mp h1).resolve_left hs.2.1
    · exact (List.mem_append.mp h2).resolve_left hs.2.2

theorem ident_zfree {s : Str} (h : isGoodIdent s = true) : ZFree s ∧ s.length ≤ 63 := by
  have := (C14_ident s).mp h
  refine ⟨?_, by have := this.1; omega⟩
  intro c hc h0
  have := this.2.2 c hc
  subst h0
  revert this
  decide

/-- number of strings of the relaxed domains -/
def Gx.nDom (g : Gx) : Nat := (g.domStrs.map List.length).getD 0

/-- symbol `n` (from 0) of the table `syms` -/
structure SymOk (syms : List Sym) (nd : Nat) (n : Nat) (s : Sym) : Prop where
  good : isGoodIdent s.name = true
  typ : s.typ ≤ 4
  dim : 0 ≤ s.dim ∧ s.dim ≤ 20
  ui : s.typ ≠ dtAlias → I32 s.userInfo
  expl : ZFree s.expl ∧ s.expl.length ≤ 255 ∧ Props.Quotable s.expl
  ali : s.typ = dtAlias → (s.userInfo = 0 ∧ s.dim = 1) ∨ ∃ (m : Nat) (t : Sym), m < n ∧ s.userInfo = (m : Int) + 1 ∧
    syms[m]? = some t ∧ (t.typ = dtSet ∨ t.typ = dtAlias) ∧ s.dim = t.dim
  dsy : ∀ l, s.domSyms = some l → l.length = s.dim.toNat ∧ ∀ d ∈ l, 0 ≤ d ∧ d ≤ syms.length
  dst : ∀ l, s.domStrs = some l → l.length = s.dim.toNat ∧ ∀ d ∈ l, 0 ≤ d ∧ d ≤ nd
  com : ∀ t, some t ∈ s.comments → ZFree t ∧ t.length ≤ 255
  cnt : 0 ≤ s.dataCount ∧ s.dataCount ≤ intMax

/-- the symbol table -/
structure SymsOk (syms : List Sym) (nd : Nat) : Prop where
  distinct : Distinct false (syms.map Sym.name)
  each : ∀ (n : Nat) (s : Sym), syms[n]? = some s → SymOk syms nd n s

theorem SymsOk.nil (nd : Nat) : SymsOk [] nd := ⟨List.Pairwise.nil, by intro n s h; cases h⟩

/-- what never changes of a symbol -/
structure SymKeep (s s' : Sym) : Prop where
  name : s'.name = s.name
  typ : s'.typ = s.typ
  dim : s'.dim = s.dim
  ui : s'.userInfo = s.userInfo
  expl : s'.expl = s.expl
  compr : s'.compr = s.compr
  com : s.comments <+: s'.comments
  dsy : ∀ l, s.domSyms = some l → s'.domSyms = some l
  bits : s'.bitmap.isSome = s.bitmap.isSome

theorem SymKeep.refl (s : Sym) : SymKeep s s := ⟨rfl, rfl, rfl, rfl, rfl, rfl, List.prefix_refl _, fun _ h => h, rfl⟩

theorem SymKeep.trans {a b c : Sym} (h1 : SymKeep a b) (h2 : SymKeep b c) : SymKeep a c :=
  ⟨h2.name.trans h1.name, h2.typ.trans h1.typ, h2.dim.trans h1.dim, h2.ui.trans h1.ui, h2.expl.trans h1.expl,
   h2.compr.trans h1.compr, h1.com.trans h2.com, fun l h => h2.dsy l (h1.dsy l h), h2.bits.trans h1.bits⟩

theorem SymStep.keep {g : Gx} {syms : List Sym} {n : Nat} {s s' : Sym} (h : SymStep .all g syms n s s') : SymKeep s s' := by
  cases h with
  | comment c _ => exact ⟨rfl, rfl, rfl, rfl, rfl, rfl, List.prefix_append _ _, fun _ h => h, rfl⟩
  | dom l _ _ hs _ _ =>
    exact ⟨rfl, rfl, rfl, rfl, rfl, rfl, List.prefix_refl _, fun _ h => (by rw [hs] at h; cases h), rfl⟩
  | note b bm _ _ hb => exact ⟨rfl, rfl, rfl, rfl, rfl, rfl, List.prefix_refl _, fun _ h => h, hb⟩
  | _ => exact ⟨rfl, rfl, rfl, rfl, rfl, rfl, List.prefix_refl _, fun _ h => h, rfl⟩

/-- symbols keep their numbers and what never changes -/
def SymsKeep (a b : List Sym) : Prop := ∀ (n : Nat) (s : Sym), a[n]? = some s → ∃ s', b[n]? = some s' ∧ SymKeep s s'

theorem SymsKeep.refl (a : List Sym) : SymsKeep a a := fun _ s h => ⟨s, h, SymKeep.refl s⟩

theorem SymsKeep.trans {a b c : List Sym} (h1 : SymsKeep a b) (h2 : SymsKeep b c) : SymsKeep a c := by
  intro n s h
  obtain ⟨s1, h3, h4⟩ := h1 n s h
  obtain ⟨s2, h5, h6⟩ := h2 n s1 h3
  exact ⟨s2, h5, h4.trans h6⟩

theorem SymsKeep.append (a t : List Sym) : SymsKeep a (a ++ t) := by
  intro n s h
  refine ⟨s, ?_, SymKeep.refl s⟩
  rw [List.getElem?_append_left (List.getElem?_eq_some_iff.mp h).1]
  exact h

theorem SymsKeep.set {a : List Sym} {n : Nat} {s s' : Sym} (h : a[n]? = some s) (hk : SymKeep s s') :
    SymsKeep a (a.set n s') := by
  intro m t ht
  by_cases hmn : n = m
  · subst hmn
    rw [h] at ht
    cases ht
    exact ⟨s', by rw [List.getElem?_set_self (List.getElem?_eq_some_iff.mp h).1], hk⟩
  · exact ⟨t, by rw [List.getElem?_set_ne hmn]; exact ht, SymKeep.refl t⟩

theorem SymsKeep.names_set {a : List Sym} {n : Nat} {s s' : Sym} (h : a[n]? = some s) (hk : SymKeep s s') :
    (a.set n s').map Sym.name = a.map Sym.name := by
  rw [List.map_set, hk.name]
  exact List.set_getElem_self_of (by rw [List.getElem?_map, h]; rfl)
where
  List.set_getElem_self_of {l : List Str} {n : Nat} {x : Str} (h : l[n]? = some x) : l.set n x = l := by
    obtain ⟨h1, h2⟩ := List.getElem?_eq_some_iff.mp h
    rw [← h2]
    exact List.set_getElem_self h1

theorem SymOk.mono {a b : List Sym} {nd nd' n : Nat} {s : Sym} (h : SymOk a nd n s) (hk : SymsKeep a b)
    (hl : a.length ≤ b.length) (hn : nd ≤ nd') : SymOk b nd' n s where
  good := h.good
  typ := h.typ
  dim := h.dim
  ui := h.ui
  expl := h.expl
  ali := fun ht => by
    rcases h.ali ht with h0 | ⟨m, t, h1, h2, h3, h4, h5⟩
    · exact Or.inl h0
    · obtain ⟨t', h6, h7⟩ := hk m t h3
      exact Or.inr ⟨m, t', h1, h2, h6, by rw [h7.typ]; exact h4, by rw [h7.dim]; exact h5⟩
  dsy := fun l hd => ⟨(h.dsy l hd).1, fun d hd' => by have := (h.dsy l hd).2 d hd'; omega⟩
  dst := fun l hd => ⟨(h.dst l hd).1, fun d hd' => by have := (h.dst l hd).2 d hd'; omega⟩
  com := h.com
  cnt := h.cnt

theorem SymsOk.more {a : List Sym} {nd nd' : Nat} (h : SymsOk a nd) (hn : nd ≤ nd') : SymsOk a nd' :=
  ⟨h.distinct, fun n s hs => (h.each n s hs).mono (SymsKeep.refl a) (Nat.le_refl _) hn⟩

theorem SymsOk.add {syms : List Sym} {acros : List Acr} {nd : Nat} {s : Sym} (h : SymsOk syms nd)
    (hs : NewSym syms acros s) : SymsOk (syms ++ [s]) nd := by
  refine ⟨?_, ?_⟩
  · rw [List.map_append]
    exact h.distinct.append hs.fresh
  · intro n t ht
    by_cases hn : n < syms.length
    · rw [List.getElem?_append_left hn] at ht
      exact (h.each n t ht).mono (SymsKeep.append _ _) (by simp) (Nat.le_refl _)
    · have hlt := (List.getElem?_eq_some_iff.mp ht).1
      rw [List.length_append, List.length_singleton] at hlt
      have hn : n = syms.length := by omega
      subst hn
      rw [List.getElem?_append_right (Nat.le_refl _)] at ht
      simp at ht
      subst ht
      obtain ⟨z1, z2, z3, z4, z5, z6, z7⟩ := hs.zero
      have hali : s.typ = dtAlias → (s.userInfo = 0 ∧ s.dim = 1) ∨ ∃ (m : Nat) (t : Sym), m < syms.length ∧
          s.userInfo = (m : Int) + 1 ∧ (syms ++ [s])[m]? = some t ∧ (t.typ = dtSet ∨ t.typ = dtAlias) ∧ s.dim = t.dim := by
        intro ht
        rcases hs.ali ht with ⟨h1, h2, _⟩ | ⟨m, t, h1, h2, h3, h4, _⟩
        · exact Or.inl ⟨h1, h2⟩
        · have hm := (List.getElem?_eq_some_iff.mp h2).1
          exact Or.inr ⟨m, t, hm, h1, by rw [List.getElem?_append_left hm]; exact h2, h3, h4⟩
      refine ⟨hs.good, hs.typ, ?_, fun ht => (hs.plain ht).2.1, ?_, hali, ?_, ?_, ?_, ?_⟩
      · by_cases ht : s.typ = dtAlias
        · rcases hs.ali ht with ⟨_, h2, _⟩ | ⟨m, t, _, h2, _, h4, _⟩
          · rw [h2]; omega
          · rw [h4]; exact (h.each m t h2).dim
        · exact (hs.plain ht).1
      · by_cases ht : s.typ = dtAlias
        · rcases hs.ali ht with ⟨_, _, h3⟩ | ⟨m, t, _, h2, _, _, h5, h6⟩
          · rw [h3]
            exact ⟨by intro c hc; revert c; decide, by decide, by intro c hc; revert c; decide, by decide⟩
          · rw [h5]
            refine ⟨zfree_append (by intro c hc; revert c; decide) (ident_zfree (h.each m t h2).good).1, ?_, ?_⟩
            · rw [List.length_append, show aliasedWith.length = 13 from rfl]
              omega
            · exact quotable_append (by decide) (ident_quotable (h.each m t h2).good)
        · exact (hs.plain ht).2.2
      · intro l hl; rw [z5] at hl; cases hl
      · intro l hl; rw [z6] at hl; cases hl
      · intro t ht; rw [z7] at ht; cases ht
      · rw [z2]; decide

theorem SymsOk.step {g : Gx} {syms : List Sym} {n : Nat} {s s' : Sym} (h : SymsOk syms g.nDom) (hn : syms[n]? = some s)
    (hc : 0 ≤ g.dataCount ∧ g.dataCount ≤ intMax) (hs : SymStep .all g syms n s s') : SymsOk (syms.set n s') g.nDom := by
  have hk := hs.keep
  have hks := SymsKeep.set hn hk
  have hlen : syms.length ≤ (syms.set n s').length := by simp
  refine ⟨by rw [SymsKeep.names_set hn hk]; exact h.distinct, ?_⟩
  intro m t ht
  by_cases hmn : n = m
  · subst hmn
    rw [List.getElem?_set_self (List.getElem?_eq_some_iff.mp hn).1] at ht
    cases ht
    have h0 := (h.each n s hn).mono hks hlen (Nat.le_refl _)
    cases hs with
    | pos _ _ => exact ⟨h0.good, h0.typ, h0.dim, h0.ui, h0.expl, h0.ali, h0.dsy, h0.dst, h0.com, h0.cnt⟩
    | note b bm _ _ => exact ⟨h0.good, h0.typ, h0.dim, h0.ui, h0.expl, h0.ali, h0.dsy, h0.dst, h0.com, h0.cnt⟩
    | done _ _ => exact ⟨h0.good, h0.typ, h0.dim, h0.ui, h0.expl, h0.ali, h0.dsy, h0.dst, h0.com, hc⟩
    | dom l _ _ _ hl hr =>
      refine ⟨h0.good, h0.typ, h0.dim, h0.ui, h0.expl, h0.ali, ?_, h0.dst, h0.com, h0.cnt⟩
      intro l' hl'
      cases hl'
      exact ⟨hl, fun d hd => by have := hr d hd; rw [List.length_set]; exact this⟩
    | relax l hl hr =>
      refine ⟨h0.good, h0.typ, h0.dim, h0.ui, h0.expl, h0.ali, h0.dsy, ?_, h0.com, h0.cnt⟩
      intro l' hl'
      cases hl'
      exact ⟨hl, hr⟩
    | comment c hz =>
      refine ⟨h0.good, h0.typ, h0.dim, h0.ui, h0.expl, h0.ali, h0.dsy, h0.dst, ?_, h0.cnt⟩
      intro t ht
      rcases List.mem_append.mp ht with ht | ht
      · exact h0.com t ht
      · exact hz t (List.mem_singleton.mp ht).symm
  · rw [List.getElem?_set_ne hmn] at ht
    exact (h.each m t ht).mono hks hlen (Nat.le_refl _)

/-- the table of an object, if it has one; and the counter of the records being written -/
structure TabOk (g : Gx) : Prop where
  syms : ∀ syms, g.names = some syms → SymsOk syms g.nDom
  cnt : 0 ≤ g.dataCount ∧ g.dataCount ≤ intMax

theorem TabOk.same {a b : Gx} (h : TabOk a) (hn : b.names = a.names) (hd : b.domStrs = a.domStrs)
    (hc : b.dataCount = a.dataCount) : TabOk b :=
  ⟨fun s hs => by
    have : b.nDom = a.nDom := by unfold Gx.nDom; rw [hd]
    rw [this]; exact h.syms s (hn ▸ hs), by rw [hc]; exact h.cnt⟩

theorem TabOk.prim : ∀ a b, Prim .all a b → TabOk a → TabOk b := by
  intro a b h hg
  cases h with
  | ctrl h _ _ => exact hg.same (congrArg Core.names h) (congrArg Core.domStrs h) (congrArg Core.dataCount h)
  | count c h =>
    refine ⟨hg.syms, ?_⟩
    show 0 ≤ c ∧ c ≤ intMax
    have := hg.cnt
    rcases h with rfl | ⟨rfl, h⟩
    · decide
    · omega
  | addSym syms acros s c m h ha hs hc _ =>
    refine ⟨fun s' hs' => ?_, hg.cnt⟩
    cases hs'
    exact (hg.syms syms h).add hs
  | modSym syms n s s' h hn hs =>
    refine ⟨fun l hl => ?_, hg.cnt⟩
    cases hl
    exact (hg.syms syms h).step hn hg.cnt hs
  | domStr l s h hn _ =>
    refine ⟨fun x hx => (hg.syms x hx).more ?_, hg.cnt⟩
    unfold Gx.nDom
    rw [h]
    simp
  | _ => exact hg.same rfl rfl rfl

theorem TabOk.openWrite (e : Env) (g : Gx) (n : Bool) (i : Int) (p : Str) (c : Int) (hg : TabOk g) :
    (openWriteEx e g n i p c).All fun x => TabOk x.1 := by
  unfold openWriteEx
  split
  · exact hg
  split
  · exact hg.same rfl rfl rfl
  split
  · exact hg.same rfl rfl rfl
  refine Res.All.bind' ?_
  intro h _
  refine ⟨fun s hs => ?_, hg.cnt⟩
  cases hs
  exact SymsOk.nil _

theorem TabOk.new : TabOk Gx.new := ⟨fun _ hs => (by cases hs), by decide⟩

theorem TabOk.freeAll (g : Gx) (h : TabOk g) : TabOk g.freeAll := ⟨fun _ hs => (by cases hs), h.cnt⟩

theorem TabOk.run (e : Env) (z : Cz) (cs : List Call) (g : Gx) (hc : ∀ c ∈ cs, c.WF) (ha : Aft g) (h : TabOk g)
    (ho : OpensOk TabOk e z g cs) : (run e z g cs).All fun g' => Aft g' ∧ TabOk g' :=
  run_inv TabOk.prim (fun _ _ _ h => h.same rfl rfl rfl) TabOk.freeAll (fun _ _ _ _ _ h => h.same rfl rfl rfl)
    (fun _ h => h.same rfl rfl rfl) TabOk.openWrite e z cs g hc ha h ho

/-! ### symbols stay -/

/-- the symbols `a` are still there -/
def Holds (a : List Sym) (g : Gx) : Prop := ∀ b, g.names = some b → SymsKeep a b

theorem Holds.prim (x : List Sym) : ∀ a b, Prim .all a b → Holds x a → Holds x b := by
  intro a b h hg
  cases h with
  | ctrl h _ _ => intro l hl; exact hg l (by rw [← show b.names = a.names from congrArg Core.names h]; exact hl)
  | addSym syms acros s c m h ha hs hc _ =>
    intro l hl
    cases hl
    exact (hg syms h).trans (SymsKeep.append _ _)
  | modSym syms n s s' h hn hs =>
    intro l hl
    cases hl
    exact (hg syms h).trans (SymsKeep.set hn hs.keep)
  | _ => exact hg

/-- histories without opening a file -/
def NoOpen (cs : List Call) : Prop := ∀ c ∈ cs, c.WF ∧ c.opensRead = false ∧ c.opensWrite = false

/-- invariants over histories without opening -/
theorem run_noOpen_m {P : Gx → Prop} (hp : ∀ a b, Prim .all a b → P a → P b)
    (hf : ∀ (g : Gx) f lg, P g → P ({ g with file := f, log := lg } : Gx).freeAll)
    (hj : ∀ (g : Gx) u u', g.uel = some u → UelJump u u' → P g → P { g with uel := some u' })
    (ht : ∀ g : Gx, P g → P (getLastError g).1) (e : Env) (z : Cz) :
    ∀ (cs : List Call) (g : Gx), NoOpen cs → Aft g → P g → (run e z g cs).All P
  | [], _, _, _, h => h
  | c :: cs, g, hc, ha, h => by
    unfold run
    have h0 := hc c (by simp)
    refine Res.All.bind ((step_inv_m hp hf hj ht e z h0.1 h0.2.1 h0.2.2 ha h).and (step_aft e z h0.1 ha)) ?_
    rintro g1 ⟨h1, h2⟩
    exact run_noOpen_m hp hf hj ht e z cs g1 (fun c' h' => hc c' (by simp [h'])) h2 h1

theorem run_noOpen {P : Gx → Prop} (hp : ∀ a b, Prim .all a b → P a → P b)
    (hs : ∀ (g : Gx) f lg, P g → P { g with file := f, log := lg }) (hf : ∀ g : Gx, P g → P g.freeAll)
    (hj : ∀ (g : Gx) u u', g.uel = some u → UelJump u u' → P g → P { g with uel := some u' })
    (ht : ∀ g : Gx, P g → P (getLastError g).1) (e : Env) (z : Cz) :
    ∀ (cs : List Call) (g : Gx), NoOpen cs → Aft g → P g → (run e z g cs).All P :=
  run_noOpen_m hp (fun g f lg h => hf _ (hs g f lg h)) hj ht e z

theorem Holds.run (e : Env) (z : Cz) (cs : List Call) (g : Gx) (hc : NoOpen cs) (ha : Aft g) (syms : List Sym)
    (h : g.names = some syms) : (run e z g cs).All (Holds syms) :=
  run_noOpen (Holds.prim syms) (fun _ _ _ h => h) (fun _ _ l hl => by cases hl) (fun _ _ _ _ _ h => h) (fun _ h => h)
    e z cs g hc ha (fun b hb => by rw [h] at hb; cases hb; exact SymsKeep.refl _)

end Gdx
