import Verif.Model.Api
import Verif.Proofs.Names
import Verif.Props.Strings

/-!
How the object changes. Every call other than opening, closing, renaming, gdxUELRegisterMap and
gdxGetLastError is a chain of the elementary
steps `Prim`; invariants then have to be checked for these steps only.
-/

namespace Gdx

/-! ### results that satisfy a condition -/

def Res.All {α : Type} (P : α → Prop) : Res α → Prop
  | .ok a => P a
  | .ub => True

namespace Res
variable {α β : Type} {P Q : α → Prop}

@[simp] theorem All_ok (a : α) : (Res.ok a).All P ↔ P a := Iff.rfl
@[simp] theorem All_pure (a : α) : (pure a : Res α).All P ↔ P a := Iff.rfl
@[simp] theorem All_ub : (Res.ub : Res α).All P ↔ True := Iff.rfl

theorem All.bind {x : Res α} {f : α → Res β} {P : β → Prop} (hx : x.All Q) (hf : ∀ a, Q a → (f a).All P) :
    (x >>= f).All P := by
  cases x with
  | ok a => exact hf a hx
  | ub => trivial

theorem All.bind' {x : Res α} {f : α → Res β} {P : β → Prop} (hf : ∀ a, x = .ok a → (f a).All P) :
    (x >>= f).All P := by
  cases x with
  | ok a => exact hf a rfl
  | ub => trivial

theorem All.mono {x : Res α} (hx : x.All P) (h : ∀ a, P a → Q a) : x.All Q := by
  cases x with
  | ok a => exact h a hx
  | ub => trivial

theorem All.and {x : Res α} (h1 : x.All P) (h2 : x.All Q) : x.All fun a => P a ∧ Q a := by
  cases x with
  | ok a => exact ⟨h1, h2⟩
  | ub => trivial

theorem All.of_ok {x : Res α} {a : α} (h : x.All P) (hx : x = .ok a) : P a := by subst hx; exact h

theorem All_of {x : Res α} (h : ∀ a, x = .ok a → P a) : x.All P := by
  cases x with
  | ok a => exact h a rfl
  | ub => trivial

theorem All_iff {x : Res α} : x.All P ↔ ∀ a, x = .ok a → P a :=
  ⟨fun h a hx => h.of_ok hx, All_of⟩

theorem bind_eq_ok {x : Res α} {f : α → Res β} {b : β} : (x >>= f) = .ok b ↔ ∃ a, x = .ok a ∧ f a = .ok b := by
  cases x with
  | ok a => simp
  | ub => simp

end Res

/-! ### what is kept -/

/-- a C string: no byte 0 -/
def ZFree (s : Str) : Prop := ∀ c ∈ s, c ≠ 0

/-- a symbol is being written -/
def Writing (m : Mode) : Prop := m ∈ [Mode.wDomRaw, .wDomMap, .wDomStr, .wRaw, .wMap, .wStr]

instance (m : Mode) : Decidable (Writing m) := by unfold Writing; infer_instance

/-- the lasting part of the object -/
structure Core where
  opened : Bool
  file : List UInt8
  log : List (Nat × List UInt8)
  stat : FStat
  comprLev : Int
  comprOut : Bool
  uncompr : Bool
  uel : Option Uel
  texts : Option (List (Str × Int))
  mapText : Option (List Int)
  names : Option (List Sym)
  domStrs : Option (List Str)
  errCnt : Int
  errTotal : Int
  lastErr : Int
  raised : List Int
  taken : Nat
  acros : Option (List Acr)
  majorPos : Nat
  nextWrite : Int
  verRead : Int
  fsId : Str
  producer : Str
  producer2 : Str
  uelOrig : Int
  dataCount : Int
  modeAft : Mode
  sv : SVTab
  nextAuto : Int

def Gx.core (g : Gx) : Core :=
  ⟨g.opened, g.file, g.log, g.stat, g.comprLev, g.comprOut, g.uncompr, g.uel, g.texts, g.mapText, g.names, g.domStrs,
   g.errCnt, g.errTotal, g.lastErr, g.raised, g.taken, g.acros, g.majorPos, g.nextWrite, g.verRead, g.fsId, g.producer,
   g.producer2, g.uelOrig, g.dataCount, g.modeAft, g.sv, g.nextAuto⟩

/-- no symbol becomes the one that is being written -/
def CurOk (g g' : Gx) : Prop := ∀ m, Writing g'.mode → g'.cur = .sym m → Writing g.mode ∧ g.cur = .sym m

/-- kinds of steps that only some of the calls do -/
inductive Tag where
  | dom | relax | comment | text | node | rename | sv | auto | acro | elem | stat | filt

/-- the kinds that are allowed -/
abbrev Lic := Tag → Prop

def Lic.all : Lic := fun _ => True

/-- steps of the element table -/
inductive UelStep (k : Lic) : Uel → Uel → Prop where
  | add (u : Uel) (s : Str) (hg : goodUEL s = true) (ht : trimRight s = s) (hn : lookup false s u.strs = none) (hk : u.stat = none ∨ k .elem) :
      UelStep k u { u with ents := u.ents ++ [(s, -1)] }
  | stat (u : Uel) (x : Option MapStat) (h : x = none ∨ x = some u.calcStat ∧ k .stat) : UelStep k u { u with stat := x }
  | newUsr (u : Uel) (en : Nat) (s : Str) (d : Int) (m : IntMap) (h : at1 u.ents en = .ok (s, d)) (hd : d < 0)
      (hm : u.usr.set (u.usr.highest + 1) en = .ok m) :
      UelStep k u { u.setMap en (u.usr.highest + 1) with usr := m, stat := none }
  | confirm (u : Uel) (hi : Int) (s : Str) (d : Int) (h1 : 1 ≤ hi) (h : at1 u.ents (u.usr.get hi) = .ok (s, d))
      (hd : d = -1 ∨ d = hi) : UelStep k u (u.setMap (u.usr.get hi).toNat hi)

/-- steps of a symbol `n` that depend on it being written -/
inductive SymStep (k : Lic) (g : Gx) (syms : List Sym) (n : Nat) : Sym → Sym → Prop where
  | pos (s : Sym) (hw : Writing g.mode) (hc : g.cur = .sym (n + 1)) : SymStep k g syms n s { s with pos := g.nextWrite }
  | note (s : Sym) (b : Bool) (bm : Option BitArr) (hw : Writing g.mode) (hc : g.cur = .sym (n + 1)) (hb : bm.isSome = s.bitmap.isSome) :
      SymStep k g syms n s { s with setText := b, bitmap := bm }
  | done (s : Sym) (hw : Writing g.mode) (hc : g.cur = .sym (n + 1)) :
      SymStep k g syms n s { s with dataCount := g.dataCount, errors := g.errCnt }
  | dom (s : Sym) (l : List Int) (hw : Writing g.mode) (hc : g.cur = .sym (n + 1)) (hs : s.domSyms = none)
      (hl : l.length = s.dim.toNat) (hr : ∀ d ∈ l, 0 ≤ d ∧ d ≤ syms.length) (hk : k .dom) : SymStep k g syms n s { s with domSyms := some l }
  | relax (s : Sym) (l : List Int) (hl : l.length = s.dim.toNat)
      (hr : ∀ d ∈ l, 0 ≤ d ∧ d ≤ ((g.domStrs.map List.length).getD 0 : Nat)) (hk : k .relax) :
      SymStep k g syms n s { s with domStrs := some l }
  | comment (s : Sym) (c : Option Str) (hz : ∀ t, c = some t → ZFree t ∧ t.length ≤ 255) (hk : k .comment) :
      SymStep k g syms n s { s with comments := s.comments ++ [c] }

/-- steps of the acronym table -/
inductive AcroStep (k : Lic) : List Acr → List Acr → Prop where
  | add (l : List Acr) (a : Acr) (hm : ∀ b ∈ l, b.map ≠ a.map) (hn : a.name = [] ∨ acrFindName l a.name = none)
      (hz : ZFree a.name ∧ ZFree a.text) (hi : I32 a.map) (hr : a.readMap ≤ 0 ∨ k .acro ∧ a.readMap = a.map) : AcroStep k l (l ++ [a])
  | readMap (l : List Acr) (n : Nat) (a : Acr) (v : Int) (b : Bool) (h : l[n]? = some a) (hk : k .rename) :
      AcroStep k l (l.set n { a with readMap := v, auto := b })
  | rename (l : List Acr) (n : Nat) (a : Acr) (name text : Str) (b : Bool) (h : l[n]? = some a)
      (hn : acrFindName l name = none) (hg : isGoodIdent name = true) (hz : ZFree text) (hk : k .rename) :
      AcroStep k l (l.set n { a with name := name, text := text, auto := b })

/-- an acronym met while reading gets the next automatic number -/
inductive Remapped (v : Int) : List Acr → List Acr → Prop where
  | new (l : List Acr) (org : Int) (hm : ∀ b ∈ l, b.map ≠ org) (hi : I32 org) :
      Remapped v l (l ++ [{ Acr.mk' [] [] org with readMap := v, auto := true }])
  | old (l : List Acr) (n : Nat) (a : Acr) (h : l[n]? = some a) (h0 : a.readMap ≤ 0) : Remapped v l (l.set n { a with readMap := v, auto := true })

/-- a new symbol -/
structure NewSym (syms : List Sym) (acros : List Acr) (s : Sym) : Prop where
  fresh : lookup false s.name (syms.map Sym.name) = none
  notAcro : acrFindName acros s.name = none
  good : isGoodIdent s.name = true
  typ : s.typ ≤ 4
  plain : s.typ ≠ dtAlias → (0 ≤ s.dim ∧ s.dim ≤ 20) ∧ I32 s.userInfo ∧ ZFree s.expl ∧ s.expl.length ≤ 255 ∧ Props.Quotable s.expl
  zero : s.pos = 0 ∧ s.dataCount = 0 ∧ s.errors = 0 ∧ s.setText = false ∧ s.domSyms = none ∧ s.domStrs = none ∧
    s.comments = []
  ali : s.typ = dtAlias → (s.userInfo = 0 ∧ s.dim = 1 ∧ s.expl = aliasedWith ++ star) ∨
    ∃ (n : Nat) (t : Sym), s.userInfo = (n : Int) + 1 ∧ syms[n]? = some t ∧ (t.typ = dtSet ∨ t.typ = dtAlias) ∧ s.dim = t.dim ∧
      s.expl = aliasedWith ++ t.name ∧ t.name.length + 13 ≤ 255

inductive Prim (k : Lic) : Gx → Gx → Prop where
  | ctrl {g g' : Gx} (h : g'.core = g.core) (hc : CurOk g g') (hf : (g'.filters = g.filters ∧ (g'.mode = .rFilter → g.mode = .rFilter)) ∨ k .filt) : Prim k g g'
  | raise (g : Gx) (n : Int) (h : n ≠ 0) : Prim k g (g.raise n)
  | aft (g : Gx) (m : Mode) (h : ¬ Writing m ∧ m ≠ .rFilter) : Prim k g { g with modeAft := m }
  | cnt0 (g : Gx) : Prim k g { g with errCnt := 0 }
  | count (g : Gx) (c : Int) (h : c = 0 ∨ (c = g.dataCount + 1 ∧ c ≤ intMax)) : Prim k g { g with dataCount := c }
  | uel (g : Gx) (u u' : Uel) (h : g.uel = some u) (hs : UelStep k u u') : Prim k g { g with uel := some u' }
  | text (g : Gx) (l : List (Str × Int)) (s : Str) (h : g.texts = some l) (hn : lookup true s (l.map Prod.fst) = none)
      (hz : ZFree s ∧ s.length ≤ 255 ∧ Props.Quotable s) (hk : k .text) : Prim k g { g with texts := some (l ++ [(s, 0)]) }
  | node (g : Gx) (l : List (Str × Int)) (n : Nat) (x : Int) (h : g.texts = some l) (h0 : l[n]?.map Prod.snd = some 0) (hk : k .node) :
      Prim k g { g with texts := some (l.modify n fun e => (e.1, x)) }
  | addSym (g : Gx) (syms : List Sym) (acros : List Acr) (s : Sym) (c : Cur) (m : Mode) (h : g.names = some syms)
      (ha : g.acros = some acros) (hs : NewSym syms acros s) (hc : (c = g.cur ∧ m = g.mode) ∨ c = .sym (syms.length + 1)) (hm : m = g.mode ∨ m ≠ .rFilter) :
      Prim k g { g with names := some (syms ++ [s]), cur := c, mode := m }
  | modSym (g : Gx) (syms : List Sym) (n : Nat) (s s' : Sym) (h : g.names = some syms) (hn : syms[n]? = some s)
      (hs : SymStep k g syms n s s') : Prim k g { g with names := some (syms.set n s') }
  | domStr (g : Gx) (l : List Str) (s : Str) (h : g.domStrs = some l) (hn : lookup false s l = none)
      (hg : isGoodIdent s = true) (hk : k .relax) : Prim k g { g with domStrs := some (l ++ [s]) }
  | acro (g : Gx) (l l' : List Acr) (h : g.acros = some l) (hs : AcroStep k l l') : Prim k g { g with acros := some l' }
  | remap (g : Gx) (l l' : List Acr) (h : g.acros = some l) (h0 : 0 < g.nextAuto) (h1 : g.nextAuto < intMax) (hs : Remapped g.nextAuto l l') :
      Prim k g { g with acros := some l', nextAuto := g.nextAuto + 1 }
  | auto (g : Gx) (v : Int) (hk : k .auto) : Prim k g { g with nextAuto := v }
  | write (g : Gx) (bs : List UInt8) (h : 0 ≤ g.nextWrite) :
      Prim k g { g.put g.nextWrite.toNat bs with nextWrite := g.nextWrite + bs.length }
  | sv (g : Gx) (t : SVTab) (h : setSpecialValues t = some t) (hk : k .sv) : Prim k g { g with sv := t }

/-- a chain of steps of the element table -/
inductive UelEvo (k : Lic) : Uel → Uel → Prop where
  | refl (u : Uel) : UelEvo k u u
  | snoc {u u' u'' : Uel} : UelEvo k u u' → UelStep k u' u'' → UelEvo k u u''

theorem UelEvo.trans {k : Lic} {a b c : Uel} (h1 : UelEvo k a b) (h2 : UelEvo k b c) : UelEvo k a c := by
  induction h2 with
  | refl => exact h1
  | snoc _ hp ih => exact ih.snoc hp

theorem UelEvo.of_step {k : Lic} {a b : Uel} (h : UelStep k a b) : UelEvo k a b := (UelEvo.refl a).snoc h

theorem UelStep.mono {k k' : Lic} (hk : ∀ t, k t → k' t) {a b : Uel} (h : UelStep k a b) : UelStep k' a b := by
  cases h with
  | add s hg ht hn h => exact .add a s hg ht hn (h.imp_right (hk _))
  | stat x h => exact .stat a x (h.imp_right fun h => ⟨h.1, hk _ h.2⟩)
  | newUsr en s d m h hd hm => exact .newUsr a en s d m h hd hm
  | confirm hi s d h1 h hd => exact .confirm a hi s d h1 h hd

/-- a chain of steps -/
inductive Evo (k : Lic) : Gx → Gx → Prop where
  | refl (g : Gx) : Evo k g g
  | snoc {g g' g'' : Gx} : Evo k g g' → Prim k g' g'' → Evo k g g''

theorem SymStep.mono {k k' : Lic} (hk : ∀ t, k t → k' t) {g : Gx} {syms : List Sym} {n : Nat} {s s' : Sym} (h : SymStep k g syms n s s') :
    SymStep k' g syms n s s' := by
  cases h with
  | pos h1 h2 => exact .pos s h1 h2
  | note b bm h1 h2 h3 => exact .note s b bm h1 h2 h3
  | done h1 h2 => exact .done s h1 h2
  | dom l h1 h2 h3 h4 h5 h6 => exact .dom s l h1 h2 h3 h4 h5 (hk _ h6)
  | relax l h1 h2 h3 => exact .relax s l h1 h2 (hk _ h3)
  | comment c h1 h2 => exact .comment s c h1 (hk _ h2)

theorem AcroStep.mono {k k' : Lic} (hk : ∀ t, k t → k' t) {l l' : List Acr} (h : AcroStep k l l') : AcroStep k' l l' := by
  cases h with
  | add a h1 h2 h3 h4 h5 => exact .add l a h1 h2 h3 h4 (h5.imp_right fun h => ⟨hk _ h.1, h.2⟩)
  | readMap n a v b h h1 => exact .readMap l n a v b h (hk _ h1)
  | rename n a name text b h1 h2 h3 h4 h5 => exact .rename l n a name text b h1 h2 h3 h4 (hk _ h5)

theorem Prim.mono {k k' : Lic} (hk : ∀ t, k t → k' t) {a b : Gx} (h : Prim k a b) : Prim k' a b := by
  cases h with
  | ctrl h hc hf => exact .ctrl h hc (hf.imp_right (hk _))
  | raise n h => exact .raise a n h
  | aft m h => exact .aft a m h
  | cnt0 => exact .cnt0 a
  | count c h => exact .count a c h
  | uel u u' h hs => exact .uel a u u' h (hs.mono hk)
  | text l s h hn hz h1 => exact .text a l s h hn hz (hk _ h1)
  | node l n x h h0 h1 => exact .node a l n x h h0 (hk _ h1)
  | addSym syms acros s c m h ha hs hc hm => exact .addSym a syms acros s c m h ha hs hc hm
  | modSym syms n s s' h hn hs => exact .modSym a syms n s s' h hn (hs.mono hk)
  | domStr l s h hn hg h1 => exact .domStr a l s h hn hg (hk _ h1)
  | acro l l' h hs => exact .acro a l l' h (hs.mono hk)
  | remap l l' h h0 h1 hs => exact .remap a l l' h h0 h1 hs
  | auto v h1 => exact .auto a v (hk _ h1)
  | write bs h => exact .write a bs h
  | sv t h h1 => exact .sv a t h (hk _ h1)

theorem Evo.mono {k k' : Lic} (hk : ∀ t, k t → k' t) {a b : Gx} (h : Evo k a b) : Evo k' a b := by
  induction h with
  | refl => exact .refl _
  | snoc _ hp ih => exact ih.snoc (hp.mono hk)

theorem Evo.toAll {k : Lic} {a b : Gx} (h : Evo k a b) : Evo .all a b := h.mono fun _ _ => trivial

namespace Evo

variable {k : Lic}

theorem trans {a b c : Gx} (h1 : Evo k a b) (h2 : Evo k b c) : Evo k a c := by
  induction h2 with
  | refl => exact h1
  | snoc _ hp ih => exact ih.snoc hp

theorem of_prim {a b : Gx} (h : Prim k a b) : Evo k a b := (Evo.refl a).snoc h

theorem ctrl {g g' : Gx} (h : g'.core = g.core) (hc : CurOk g g') (hf : (g'.filters = g.filters ∧ (g'.mode = .rFilter → g.mode = .rFilter)) ∨ k .filt := by first | exact Or.inl ⟨rfl, id⟩ | exact Or.inl ⟨rfl, fun h => nomatch h⟩) : Evo k g g' := of_prim (.ctrl h hc hf)

theorem keep {g g' : Gx} (h : g'.core = g.core) (hm : g'.mode = g.mode) (hc : g'.cur = g.cur) (hf : g'.filters = g.filters ∨ k .filt := by exact Or.inl rfl) : Evo k g g' :=
  ctrl h (fun _ hw hs => ⟨hm ▸ hw, hc ▸ hs⟩) (hf.imp_left fun h => ⟨h, fun h' => hm ▸ h'⟩)

theorem idle {g g' : Gx} (h : g'.core = g.core) (hm : ¬ Writing g'.mode) (hf : (g'.filters = g.filters ∧ (g'.mode = .rFilter → g.mode = .rFilter)) ∨ k .filt := by first | exact Or.inl ⟨rfl, id⟩ | exact Or.inl ⟨rfl, fun h => nomatch h⟩) : Evo k g g' :=
  ctrl h (fun _ hw _ => absurd hw hm) hf

theorem drop {g g' : Gx} (h : g'.core = g.core) (hc : g'.cur = .none) (hf : (g'.filters = g.filters ∧ (g'.mode = .rFilter → g.mode = .rFilter)) ∨ k .filt := by first | exact Or.inl ⟨rfl, id⟩ | exact Or.inl ⟨rfl, fun h => nomatch h⟩) : Evo k g g' :=
  ctrl h (fun _ _ hs => by rw [hc] at hs; cases hs) hf

theorem raise (g : Gx) {n : Int} (h : n ≠ 0) : Evo k g (g.raise n) := of_prim (.raise g n h)

theorem chk (g : Gx) (ms : List Mode) : Evo k g (g.chk ms).1 := by
  unfold Gx.chk
  split
  · exact refl g
  · exact raise g (by decide)

theorem uelE {g : Gx} {u u' : Uel} (h : g.uel = some u) (hu : UelEvo k u u') : Evo k g { g with uel := some u' } := by
  induction hu with
  | refl =>
    have : { g with uel := some u } = g := by rw [← h]
    rw [this]
    exact refl g
  | snoc _ hs ih =>
    rename_i v w _
    have := Prim.uel (k := k) { g with uel := some v } v w rfl hs
    exact ih.snoc this

/-- induction over the steps for a relation that is reflexive and transitive -/
theorem rel {R : Gx → Gx → Prop} (hr : ∀ g, R g g) (ht : ∀ a b c, R a b → R b c → R a c)
    (hp : ∀ a b, Prim k a b → R a b) {a b : Gx} (h : Evo k a b) : R a b := by
  induction h with
  | refl => exact hr _
  | snoc _ hs ih => exact ht _ _ _ ih (hp _ _ hs)

/-- invariants -/
theorem inv {P : Gx → Prop} (hp : ∀ a b, Prim k a b → P a → P b) {a b : Gx} (h : Evo k a b) : P a → P b := by
  induction h with
  | refl => exact id
  | snoc _ hs ih => exact fun hP => hp _ _ hs (ih hP)

end Evo

/-- result states of a call -/
def EvoR (k : Lic) {α : Type} (g : Gx) (r : Res (Gx × α)) : Prop := r.All fun x => Evo k g x.1

theorem chk_cases (g : Gx) (ms : List Mode) :
    (g.mode ∈ ms ∧ g.chk ms = (g, true)) ∨ (g.mode ∉ ms ∧ g.chk ms = (g.raise Err.badMode, false)) := by
  unfold Gx.chk
  by_cases h : g.mode ∈ ms
  · exact Or.inl ⟨h, by rw [if_pos h]⟩
  · exact Or.inr ⟨h, by rw [if_neg h]⟩

end Gdx
