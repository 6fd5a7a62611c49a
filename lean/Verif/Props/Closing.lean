import Verif.Props.Reopen
import Verif.Props.RawSession
import Verif.Proofs.Listing

/-!
C87: gdxClose is defined. Which texts make it undefined.
-/

namespace Gdx.Props
open Gdx Gdx.Spec

theorem wrString_iff (s : Str) : (∃ b, wrString s = .ok b) ↔ s.length ≤ 255 := by
  unfold wrString
  split
  · rename_i h; exact ⟨fun _ => h, fun _ => ⟨_, rfl⟩⟩
  · rename_i h; exact ⟨fun ⟨_, hb⟩ => (by cases hb), fun h' => absurd h' h⟩

theorem bind_defined {α β : Type} (x : Res α) (f : α → Res β) : (∃ b, x >>= f = .ok b) ↔ ∃ a, x = .ok a ∧ ∃ b, f a = .ok b := by
  constructor
  · rintro ⟨b, h⟩
    obtain ⟨a, h1, h2⟩ := Res.bind_eq_ok.mp h
    exact ⟨a, h1, b, h2⟩
  · rintro ⟨a, h1, b, h2⟩
    exact ⟨b, by rw [h1, Res.bind_ok, h2]⟩

/-- the last step is always defined -/
theorem bind_pure_defined {α β : Type} (x : Res α) (f : α → β) : (∃ b, (x >>= fun a => (pure (f a) : Res β)) = .ok b) ↔ ∃ a, x = .ok a := by
  rw [bind_defined]
  exact ⟨fun ⟨a, h, _⟩ => ⟨a, h⟩, fun ⟨a, h⟩ => ⟨a, h, _, rfl⟩⟩

theorem saveAll_iff {α : Type} (f : α → Res (List UInt8)) : ∀ l : List α, (∃ b, saveAll f l = .ok b) ↔ ∀ a ∈ l, ∃ b, f a = .ok b := by
  intro l
  induction l with
  | nil => exact ⟨fun _ a ha => (by cases ha), fun _ => ⟨_, rfl⟩⟩
  | cons a l ih =>
    rw [saveAll, bind_defined]
    constructor
    · rintro ⟨x, h1, h2⟩
      rw [bind_pure_defined, ih] at h2
      intro y hy
      rcases List.mem_cons.mp hy with rfl | hy
      · exact ⟨x, h1⟩
      · exact h2 y hy
    · intro h
      obtain ⟨x, h1⟩ := h a (by simp)
      refine ⟨x, h1, ?_⟩
      rw [bind_pure_defined, ih]
      exact fun y hy => h y (by simp [hy])

theorem int_len {n : Int} : (intToStr n).length ≤ 21 := by
  unfold intToStr
  split
  · simp only [List.length_cons]
    have := Listing.digits_le 20 n.natAbs
    omega
  · have := Listing.digits_le 20 n.natAbs
    omega

theorem wrSym_iff {syms : List Sym} {nd n : Nat} {s : Sym} (h : SymOk syms nd n s) : (∃ b, wrSym s = .ok b) ↔ none ∉ s.comments := by
  have hn := (wrString_iff s.name).mpr (by have := (ident_zfree h.good).2; omega)
  have he := (wrString_iff s.expl).mpr h.expl.2.1
  obtain ⟨x, hx⟩ := hn
  obtain ⟨y, hy⟩ := he
  unfold wrSym
  rw [hx, Res.bind_ok, hy, Res.bind_ok, bind_pure_defined]
  unfold wrComments
  rw [bind_pure_defined, saveAll_iff]
  constructor
  · intro h' hc
    obtain ⟨b, hb⟩ := h' none hc
    cases hb
  · intro h' c hc
    cases c with
    | none => exact absurd hc h'
    | some t =>
      obtain ⟨b, hb⟩ := (wrString_iff t).mpr (h.com t hc).2
      exact ⟨b, hb⟩

theorem acrSave_iff (a : Acr) : (∃ b, a.save = .ok b) ↔ a.name.length ≤ 255 ∧ a.text.length ≤ 255 := by
  have hl : a.saveName.length ≤ 255 ↔ a.name.length ≤ 255 := by
    unfold Acr.saveName
    split
    · rename_i h
      rw [h, List.length_append]
      have := int_len (n := a.map)
      have : unknownACRO.length = 11 := rfl
      simp only [List.length_nil]
      omega
    · rfl
  unfold Acr.save
  rw [bind_defined]
  constructor
  · rintro ⟨x, h1, h2⟩
    rw [bind_pure_defined] at h2
    exact ⟨hl.mp ((wrString_iff _).mp ⟨x, h1⟩), (wrString_iff _).mp h2⟩
  · rintro ⟨h1, h2⟩
    obtain ⟨x, hx⟩ := (wrString_iff a.saveName).mpr (hl.mpr h1)
    refine ⟨x, hx, ?_⟩
    rw [bind_pure_defined]
    exact (wrString_iff _).mpr h2

/-- every comment has at most 255 bytes: a longer one is stored without its end, and symbolGetComment reads beyond it -/
def CommentsEnd (g : Gx) : Prop := ∀ syms, g.names = some syms → ∀ s ∈ syms, none ∉ s.comments

/-- names and texts of the acronyms have at most 255 bytes -/
def AcronymsShort (g : Gx) : Prop := ∀ l, g.acros = some l → ∀ a ∈ l, a.name.length ≤ 255 ∧ a.text.length ≤ 255

/-- After every history of calls: gdxClose of a file that is being written, with no symbol open, is defined exactly if all comments and acronyms
    are short enough. -/
theorem C87_close {e : Env} {z : Cz} (hz : z.Good) {g : Gx} (h : After e z g) (hm : g.mode = .wInit) :
    (∃ g' r, gdxClose z g = .ok (g', r)) ↔ CommentsEnd g ∧ AcronymsShort g := by
  have f := h.fine hz
  obtain ⟨_, hnext, _, ht⟩ := f.inv.head (f.stat hm)
  obtain ⟨syms, hsy⟩ := Option.isSome_iff_exists.mp ht.names
  obtain ⟨tx, htx⟩ := Option.isSome_iff_exists.mp ht.texts
  obtain ⟨u, hu⟩ := Option.isSome_iff_exists.mp ht.uel
  obtain ⟨l, hl⟩ := Option.isSome_iff_exists.mp ht.acros
  obtain ⟨ds, hds⟩ := Option.isSome_iff_exists.mp ht.doms
  have hA : (∃ b, wrSymbs syms = .ok b) ↔ CommentsEnd g := by
    unfold wrSymbs
    rw [bind_pure_defined, saveAll_iff]
    have hok := f.inv.tab.syms syms hsy
    constructor
    · intro h' syms' hs' s hs
      rw [hsy] at hs'
      cases hs'
      obtain ⟨n, hn⟩ := List.mem_iff_getElem?.mp hs
      exact (wrSym_iff (hok.each n s hn)).mp (h' s hs)
    · intro h' s hs
      obtain ⟨n, hn⟩ := List.mem_iff_getElem?.mp hs
      exact (wrSym_iff (hok.each n s hn)).mpr (h' syms hsy s hs)
  have hT : ∃ b, wrTexts g.texts = .ok b := by
    unfold wrTexts
    rw [bind_pure_defined]
    unfold wrStrs
    rw [bind_pure_defined, saveAll_iff]
    intro s hs
    rw [htx] at hs
    obtain ⟨p, hp, rfl⟩ := List.mem_map.mp hs
    exact (wrString_iff _).mpr ((f.inv.txt tx htx).zfree p hp).2.1
  have hU : ∃ b, wrUels u = .ok b := by
    unfold wrUels
    rw [bind_pure_defined]
    unfold wrStrs
    rw [bind_pure_defined, saveAll_iff]
    intro s hs
    have := ((f.inv.els u hu).good s hs).1
    unfold goodUEL at this
    rw [Bool.and_eq_true, decide_eq_true_eq] at this
    exact (wrString_iff _).mpr (by omega)
  have hC : (∃ b, wrAcros l = .ok b) ↔ AcronymsShort g := by
    unfold wrAcros
    rw [bind_pure_defined]
    unfold acrSave
    rw [bind_pure_defined, saveAll_iff]
    constructor
    · intro h' l' hl' a ha
      rw [hl] at hl'
      cases hl'
      exact (acrSave_iff a).mp (h' a ha)
    · intro h' a ha
      exact (acrSave_iff a).mpr (h' l hl a ha)
  have hD : ∃ b, wrDoms ds syms = .ok b := by
    unfold wrDoms
    rw [bind_pure_defined]
    unfold wrStrs
    rw [bind_pure_defined, saveAll_iff]
    intro s hs
    exact (wrString_iff _).mpr (by have := (ident_zfree (f.inv.dom ds hds s hs)).2; omega)
  have key : (∃ t, wrTables z g = .ok t) ↔ CommentsEnd g ∧ AcronymsShort g := by
    rw [← hA, ← hC]
    obtain ⟨b, hb⟩ := hT
    obtain ⟨c, hc⟩ := hU
    obtain ⟨x, hx⟩ := hD
    unfold wrTables
    rw [hsy]
    simp only [need, Res.bind_ok]
    rw [bind_defined]
    constructor
    · rintro ⟨a, ha, h'⟩
      refine ⟨⟨a, ha⟩, ?_⟩
      rw [hb, Res.bind_ok, hu] at h'
      simp only [Res.bind_ok] at h'
      rw [hc, Res.bind_ok, hl] at h'
      simp only [Res.bind_ok] at h'
      rw [bind_defined] at h'
      obtain ⟨d, hd, _⟩ := h'
      exact ⟨d, hd⟩
    · rintro ⟨⟨a, ha⟩, d, hd⟩
      refine ⟨a, ha, ?_⟩
      rw [hb, Res.bind_ok, hu]
      simp only [Res.bind_ok]
      rw [hc, Res.bind_ok, hl]
      simp only [Res.bind_ok]
      rw [hd, Res.bind_ok, hds]
      simp only [Res.bind_ok]
      rw [hx]
      exact ⟨_, rfl⟩
  rw [← key]
  have e1 : finishWrite z g = .ok g := by unfold finishWrite; rw [hm, if_neg (by decide)]
  have e2 : saveIf z g = saveFile z g := by unfold saveIf; rw [if_pos hm]
  have e3 : (∃ g' r, gdxClose z g = .ok (g', r)) ↔ ∃ x, gdxClose z g = .ok x := ⟨fun ⟨a, b, h⟩ => ⟨(a, b), h⟩, fun ⟨x, h⟩ => ⟨x.1, x.2, h⟩⟩
  rw [e3]
  unfold gdxClose
  rw [e1, Res.bind_ok, e2, bind_pure_defined]
  unfold saveFile
  rw [if_neg (by omega), bind_pure_defined]

/-- In the other states with no symbol being written gdxClose is always defined, and the file stays as it is. -/
theorem C87_other (z : Cz) {g : Gx} (h : ¬ (g.mode = .wInit ∨ g.mode = .wRaw ∨ g.mode = .wMap ∨ g.mode = .wStr)) :
    ∃ g', gdxClose z g = .ok (g', if g.opened then 0 else 1) ∧ g'.file = g.file ∧ g'.mode = .notOpen ∧ g'.opened = false := by
  refine ⟨g.freeAll, ?_, rfl, rfl, rfl⟩
  unfold gdxClose finishWrite saveIf
  rw [if_neg (by tauto), Res.bind_ok, if_neg (by tauto)]
  rfl

/-- the state after these calls, and whether closing is defined -/
def closes (cs : List Call) : Bool :=
  match run ⟨[]⟩ Cz.id Gx.new cs with
  | .ok g => match gdxClose Cz.id g with
    | .ok _ => true
    | .ub => false
  | .ub => false

/-- a file with a symbol, a comment of 255 bytes and an acronym with a text of 255 bytes -/
example : closes [.openWrite false 0 [65] 0, .strStart [112] [] 1 1 0, .writeStr [[97]] [Dbl.zero], .writeDone, .addComment 1 (List.replicate 255 97),
    .acronymAdd [98] (List.replicate 255 97) 5] = true := by decide +kernel

/-- A comment of 256 bytes: everything is accepted, but the file cannot be closed. -/
theorem C87_comment : (run ⟨[]⟩ Cz.id Gx.new [.openWrite false 0 [65] 0, .strStart [112] [] 1 1 0, .writeDone, .addComment 1 (List.replicate 256 97)] >>= fun g =>
      .ok (g.mode, g.raised)) = .ok (.wInit, []) ∧
    (run ⟨[]⟩ Cz.id Gx.new [.openWrite false 0 [65] 0, .strStart [112] [] 1 1 0, .writeDone, .addComment 1 (List.replicate 256 97)] >>= fun g => gdxClose Cz.id g >>= fun _ => .ok ()) = .ub := by
  constructor <;> decide +kernel

/-- The same for an acronym with a text or a name of 256 bytes. -/
theorem C87_acronym : (run ⟨[]⟩ Cz.id Gx.new [.openWrite false 0 [65] 0, .acronymAdd [98] (List.replicate 256 97) 5] >>= fun g =>
      .ok (g.mode, g.raised)) = .ok (.wInit, []) ∧
    (run ⟨[]⟩ Cz.id Gx.new [.openWrite false 0 [65] 0, .acronymAdd [98] (List.replicate 256 97) 5] >>= fun g => gdxClose Cz.id g >>= fun _ => .ok ()) = .ub ∧
    (run ⟨[]⟩ Cz.id Gx.new [.openWrite false 0 [65] 0, .acronymAdd (List.replicate 256 97) [] 5] >>= fun g => gdxClose Cz.id g >>= fun _ => .ok ()) = .ub := by
  refine ⟨?_, ?_, ?_⟩ <;> decide +kernel

#print axioms C87_close
#print axioms C87_other
#print axioms C87_comment
#print axioms C87_acronym

end Gdx.Props
