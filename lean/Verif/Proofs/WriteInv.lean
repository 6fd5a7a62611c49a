import Verif.Proofs.SymInv
import Verif.Proofs.UelInv
import Verif.Proofs.PFile

/-!
Invariants of an object that writes a file: texts, acronyms, strings of relaxed domains, beginning of the file, positions.
-/

namespace Gdx

open Gdx.Props

/-! ### texts -/

/-- the texts are all different and can be written -/
structure TextsZ (l : List (Str × Int)) : Prop where
  distinct : Distinct true (l.map Prod.fst)
  zfree : ∀ p ∈ l, ZFree p.1 ∧ p.1.length ≤ 255 ∧ Props.Quotable p.1

def TextInv (g : Gx) : Prop := ∀ l, g.texts = some l → TextsZ l

theorem map_fst_modify {l : List (Str × Int)} {n : Nat} {x : Int} :
    (l.modify n fun e => (e.1, x)).map Prod.fst = l.map Prod.fst := by
  apply List.ext_getElem?
  intro i
  rw [List.getElem?_map, List.getElem?_modify, List.getElem?_map]
  cases l[i]? with
  | none => rfl
  | some e => simp only [Option.map_some]; split <;> rfl

theorem TextsZ.iff {l : List (Str × Int)} : TextsZ l ↔
    Distinct true (l.map Prod.fst) ∧ ∀ s ∈ l.map Prod.fst, ZFree s ∧ s.length ≤ 255 ∧ Props.Quotable s :=
  ⟨fun h => ⟨h.1, fun s hs => by
    obtain ⟨p, hp, rfl⟩ := List.mem_map.mp hs
    exact h.2 p hp⟩, fun h => ⟨h.1, fun p hp => h.2 p.1 (List.mem_map_of_mem hp)⟩⟩

theorem TextInv.prim : ∀ a b, Prim .all a b → TextInv a → TextInv b := by
  intro a b h hg
  cases h with
  | ctrl h _ _ => intro l hl; exact hg l (by rw [← show b.texts = a.texts from congrArg Core.texts h]; exact hl)
  | text l s h hn hz =>
    intro l' hl'
    cases hl'
    have h0 := hg l h
    refine ⟨?_, ?_⟩
    · rw [List.map_append]
      exact h0.distinct.append hn
    · intro p hp
      rcases List.mem_append.mp hp with hp | hp
      · exact h0.zfree p hp
      · rw [List.mem_singleton.mp hp]; exact hz
  | node l n x h h0 =>
    intro l' hl'
    cases hl'
    rw [TextsZ.iff, map_fst_modify]
    exact TextsZ.iff.mp (hg l h)
  | _ => exact hg

/-! ### acronyms -/

/-- acronyms that can be written -/
structure AcrosZ (l : List Acr) : Prop where
  each : ∀ a ∈ l, ZFree a.name ∧ ZFree a.text ∧ I32 a.map
  maps : (l.map Acr.map).Nodup

def AcroInv (g : Gx) : Prop := ∀ l, g.acros = some l → AcrosZ l

theorem AcrosZ.add {a : List Acr} (hz : AcrosZ a) {x : Acr} (hm : ∀ b ∈ a, b.map ≠ x.map) (hzz : ZFree x.name ∧ ZFree x.text) (hi : I32 x.map) :
    AcrosZ (a ++ [x]) := by
  refine ⟨?_, ?_⟩
  · intro y hy
    rcases List.mem_append.mp hy with hy | hy
    · exact hz.each y hy
    · rw [List.mem_singleton.mp hy]; exact ⟨hzz.1, hzz.2, hi⟩
  · rw [List.map_append, List.nodup_append]
    refine ⟨hz.maps, by simp, ?_⟩
    intro m hm' m' hm'' he
    obtain ⟨y, hy, rfl⟩ := List.mem_map.mp hm'
    simp at hm''
    exact hm y hy (by rw [he, hm''])

theorem AcroStep.z {a b : List Acr} (h : AcroStep k a b) (hz : AcrosZ a) : AcrosZ b := by
  have keepMap : ∀ (l : List Acr) (n : Nat) (x y : Acr), l[n]? = some x → y.map = x.map → (l.set n y).map Acr.map = l.map Acr.map := by
    intro l n x y hx hy
    apply List.ext_getElem?
    intro i
    rw [List.getElem?_map, List.getElem?_map, List.getElem?_set]
    split
    · rename_i hi
      subst hi
      rw [hx, if_pos (List.getElem?_eq_some_iff.mp hx).1]
      simp [hy]
    · rfl
  cases h with
  | add x hm hn hzz hi _ =>
    exact hz.add hm hzz hi
  | readMap n x v c h _ =>
    refine ⟨?_, by rw [keepMap _ _ _ _ h (by rfl)]; exact hz.maps⟩
    intro y hy
    rcases List.mem_or_eq_of_mem_set hy with hy | rfl
    · exact hz.each y hy
    · exact hz.each x (List.mem_of_getElem? h)
  | rename n x name text c h hn hg hzz =>
    refine ⟨?_, by rw [keepMap _ _ _ _ h (by rfl)]; exact hz.maps⟩
    intro y hy
    rcases List.mem_or_eq_of_mem_set hy with hy | rfl
    · exact hz.each y hy
    · exact ⟨(ident_zfree hg).1, hzz, (hz.each x (List.mem_of_getElem? h)).2.2⟩

theorem Remapped.z {v : Int} {a b : List Acr} (h : Remapped v a b) (hz : AcrosZ a) : AcrosZ b := by
  cases h with
  | new org hm hi =>
    refine hz.add hm ⟨?_, zfree_good []⟩ hi
    intro c hc
    simp [Acr.mk'] at hc
  | old n x h h0 => exact (AcroStep.readMap a n x v true h trivial : AcroStep .all a _).z hz

theorem AcroInv.prim : ∀ a b, Prim .all a b → AcroInv a → AcroInv b := by
  intro a b h hg
  cases h with
  | ctrl h _ _ => intro l hl; exact hg l (by rw [← show b.acros = a.acros from congrArg Core.acros h]; exact hl)
  | acro l l' h hs => intro l2 h2; cases h2; exact hs.z (hg l h)
  | remap l l' h _ _ hs => intro l2 h2; cases h2; exact hs.z (hg l h)
  | _ => exact hg

/-! ### strings of the relaxed domains -/

def DomsInv (g : Gx) : Prop := ∀ l, g.domStrs = some l → ∀ s ∈ l, isGoodIdent s = true

theorem DomsInv.prim : ∀ a b, Prim .all a b → DomsInv a → DomsInv b := by
  intro a b h hg
  cases h with
  | ctrl h _ _ => intro l hl; exact hg l (by rw [← show b.domStrs = a.domStrs from congrArg Core.domStrs h]; exact hl)
  | domStr l s h hn hi =>
    intro l' hl' x hx
    cases hl'
    rcases List.mem_append.mp hx with hx | hx
    · exact hg l h x hx
    · rw [List.mem_singleton.mp hx]; exact hi
  | _ => exact hg

/-! ### the beginning of the file -/

/-- the tables are there -/
structure Tabs (g : Gx) : Prop where
  texts : g.texts.isSome = true
  names : g.names.isSome = true
  uel : g.uel.isSome = true
  acros : g.acros.isSome = true
  doms : g.domStrs.isSome = true

theorem Tabs.same {a b : Gx} (h : Tabs a) (h1 : b.texts = a.texts) (h2 : b.names = a.names) (h3 : b.uel = a.uel) (h4 : b.acros = a.acros)
    (h5 : b.domStrs = a.domStrs) : Tabs b := ⟨h1 ▸ h.texts, h2 ▸ h.names, h3 ▸ h.uel, h4 ▸ h.acros, h5 ▸ h.doms⟩

/-- the file begins with a header, behind that there is room for the index, and writing goes on behind that -/
structure Head (g : Gx) : Prop where
  ex : ∃ (e : Env) (c : Int) (p : Str) (h t : List UInt8), fileHeader e c p = .ok h ∧ (c = 0 ∨ c = 1) ∧
    g.comprOut = decide (c > 0) ∧ g.comprLev = c ∧ g.fsId = e.audit ∧ g.producer = p ∧ g.majorPos = h.length ∧ g.file = h ++ t
  next : (g.majorPos : Int) + 80 ≤ g.nextWrite
  pos : ∀ syms, g.names = some syms → ∀ s ∈ syms, 0 ≤ s.pos ∧ s.pos ≤ g.nextWrite
  tabs : Tabs g

/-- as long as a file is being written -/
def HeadInv (g : Gx) : Prop := g.stat = .write → Head g

theorem splice_prefix (h t : List UInt8) (p : Nat) (bs : List UInt8) (hp : h.length ≤ p) :
    ∃ t', splice (h ++ t) p bs = h ++ t' := by
  unfold splice
  split
  · exact ⟨t, rfl⟩
  · refine ⟨((t ++ List.replicate (p - (h ++ t).length) 0).take (p - h.length)) ++ bs ++ (h ++ t).drop (p + bs.length), ?_⟩
    rw [List.append_assoc, List.append_assoc h, List.take_append, List.take_of_length_le hp]
    simp

theorem HeadInv.prim : ∀ a b, Prim .all a b → HeadInv a → HeadInv b := by
  intro a b h hg
  cases h with
  | ctrl h _ _ =>
    intro hs
    have h0 := hg (by rw [← show b.stat = a.stat from congrArg Core.stat h]; exact hs)
    refine ⟨?_, ?_, ?_, ⟨(congrArg (fun c => c.texts.isSome) h).trans h0.tabs.texts,
      (congrArg (fun c => c.names.isSome) h).trans h0.tabs.names, (congrArg (fun c => c.uel.isSome) h).trans h0.tabs.uel,
      (congrArg (fun c => c.acros.isSome) h).trans h0.tabs.acros, (congrArg (fun c => c.domStrs.isSome) h).trans h0.tabs.doms⟩⟩
    · obtain ⟨e, c, p, hd, t, h1, h2, h3, h4, h5, h6, h7, h8⟩ := h0.ex
      exact ⟨e, c, p, hd, t, h1, h2, (congrArg Core.comprOut h).trans h3, (congrArg Core.comprLev h).trans h4,
        (congrArg Core.fsId h).trans h5, (congrArg Core.producer h).trans h6, (congrArg Core.majorPos h).trans h7,
        (congrArg Core.file h).trans h8⟩
    · rw [show b.majorPos = a.majorPos from congrArg Core.majorPos h, show b.nextWrite = a.nextWrite from congrArg Core.nextWrite h]
      exact h0.next
    · rw [show b.names = a.names from congrArg Core.names h, show b.nextWrite = a.nextWrite from congrArg Core.nextWrite h]
      exact h0.pos
  | addSym syms acros s c m h ha hs hc _ =>
    intro hw
    have h0 := hg hw
    refine ⟨h0.ex, h0.next, ?_, ⟨h0.tabs.texts, rfl, h0.tabs.uel, h0.tabs.acros, h0.tabs.doms⟩⟩
    intro l hl x hx
    cases hl
    rcases List.mem_append.mp hx with hx | hx
    · exact h0.pos syms h x hx
    · rw [List.mem_singleton.mp hx, hs.zero.1]
      have := h0.next
      show 0 ≤ (0 : Int) ∧ (0 : Int) ≤ a.nextWrite
      omega
  | modSym syms n s s' h hn hs =>
    intro hw
    have h0 := hg hw
    refine ⟨h0.ex, h0.next, ?_, ⟨h0.tabs.texts, rfl, h0.tabs.uel, h0.tabs.acros, h0.tabs.doms⟩⟩
    intro l hl x hx
    cases hl
    have h1 := h0.pos syms h s (List.mem_of_getElem? hn)
    rcases List.mem_or_eq_of_mem_set hx with hx | rfl
    · exact h0.pos syms h x hx
    · have := h0.next
      cases hs with
      | pos _ _ =>
        show 0 ≤ a.nextWrite ∧ a.nextWrite ≤ a.nextWrite
        omega
      | _ => exact h1
  | write bs h =>
    intro hw
    have h0 := hg hw
    obtain ⟨e, c, p, hd, t, h1, h2, h3, h4, h5, h6, h7, h8⟩ := h0.ex
    have hnext := h0.next
    refine ⟨?_, ?_, ?_, ⟨h0.tabs.texts, h0.tabs.names, h0.tabs.uel, h0.tabs.acros, h0.tabs.doms⟩⟩
    · obtain ⟨t', ht'⟩ := splice_prefix hd t a.nextWrite.toNat bs (by omega)
      refine ⟨e, c, p, hd, t', h1, h2, h3, h4, h5, h6, h7, ?_⟩
      show splice a.file _ _ = _
      rw [h8]
      exact ht'
    · show (a.majorPos : Int) + 80 ≤ a.nextWrite + bs.length
      omega
    · intro l hl x hx
      have := h0.pos l hl x hx
      show 0 ≤ x.pos ∧ x.pos ≤ a.nextWrite + bs.length
      omega
  | text l s h hn hz => exact fun hw => ⟨(hg hw).ex, (hg hw).next, (hg hw).pos, ⟨rfl, (hg hw).tabs.names, (hg hw).tabs.uel, (hg hw).tabs.acros, (hg hw).tabs.doms⟩⟩
  | node l n x h h0 => exact fun hw => ⟨(hg hw).ex, (hg hw).next, (hg hw).pos, ⟨rfl, (hg hw).tabs.names, (hg hw).tabs.uel, (hg hw).tabs.acros, (hg hw).tabs.doms⟩⟩
  | uel u u' h hs => exact fun hw => ⟨(hg hw).ex, (hg hw).next, (hg hw).pos, ⟨(hg hw).tabs.texts, (hg hw).tabs.names, rfl, (hg hw).tabs.acros, (hg hw).tabs.doms⟩⟩
  | domStr l s h hn hg' => exact fun hw => ⟨(hg hw).ex, (hg hw).next, (hg hw).pos, ⟨(hg hw).tabs.texts, (hg hw).tabs.names, (hg hw).tabs.uel, (hg hw).tabs.acros, rfl⟩⟩
  | remap l l' h _ _ hs => exact fun hw => ⟨(hg hw).ex, (hg hw).next, (hg hw).pos, ⟨(hg hw).tabs.texts, (hg hw).tabs.names, (hg hw).tabs.uel, rfl, (hg hw).tabs.doms⟩⟩
  | acro l l' h hs => exact fun hw => ⟨(hg hw).ex, (hg hw).next, (hg hw).pos, ⟨(hg hw).tabs.texts, (hg hw).tabs.names, (hg hw).tabs.uel, rfl, (hg hw).tabs.doms⟩⟩
  | _ => exact fun hw => ⟨(hg hw).ex, (hg hw).next, (hg hw).pos, ⟨(hg hw).tabs.texts, (hg hw).tabs.names, (hg hw).tabs.uel, (hg hw).tabs.acros, (hg hw).tabs.doms⟩⟩

/-! ### all together -/

/-- everything that holds in an object at any time -/
structure Inv (g : Gx) : Prop where
  tab : TabOk g
  els : GoodElems g
  txt : TextInv g
  acr : AcroInv g
  dom : DomsInv g
  head : HeadInv g

theorem Inv.prim : ∀ a b, Prim .all a b → Inv a → Inv b := fun a b h hg =>
  ⟨TabOk.prim a b h hg.tab, GoodElems.prim a b h hg.els, TextInv.prim a b h hg.txt, AcroInv.prim a b h hg.acr,
   DomsInv.prim a b h hg.dom, HeadInv.prim a b h hg.head⟩

theorem Inv.new : Inv Gx.new :=
  ⟨TabOk.new, GoodElems.new, fun _ h => (by cases h), fun _ h => (by cases h), fun _ h => (by cases h), fun h => (by cases h)⟩

theorem Inv.free (g : Gx) (f : List UInt8) (lg : List (Nat × List UInt8)) (h : Inv g) :
    Inv ({ g with file := f, log := lg } : Gx).freeAll :=
  ⟨TabOk.freeAll _ (h.tab.same rfl rfl rfl), fun _ h => (by cases h), fun _ h => (by cases h), fun _ h => (by cases h),
   fun _ h => (by cases h), fun h => (by cases h)⟩

theorem Inv.jump (g : Gx) (u u' : Uel) (hu : g.uel = some u) (hj : UelJump u u') (h : Inv g) : Inv { g with uel := some u' } :=
  ⟨h.tab.same rfl rfl rfl, GoodElems.jump g u u' hu hj h.els, h.txt, h.acr, h.dom,
    fun hw => ⟨(h.head hw).ex, (h.head hw).next, (h.head hw).pos, ⟨(h.head hw).tabs.texts, (h.head hw).tabs.names, rfl, (h.head hw).tabs.acros, (h.head hw).tabs.doms⟩⟩⟩

theorem Inv.last (g : Gx) (h : Inv g) : Inv (getLastError g).1 :=
  ⟨h.tab.same rfl rfl rfl, h.els, h.txt, h.acr, h.dom, fun hw => ⟨(h.head hw).ex, (h.head hw).next, (h.head hw).pos, (h.head hw).tabs.same rfl rfl rfl rfl rfl⟩⟩

theorem Inv.openWrite (e : Env) (g : Gx) (n : Bool) (i : Int) (p : Str) (c : Int) (h : Inv g) :
    (openWriteEx e g n i p c).All fun x => Inv x.1 := by
  have h1 := TabOk.openWrite e g n i p c h.tab
  have h2 := GoodElems.openWrite e g n i p c h.els
  revert h1 h2
  unfold openWriteEx
  split
  · exact fun _ _ => h
  split
  · exact fun h1 h2 => ⟨h1, h2, h.txt, h.acr, h.dom, fun hw => ⟨(h.head hw).ex, (h.head hw).next, (h.head hw).pos, (h.head hw).tabs.same rfl rfl rfl rfl rfl⟩⟩
  split
  · exact fun h1 h2 => ⟨h1, h2, h.txt, h.acr, h.dom, fun hw => ⟨(h.head hw).ex, (h.head hw).next, (h.head hw).pos, (h.head hw).tabs.same rfl rfl rfl rfl rfl⟩⟩
  cases hh : fileHeader e (c % 2) p with
  | ub => intro _ _; trivial
  | ok hd =>
    intro h1 h2
    refine ⟨h1, h2, ?_, ?_, ?_, ?_⟩
    · intro l hl
      cases hl
      exact ⟨by simp [Distinct], by simp [ZFree, Props.Quotable]⟩
    · intro l hl
      cases hl
      exact ⟨by simp, by simp⟩
    · intro l hl
      cases hl
      simp
    · intro _
      refine ⟨⟨e, c % 2, p, hd, emptyIndex, hh, by omega, rfl, rfl, rfl, rfl, rfl, ?_⟩, ?_, ?_, ⟨rfl, rfl, rfl, rfl, rfl⟩⟩
      · show splice [] 0 (hd ++ emptyIndex) = _
        unfold splice
        split
        · rename_i h0; exact h0.symm
        · simp
      · show (hd.length : Int) + 80 ≤ hd.length + 80
        omega
      · intro l hl
        cases hl
        simp

theorem Inv.run (e : Env) (z : Cz) (cs : List Call) (g : Gx) (hc : ∀ c ∈ cs, c.WF) (ha : Aft g) (h : Inv g)
    (ho : OpensOk Inv e z g cs) : (run e z g cs).All fun g' => Aft g' ∧ Inv g' :=
  run_inv_m Inv.prim Inv.free Inv.jump Inv.last Inv.openWrite e z cs g hc ha h ho

end Gdx
