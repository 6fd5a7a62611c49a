import Verif.Proofs.MergeClose
import Verif.Proofs.CurIn

/-!
C87 while records are being written: gdxClose is defined exactly if gdxDataWriteDone is defined and all texts are short enough.
-/

namespace Gdx
open Gdx.Props

theorem SymStep.comments {k : Lic} {g : Gx} {syms : List Sym} {n : Nat} {s s' : Sym} (h : SymStep k g syms n s s') : ∀ c ∈ s.comments, c ∈ s'.comments := by
  cases h with
  | comment c _ _ => intro x hx; exact List.mem_append_left _ hx
  | _ => exact fun _ hx => hx

/-- a text that is too long stays in the tables, unless an acronym gets a new name -/
theorem Prim.closable_back {k : Lic} (hk : ¬ k .rename) {a b : Gx} (h : Prim k a b) (hb : Closable b) : Closable a := by
  cases h with
  | ctrl h _ _ => exact hb.same (congrArg Core.names h).symm (congrArg Core.acros h).symm
  | addSym syms acros s c m h ha hs hc hm =>
    refine ⟨fun l hl x hx => ?_, hb.2⟩
    rw [h] at hl
    cases hl
    exact hb.1 _ rfl x (List.mem_append_left _ hx)
  | modSym syms n s s' h hn hs =>
    refine ⟨fun l hl x hx => ?_, hb.2⟩
    rw [h] at hl
    cases hl
    obtain ⟨i, hi⟩ := List.mem_iff_getElem?.mp hx
    by_cases hin : n = i
    · subst hin
      rw [hn] at hi
      cases hi
      have := hb.1 _ rfl s' (List.mem_of_getElem? (i := n) (by rw [List.getElem?_set, if_pos rfl, if_pos (List.getElem?_eq_some_iff.mp hn).1]))
      exact fun hc => this (hs.comments _ hc)
    · exact hb.1 _ rfl x (List.mem_of_getElem? (i := i) (by rw [List.getElem?_set, if_neg hin]; exact hi))
  | acro l l' h hs =>
    refine ⟨hb.1, fun l0 hl x hx => ?_⟩
    rw [h] at hl
    cases hl
    cases hs with
    | add a => exact hb.2 _ rfl x (List.mem_append_left _ hx)
    | readMap _ _ _ _ _ h => exact absurd h hk
    | rename _ _ _ _ _ _ _ _ _ h => exact absurd h hk
  | remap l l' h _ _ hs =>
    refine ⟨hb.1, fun l0 hl x hx => ?_⟩
    rw [h] at hl
    cases hl
    cases hs with
    | new org => exact hb.2 _ rfl x (List.mem_append_left _ hx)
    | old n a h0 h1 =>
      obtain ⟨i, hi⟩ := List.mem_iff_getElem?.mp hx
      by_cases hin : n = i
      · subst hin
        rw [h0] at hi
        cases hi
        exact hb.2 _ rfl { x with readMap := a.nextAuto, auto := true }
          (List.mem_of_getElem? (i := n) (by rw [List.getElem?_set, if_pos rfl, if_pos (List.getElem?_eq_some_iff.mp h0).1]))
      · exact hb.2 _ rfl x (List.mem_of_getElem? (i := i) (by rw [List.getElem?_set, if_neg hin]; exact hi))
  | _ => exact hb.same rfl rfl

theorem Evo.closable_back {k : Lic} (hk : ¬ k .rename) {a b : Gx} (h : Evo k a b) : Closable b → Closable a := by
  induction h with
  | refl => exact id
  | snoc _ hp ih => exact fun hb => ih (hp.closable_back hk hb)

end Gdx

namespace Gdx.Props
open Gdx Gdx.Spec

/-- After every history of calls: gdxClose while records are being written is defined exactly if gdxDataWriteDone is defined and all comments and
    acronyms are short enough. -/
theorem C87_writing {e : Env} {z : Cz} (hz : z.Good) {g : Gx} (h : After e z g) (hm : g.mode = .wRaw ∨ g.mode = .wMap ∨ g.mode = .wStr) :
    (∃ g' r, gdxClose z g = .ok (g', r)) ↔ (∃ g' b, dataWriteDone z g = .ok (g', b)) ∧ CommentsEnd g ∧ AcronymsShort g := by
  have hw : Writing g.mode := by rcases hm with h | h | h <;> rw [h] <;> decide
  rw [C47_close_partial z g hm]
  have key : ∀ g' b, dataWriteDone z g = .ok (g', b) → After e z g' ∧ g'.mode = .wInit := fun g' b h1 =>
    ⟨h.more (.one (c := .writeDone) trivial rfl (by show stateOf _ = _; rw [h1]; rfl)), (dataWriteDone_mode hw).of_ok h1⟩
  constructor
  · rintro ⟨g2, r, h2⟩
    obtain ⟨⟨g', b⟩, h1, h2⟩ := Res.bind_eq_ok.mp h2
    obtain ⟨ha, hi⟩ := key g' b h1
    have hc : Closable g' := (C87_close hz ha hi).mp ⟨_, _, h2⟩
    exact ⟨⟨g', b, h1⟩, ((dataWriteDone_evo (fun _ => False) z g).of_ok h1).closable_back id hc⟩
  · rintro ⟨⟨g', b, h1⟩, hc⟩
    obtain ⟨ha, hi⟩ := key g' b h1
    obtain ⟨g2, r, h2⟩ := (C87_close hz ha hi).mpr (dataWriteDone_closable h1 hc)
    exact ⟨g2, r, by rw [h1]; exact h2⟩

theorem After.curIn {e : Env} {z : Cz} {g : Gx} (h : After e z g) : CurIn g := by
  obtain ⟨cs, _, _, h3⟩ := h
  exact (CurIn.run e z cs Gx.new (.not (show ¬ Writing .notOpen by decide)) Phased.new).of_ok h3

/-- After every history of calls that left the object in raw mode: gdxDataWriteDone is defined exactly if no other symbol was begun in between.
    A Start function that is refused forgets the symbol that is being written (C09). -/
theorem C87_done {e : Env} {z : Cz} (hz : z.Good) {g : Gx} (h : After e z g) (hm : g.mode = .wRaw ∨ g.mode = .wDomRaw) :
    (∃ g' b, dataWriteDone z g = .ok (g', b)) ↔ g.cur ≠ .none := by
  have f := h.fine hz
  have hw : Writing g.mode := RawMode.writing hm
  have hn := (f.inv.head (f.ph.stat (Or.inr hw))).next
  unfold dataWriteDone
  rcases chk_cases g [.wRaw, .wMap, .wStr, .wDomRaw, .wDomMap, .wDomStr] with ⟨hmm, hc⟩ | ⟨hmm, hc⟩
  · simp only [hc, Bool.true_eq_false, if_false]
    rw [if_pos hm]
    constructor
    · rintro ⟨g', b, h1⟩
      obtain ⟨g1, h1, _⟩ := Res.bind_eq_ok.mp h1
      obtain ⟨_, n, _, _, e1, _⟩ := finishBlock_ok h1
      rw [e1]
      exact fun hx => nomatch hx
    · intro hx
      rcases h.curIn hw with h0 | ⟨n, syms, e1, e2, e3⟩
      · exact absurd h0 hx
      obtain ⟨s, e4⟩ : ∃ s, syms[n]? = some s := ⟨syms[n], List.getElem?_eq_getElem e3⟩
      have e5 : g.curSym = .ok s := by
        unfold Gx.curSym
        rw [e1, e2]
        dsimp only
        rw [show ((n + 1 : Nat) : Int) = (n : Int) + 1 by push_cast; rfl]
        exact at1_nat e4
      unfold finishBlock
      rw [e5]
      simp only [Res.bind_ok]
      rw [if_neg (by omega)]
      unfold Gx.modCur
      rw [e1, e2]
      simp only
      rw [if_pos ⟨by omega, by omega⟩]
      exact ⟨_, _, rfl⟩
  · rcases hm with hm | hm <;> simp [hm] at hmm

/-- After every history of calls: gdxClose while records are being written in raw mode is defined exactly if no other symbol was begun in between
    and all comments and acronyms are short enough. -/
theorem C87_raw {e : Env} {z : Cz} (hz : z.Good) {g : Gx} (h : After e z g) (hm : g.mode = .wRaw) :
    (∃ g' r, gdxClose z g = .ok (g', r)) ↔ g.cur ≠ .none ∧ CommentsEnd g ∧ AcronymsShort g := by
  rw [C87_writing hz h (Or.inl hm), C87_done hz h (Or.inl hm)]

/-- In mapped and string mode: if it is defined, no other symbol was begun. -/
theorem C87_begun {e : Env} {z : Cz} (hz : z.Good) {g : Gx} (h : After e z g) (hm : g.mode = .wMap ∨ g.mode = .wStr)
    (hc : ∃ g' r, gdxClose z g = .ok (g', r)) : g.cur ≠ .none := by
  obtain ⟨⟨g', b, h1⟩, _⟩ := (C87_writing hz h (Or.inr hm)).mp hc
  unfold dataWriteDone at h1
  rcases chk_cases g [.wRaw, .wMap, .wStr, .wDomRaw, .wDomMap, .wDomStr] with ⟨hmm, hk⟩ | ⟨hmm, hk⟩
  · simp only [hk, Bool.true_eq_false, if_false] at h1
    rw [if_neg (by rcases hm with hm | hm <;> rw [hm] <;> decide)] at h1
    obtain ⟨s, _, h1⟩ := Res.bind_eq_ok.mp h1
    obtain ⟨g1, h2, h1⟩ := Res.bind_eq_ok.mp h1
    obtain ⟨_, _, _, n, _, _, e1, _⟩ := initDoWrite_ok h2
    rw [e1]
    exact fun hx => nomatch hx
  · rcases hm with hm | hm <;> simp [hm] at hmm

/-- A Start function that is refused while records are being written: the file cannot be closed any more, in all three modes. -/
theorem C87_start :
    closes [.openWrite false 0 [65] 0, .rawStart [112] [] 1 1 0, .writeRaw [1] [Dbl.zero], .rawStart [113] [] 1 1 0] = false ∧
    closes [.openWrite false 0 [65] 0, .mapStart [112] [] 0 1 0, .writeMap [] [Dbl.zero], .mapStart [113] [] 1 1 0] = false ∧
    closes [.openWrite false 0 [65] 0, .strStart [112] [] 1 1 0, .writeStr [[97]] [Dbl.zero], .strStart [113] [] 1 1 0] = false ∧
    (run ⟨[]⟩ Cz.id Gx.new [.openWrite false 0 [65] 0, .rawStart [112] [] 1 1 0, .writeRaw [1] [Dbl.zero], .rawStart [113] [] 1 1 0] >>= fun g =>
      .ok (g.mode, g.raised)) = .ok (.wRaw, [Err.badMode]) := by
  refine ⟨?_, ?_, ?_, ?_⟩ <;> decide +kernel

/-- closing with a record that has been written, with and without a comment that is too long; in the middle of mapped and string data -/
example : closes [.openWrite false 0 [65] 0, .rawStart [112] [] 1 1 0, .writeRaw [1] [Dbl.zero]] = true ∧
    closes [.openWrite false 0 [65] 0, .rawStart [112] [] 1 1 0, .writeRaw [1] [Dbl.zero], .addComment 1 (List.replicate 256 97)] = false ∧
    closes [.openWrite false 0 [65] 0, .strStart [112] [] 1 1 0, .writeStr [[97]] [Dbl.zero], .addComment 1 (List.replicate 255 97)] = true := by
  refine ⟨?_, ?_, ?_⟩ <;> decide +kernel

#print axioms C87_writing
#print axioms C87_done
#print axioms C87_raw
#print axioms C87_begun
#print axioms C87_start

end Gdx.Props
