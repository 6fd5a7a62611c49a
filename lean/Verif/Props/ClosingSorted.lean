import Verif.Props.ClosingWriting
import Verif.Proofs.SortInv

/-!
C87 while records are being collected in mapped and in string mode.
-/

namespace Gdx.Props
open Gdx Gdx.Spec

/-- how many records are collected -/
def collected (g : Gx) : Nat := (g.sort.map fun s => s.items.length).getD 0

theorem coll_done {z : Cz} {g : Gx} {m : Nat} {d : SymDesc} {its : List Given} (h : Coll g m d its) (hr : SortMode g.mode) (f : Fine g) (ht : TabFits g)
    (hn : (collected g : Int) ≤ 2147483647) : ∃ g' b, dataWriteDone z g = .ok (g', b) := by
  obtain ⟨doms, hd⟩ := h.doms.fix (m := m) (by
    intro syms s b h1 h2 h3 k
    obtain ⟨syms', s', e1, e2, _, e4⟩ := h.sym
    rw [h1] at e1
    cases e1
    rw [h2] at e2
    cases e2
    rw [← Bool.not_eq_true, ((e4.bits b h3).2.2 k)]
    simp)
  have hl : (its.length : Int) ≤ intMax := by
    obtain ⟨s, s1, _, s3⟩ := h.sort
    unfold collected at hn
    rw [s1] at hn
    simp only [Option.map_some, Option.getD_some, s3, List.length_map] at hn
    exact hn
  obtain ⟨_, g', _, h1, _⟩ := h.done (z := z) hr f.inv (f.ph.stat (Or.inr hr.writing)) ht hl hd
  exact ⟨g', true, h1⟩

theorem After.sorted {e : Env} {z : Cz} (hz : z.Good) {g : Gx} (h : After e z g) : SortInv g := by
  obtain ⟨cs, x1, x2, x3⟩ := h
  refine SortInv.run hz Fine.new x1 x2 (.not ?_) x3
  show ¬ SortMode .notOpen
  rw [sortMode_fam]
  decide

/-- After every history of calls that left the object in mapped or string mode, with at most 2^31 - 257 elements and 2^31 - 1 collected records:
    gdxDataWriteDone is defined exactly if no other symbol was begun in between; also if elements were renamed. -/
theorem C87_sorted {e : Env} {z : Cz} (hz : z.Good) {g : Gx} (h : After e z g) (hm : g.mode = .wMap ∨ g.mode = .wDomMap ∨ g.mode = .wStr ∨ g.mode = .wDomStr)
    (hu : ∀ u, g.uel = some u → u.ents.length ≤ 2147483391) (hn : collected g ≤ 2147483647) :
    (∃ g' b, dataWriteDone z g = .ok (g', b)) ↔ g.cur ≠ .none := by
  have hs : SortMode g.mode := by
    rw [sortMode_fam]
    rcases hm with h | h | h | h <;> rw [h] <;> decide
  constructor
  · rintro ⟨g', b, h1⟩
    unfold dataWriteDone at h1
    rcases chk_cases g [.wRaw, .wMap, .wStr, .wDomRaw, .wDomMap, .wDomStr] with ⟨hmm, hk⟩ | ⟨hmm, hk⟩
    · simp only [hk, Bool.true_eq_false, if_false] at h1
      rw [if_neg (by rcases hm with hm | hm | hm | hm <;> rw [hm] <;> decide)] at h1
      obtain ⟨s, _, h1⟩ := Res.bind_eq_ok.mp h1
      obtain ⟨g1, h2, h1⟩ := Res.bind_eq_ok.mp h1
      obtain ⟨_, _, _, n, _, _, e1, _⟩ := initDoWrite_ok h2
      rw [e1]
      exact fun hx => nomatch hx
    · rcases hm with hm | hm | hm | hm <;> simp [hm] at hmm
  · intro h1
    have f := h.fine hz
    have ht : TabFits g := fun u h => by have := hu u h; omega
    rcases h.sorted hz hs with h0 | h0
    · exact absurd h0.1 h1
    · obtain ⟨m, d, its, h3, _⟩ := h0 ht
      exact coll_done h3 hs f ht (by omega)

/-- The same for gdxClose, with records being written: it is defined exactly if no other symbol was begun in between and all comments and acronyms
    are short enough. -/
theorem C87_collected {e : Env} {z : Cz} (hz : z.Good) {g : Gx} (h : After e z g) (hm : g.mode = .wMap ∨ g.mode = .wStr)
    (hu : ∀ u, g.uel = some u → u.ents.length ≤ 2147483391) (hn : collected g ≤ 2147483647) :
    (∃ g' r, gdxClose z g = .ok (g', r)) ↔ g.cur ≠ .none ∧ CommentsEnd g ∧ AcronymsShort g := by
  rw [C87_writing hz h (Or.inr hm), C87_sorted hz h (by rcases hm with h | h <;> simp [h]) hu hn]

/-- two records collected in mapped mode, after refused calls of other functions; and in string mode, with a renamed element -/
example : (run ⟨[]⟩ Cz.id Gx.new [.openWrite false 0 [65] 0, .uelMapStart, .uelMap 7 [97], .uelDone, .mapStart [112] [] 1 1 0, .writeMap [7] [Dbl.zero],
      .writeRaw [1] [Dbl.zero], .writeMap [7] [Dbl.zero], .writeMap [8] [Dbl.zero], .openWrite false 0 [65] 0] >>= fun g =>
      .ok (g.mode, collected g, decide (g.cur = .none))) = .ok (.wMap, 2, false) ∧
    (run ⟨[]⟩ Cz.id Gx.new [.openWrite false 0 [65] 0, .strStart [112] [] 1 1 0, .writeStr [[98]] [Dbl.zero], .renameUEL [98] [99], .writeStr [[98]] [Dbl.zero], .writeStr [[97]] [Dbl.zero]] >>= fun g =>
      .ok (g.mode, collected g, decide (g.cur = .none))) = .ok (.wStr, 3, false) ∧
    closes [.openWrite false 0 [65] 0, .strStart [112] [] 1 1 0, .writeStr [[98]] [Dbl.zero], .renameUEL [98] [99], .writeStr [[98]] [Dbl.zero], .writeStr [[97]] [Dbl.zero]] = true := by
  refine ⟨?_, ?_, ?_⟩ <;> decide +kernel

#print axioms C87_sorted
#print axioms C87_collected

end Gdx.Props
