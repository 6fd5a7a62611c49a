import Verif.Proofs.RawLog
import Verif.Proofs.ReadStart
import Verif.Proofs.Own

/-!
A symbol written in raw mode, from the start call to reading it from the closed file.
-/

namespace Gdx

theorem SymLog.fresh {s : Sym} {typ dim : Int} {sd : Bool} (h1 : s.typ = typ.toNat) (ht : 0 ≤ typ ∧ typ ≤ 3) (h2 : s.setText = false)
    (h3 : s.bitmap = (if typ = 0 ∧ dim = 1 ∧ sd = true then some BitArr.empty else none)) : SymLog s [] where
  typ := by omega
  txt := by rw [h2]; simp
  bits := by
    intro b hb
    rw [h3] at hb
    split at hb
    · rename_i hc
      cases hb
      refine ⟨?_, BitArr.Inv.empty, ?_⟩
      · rw [h1, hc.1]; rfl
      · intro k
        simp [BitArr.get, BitArr.empty]
    · cases hb

/-- a successful start: the symbol is the new last one, and has no records yet -/
theorem Sess.begin {g gp g' : Gx} {name text : Str} {dim typ ui n : Int} (hp : prepareWrite g name text dim typ ui = .ok (gp, true))
    {bs : List (Int × Int)} (hb : bs.length = gp.nd) (hi : initDoWrite { gp with bounds := bs } n = .ok g') :
    g.mode = .wInit ∧ ∃ syms, g.names = some syms ∧ Sess g' syms.length ⟨name, dim, typ.toNat, ui⟩ [] [] := by
  rcases prepareWrite_cases hp with ⟨hf, _⟩ | ⟨_, hm, syms, sy, h1, h2, h3, h4, h5, h6, h7, h8, h9, hd, ht, he⟩
  · cases hf
  refine ⟨hm, syms, h1, ?_⟩
  have hdim : gp.curDim = dim := by rw [he]
  have hnd : gp.nd = dim.toNat := by show gp.curDim.toNat = _; rw [hdim]
  have hbg : Begun { gp with bounds := bs } syms.length := by
    refine ⟨by rw [he], ?_, ?_, hb⟩
    · refine ⟨syms ++ [sy], sy, by rw [he], by simp, ?_, ?_⟩
      · show sy.dim = gp.curDim
        rw [h3, hdim]
      · show gp.dataSize = _
        rw [he, h4]
    · show 0 ≤ gp.curDim ∧ gp.curDim ≤ 20
      rw [hdim]
      exact hd
  refine ⟨hbg.initDoWrite hi, ?_⟩
  obtain ⟨_, _, _, m', syms', s', e1, e2, e3, rfl⟩ := initDoWrite_ok hi
  have e2' : gp.names = some syms' := e2
  have e1' : gp.cur = .sym (m' + 1) := e1
  rw [he] at e1' e2'
  cases e1'
  cases e2'
  have e3' : s' = sy := by simpa using e3.symm
  subst e3'
  refine ⟨_, { s' with pos := gp.nextWrite }, rfl, ?_, ?_, ?_⟩
  · rw [List.getElem?_set_self (by simp)]
  · exact ⟨h2, h3, h4, h5⟩
  · exact ⟨(SymLog.fresh h4 ht h7 h9).typ, (SymLog.fresh h4 ht h7 h9).txt, (SymLog.fresh h4 ht h7 h9).bits⟩

theorem Sess.rawStart {g g' : Gx} {name text : Str} {dim typ ui : Int}
    (h : dataWriteRawStart g name text dim typ ui = .ok (g', true)) :
    g.mode = .wInit ∧ RawMode g'.mode ∧ ∃ syms, g.names = some syms ∧ Sess g' syms.length ⟨name, dim, typ.toNat, ui⟩ [] [] := by
  unfold dataWriteRawStart at h
  obtain ⟨⟨gp, ok⟩, h1, h⟩ := Res.bind_eq_ok.mp h
  cases ok with
  | false => cases h
  | true =>
    simp only [Bool.true_eq_false, if_false] at h
    obtain ⟨g2, h2, h⟩ := Res.bind_eq_ok.mp h
    cases h
    obtain ⟨a, syms, b, c⟩ := Sess.begin h1 (by simp) h2
    exact ⟨a, Or.inr rfl, syms, b, c.mode _⟩

theorem Sess.rawStartBounds {g g' : Gx} {name text : Str} {dim typ ui : Int} {bs : List (Int × Int)}
    (h : dataWriteRawStartKeyBounds g name text dim typ ui bs = .ok (g', true)) :
    g.mode = .wInit ∧ RawMode g'.mode ∧ ∃ syms, g.names = some syms ∧ Sess g' syms.length ⟨name, dim, typ.toNat, ui⟩ [] [] := by
  unfold dataWriteRawStartKeyBounds at h
  obtain ⟨⟨gp, ok⟩, h1, h⟩ := Res.bind_eq_ok.mp h
  cases ok with
  | false => cases h
  | true =>
    simp only [Bool.true_eq_false, if_false] at h
    split at h
    · cases h
    rename_i hb
    obtain ⟨g2, h2, h⟩ := Res.bind_eq_ok.mp h
    cases h
    obtain ⟨a, syms, b, c⟩ := Sess.begin h1 (not_not.mp hb) h2
    exact ⟨a, Or.inr rfl, syms, b, c.mode _⟩

/-- finishing the symbol -/
theorem Sess.finishBlock' {z : Cz} {g g' : Gx} {m : Nat} {d : SymDesc} {rs : List Rec} {l : List Given} (h : Sess g m d rs l) (hn : (g.majorPos : Int) + 80 ≤ g.nextWrite)
    (hs : g.stat = .write) (hd : finishBlock z g = .ok g') :
    g'.mode = .wInit ∧ ∃ s, d.Of s ∧ SymLog s l ∧ Kept z m s rs g' := by
  obtain ⟨syms, s, e1, e2, e3, e4⟩ := h.blk.finish hn hd
  obtain ⟨syms', s', f1, f2, f3, f4⟩ := h.sym
  rw [e1] at f1
  cases f1
  rw [e2] at f2
  cases f2
  obtain ⟨h0, k, _, _, _, _, _, rfl⟩ := finishBlock_ok hd
  refine ⟨rfl, { s with dataCount := rs.length, errors := g.errCnt }, ⟨f3.name, f3.dim, f3.typ, f3.ui⟩, ⟨f4.typ, f4.txt, f4.bits⟩, hs,
    Or.inl (Or.inl rfl), fun hw => absurd (show Writing .wInit from hw) (by decide), ?_⟩
  refine ⟨_, _, e3, ?_, SymSame.refl _, e4⟩
  rw [List.getElem?_set_self (List.getElem?_eq_some_iff.mp e2).1]

theorem Sess.finishBlock {z : Cz} {g g' : Gx} {m : Nat} {d : SymDesc} {rs : List Rec} {l : List Given} (h : Sess g m d rs l) (hi : Inv g)
    (hs : g.stat = .write) (hd : Gdx.finishBlock z g = .ok g') :
    g'.mode = .wInit ∧ ∃ s, d.Of s ∧ SymLog s l ∧ Kept z m s rs g' := h.finishBlock' (hi.head hs).next hs hd

theorem Sess.done {z : Cz} {g g' : Gx} {m : Nat} {d : SymDesc} {rs : List Rec} {l : List Given} {b : Bool} (h : Sess g m d rs l)
    (hr : RawMode g.mode) (hi : Inv g) (hs : g.stat = .write) (hd : dataWriteDone z g = .ok (g', b)) :
    b = true ∧ g'.mode = .wInit ∧ ∃ s, d.Of s ∧ SymLog s l ∧ Kept z m s rs g' := by
  have hd' : dataWriteDone z g = (Gdx.finishBlock z g >>= fun g => .ok (g, true)) := by
    unfold dataWriteDone
    rcases chk_cases g [.wRaw, .wMap, .wStr, .wDomRaw, .wDomMap, .wDomStr] with ⟨hm, hc⟩ | ⟨hm, hc⟩
    · simp only [hc, Bool.true_eq_false, if_false]
      rw [if_pos (show g.mode = .wRaw ∨ g.mode = .wDomRaw from hr)]
      rfl
    · rcases hr with hr | hr <;> simp [hr] at hm
  rw [hd'] at hd
  obtain ⟨g1, h1, hd⟩ := Res.bind_eq_ok.mp hd
  cases hd
  obtain ⟨a, b⟩ := h.finishBlock hi hs h1
  exact ⟨rfl, a, b⟩

theorem Sym.reopened_same (s : Sym) : SymSame { s with bitmap := none } s.reopened := ⟨rfl, rfl, rfl, rfl, rfl, rfl, rfl, rfl, rfl, rfl⟩

theorem StoredAs.reopened {z : Cz} {f : List UInt8} {lo hi : Int} {s : Sym} {rs : List Rec} (h : StoredAs z f lo hi s rs) :
    StoredAs z f lo hi s.reopened rs := by
  obtain ⟨h1, h2, h3, h4, h5⟩ := h
  exact ⟨h1, h2, h3, h4, h5⟩

/-- closing the file leaves the data where they are -/
theorem StoredAs.close {z : Cz} {g g' : Gx} {r : Int} (hi : Inv g) (hm : g.mode = .wInit) (hs : g.stat = .write)
    (hc : gdxClose z g = .ok (g', r)) {s : Sym} {rs : List Rec} (h : StoredAs z g.file (g.majorPos + 80) g.nextWrite s rs) :
    ∃ hi', StoredAs z g'.file (g.majorPos + 80) hi' s rs := by
  have hnext := (hi.head hs).next
  unfold gdxClose at hc
  have e1 : finishWrite z g = .ok g := by unfold finishWrite; rw [hm, if_neg (by decide)]
  rw [e1] at hc
  simp only [Res.bind_ok] at hc
  have e2 : saveIf z g = saveFile z g := by unfold saveIf; rw [if_pos hm]
  rw [e2] at hc
  obtain ⟨g1, hg1, hc⟩ := Res.bind_eq_ok.mp hc
  cases hc
  unfold saveFile at hg1
  rw [if_neg (by omega)] at hg1
  obtain ⟨t, ht, hg1⟩ := Res.bind_eq_ok.mp hg1
  cases hg1
  refine ⟨g.nextWrite, ?_⟩
  show StoredAs z (splice (splice g.file g.nextWrite.toNat t.all) g.majorPos (indexBytes g.nextWrite t)) _ _ _ _
  refine (h.behind (by omega) (le_refl _) t.all).before _ ?_
  rw [indexBytes_length]
  omega

/-- A finished symbol in the reopened file -/
theorem Kept.reopen {z : Cz} (hz : z.Good) {m : Nat} {s0 : Sym} {rs : List Rec} {g g' : Gx} {r : Int} (hk : Kept z m s0 rs g)
    (ht : s0.typ ≤ 3) (hi : Inv g) (hm : g.mode = .wInit) (hc : gdxClose z g = .ok (g', r)) (hf : FileFits g)
    (hl : (g'.file.length : Int) ≤ 9223372036854775807) (g0 : Gx) (h0 : g0.mode = .notOpen) (h1 : g0.mapText = none)
    (h2 : g0.nextAuto ≤ 0) (rm : Int) :
    ∃ g2 s, openReadXX z g0 (.content g'.file) rm = .ok (g2, (true, 0)) ∧ Reopened rm g g'.file g2 ∧ OpenKeep rm g0 g2 ∧
      SymSame { s0 with bitmap := none } s ∧ HasData z g2 m s rs := by
  obtain ⟨g2, ho, hr, hp⟩ := close_open hz hi hm hk.stat hc hf hl g0 h0 rm
  obtain ⟨syms, s, e1, e2, e3, e4⟩ := hk.sym
  obtain ⟨hi', h4⟩ := StoredAs.close hi hm hk.stat hc e4
  refine ⟨g2, s.reopened, ho, hr, hp, ?_, ?_⟩
  · exact ⟨e3.name, e3.pos, e3.dim, e3.typ, e3.ui, e3.cnt, e3.errs, e3.txt, e3.compr, rfl⟩
  · refine ⟨?_, ?_, ?_, hr.opn, hr.ver, ?_, ?_, ?_, ?_⟩
    · obtain ⟨l, f1, f2⟩ := hr.names
      rw [e1] at f1
      cases f1
      exact ⟨_, f2, by rw [List.getElem?_map, e2]; rfl⟩
    · rw [hr.file]
      exact ⟨_, _, h4.reopened⟩
    · show s.typ ≤ 3
      rw [e3.typ]
      exact ht
    · rw [hr.filt]; rfl
    · obtain ⟨l, _, f2⟩ := hr.acros
      rw [f2]; rfl
    · rw [hp.nextAuto]; exact h2
    · rw [hp.mapText]; exact h1

end Gdx
