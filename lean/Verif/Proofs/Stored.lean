import Verif.Proofs.Session
import Verif.Proofs.Phase
import Verif.Proofs.Reopen

/-!
The data block of a finished symbol in the file.
-/

namespace Gdx

/-- `bytes` is a data block with the records `rs` -/
def IsBlock (d nv : Nat) (rs : List Rec) (bytes : List UInt8) : Prop :=
  ∃ nr bs out, I32 nr ∧ bs.length = d ∧ (∀ b ∈ bs, I32 b.1 ∧ I32 b.2) ∧
    bytes = encBlockHeader d nr bs ++ out ++ [255] ∧ Enc d d nv (bs.map posDesc) none rs out

/-- The file `f` holds the records `rs` of symbol `s`, between the positions `lo` and `hi`. -/
structure StoredAs (z : Cz) (f : List UInt8) (lo hi : Int) (s : Sym) (rs : List Rec) : Prop where
  dim : 0 ≤ s.dim ∧ s.dim ≤ 20
  low : lo ≤ s.pos
  pos : 0 ≤ s.pos
  cnt : s.dataCount = rs.length
  data : ∃ bytes t, f.drop s.pos.toNat = z.wr s.compr bytes ++ t ∧ s.pos + (z.wr s.compr bytes).length ≤ hi ∧
    IsBlock s.dim.toNat (dataTypSize s.typ) rs bytes

theorem StoredAs.same {z : Cz} {f : List UInt8} {lo hi : Int} {s s' : Sym} {rs : List Rec} (h : StoredAs z f lo hi s rs)
    (hs : SymSame s s') : StoredAs z f lo hi s' rs := by
  obtain ⟨h1, h2, h3, h4, h5⟩ := h
  refine ⟨?_, ?_, ?_, ?_, ?_⟩
  · rw [hs.dim]; exact h1
  · rw [hs.pos]; exact h2
  · rw [hs.pos]; exact h3
  · rw [hs.cnt]; exact h4
  · rw [hs.pos, hs.dim, hs.typ, hs.compr]; exact h5

/-- writing behind the data -/
theorem StoredAs.behind {z : Cz} {f : List UInt8} {lo hi hi' : Int} {s : Sym} {rs : List Rec} (h : StoredAs z f lo hi s rs)
    {p : Nat} (hp : hi ≤ p) (hh : hi ≤ hi') (bs : List UInt8) : StoredAs z (splice f p bs) lo hi' s rs := by
  obtain ⟨h1, h2, h3, h4, bytes, t, h5, h6, h7⟩ := h
  refine ⟨h1, h2, h3, h4, bytes, ?_⟩
  suffices hx : ∃ t', (splice f p bs).drop s.pos.toNat = z.wr s.compr bytes ++ t' by
    obtain ⟨t', ht⟩ := hx
    exact ⟨t', ht, by omega, h7⟩
  by_cases hl : s.pos.toNat ≤ f.length
  · have hf : f = (f.take s.pos.toNat ++ z.wr s.compr bytes) ++ t := by
      rw [List.append_assoc, ← h5, List.take_append_drop]
    obtain ⟨t', ht⟩ := splice_prefix (f.take s.pos.toNat ++ z.wr s.compr bytes) t p bs (by
      rw [List.length_append, List.length_take]; omega)
    rw [← hf] at ht
    refine ⟨t', ?_⟩
    rw [ht, List.append_assoc, List.drop_append_of_le_length (by rw [List.length_take]; omega),
      List.drop_eq_nil_of_le (by rw [List.length_take]; omega)]
    rfl
  · rw [List.drop_eq_nil_of_le (by omega)] at h5
    have h8 := (List.append_eq_nil_iff.mp h5.symm).1
    rw [h8]
    exact ⟨_, rfl⟩

/-- writing in front of the data -/
theorem StoredAs.before {z : Cz} {f : List UInt8} {lo hi : Int} {s : Sym} {rs : List Rec} (h : StoredAs z f lo hi s rs)
    {p : Nat} (bs : List UInt8) (hp : (p + bs.length : Int) ≤ lo) : StoredAs z (splice f p bs) lo hi s rs := by
  obtain ⟨h1, h2, h3, h4, bytes, t, h5, h6, h7⟩ := h
  refine ⟨h1, h2, h3, h4, bytes, t, ?_, h6, h7⟩
  rw [splice_drop_behind _ _ _ _ (by omega)]
  exact h5

theorem StoredAs.mono {z : Cz} {f : List UInt8} {lo hi hi' : Int} {s : Sym} {rs : List Rec} (h : StoredAs z f lo hi s rs)
    (hh : hi ≤ hi') : StoredAs z f lo hi' s rs := by
  obtain ⟨h1, h2, h3, h4, bytes, t, h5, h6, h7⟩ := h
  exact ⟨h1, h2, h3, h4, bytes, t, h5, by omega, h7⟩

/-! ### beginning and ending a block -/

theorem initDoWrite_ok {g g' : Gx} {n : Int} (h : initDoWrite g n = .ok g') :
    0 ≤ g.nextWrite ∧ (∀ b ∈ g.bounds, I32 b.1 ∧ I32 b.2) ∧ I32 n ∧ ∃ m syms s, g.cur = .sym (m + 1) ∧ g.names = some syms ∧
      syms[m]? = some s ∧ g' = { g with
        names := some (syms.set m { s with pos := g.nextWrite })
        dataCount := 0
        last := List.replicate g.nd indexInitial
        blk := encBlockHeader g.nd n g.bounds } := by
  unfold initDoWrite at h
  split at h
  · cases h
  rename_i hc
  push Not at hc
  obtain ⟨g1, h1, h2⟩ := Res.bind_eq_ok.mp h
  cases h2
  obtain ⟨m, syms, s, e1, e2, e3, rfl⟩ := modCur_ok h1
  exact ⟨hc.1, hc.2.1, hc.2.2, m, syms, s, e1, e2, e3, rfl⟩

/-- a symbol has been prepared for writing -/
structure Begun (g : Gx) (m : Nat) : Prop where
  cur : g.cur = .sym (m + 1)
  sym : ∃ syms s, g.names = some syms ∧ syms[m]? = some s ∧ s.dim = g.curDim ∧ g.dataSize = dataTypSize s.typ
  dim : 0 ≤ g.curDim ∧ g.curDim ≤ 20
  bl : g.bounds.length = g.nd

theorem Begun.initDoWrite {g g' : Gx} {n : Int} {m : Nat} (hb : Begun g m) (h : initDoWrite g n = .ok g') : Blk g' m [] := by
  obtain ⟨h1, h2, h3, m', syms, s, e1, e2, e3, rfl⟩ := initDoWrite_ok h
  obtain ⟨c, ⟨syms', s', f1, f2, f3, f4⟩, d, bl⟩ := hb
  rw [c] at e1
  cases e1
  rw [f1] at e2
  cases e2
  rw [f2] at e3
  cases e3
  refine ⟨c, ?_, d, bl, h2, ?_, rfl, by decide, ?_, h1⟩
  · refine ⟨_, { s with pos := g.nextWrite }, rfl, ?_, f3, f4, rfl⟩
    rw [List.getElem?_set, if_pos rfl, if_pos (List.getElem?_eq_some_iff.mp f2).1]
  · exact LastSeen.init (dim := g.nd)
  · exact ⟨n, [], h3, by simp [Gx.nd], .nil _⟩

theorem finishBlock_ok {z : Cz} {g g' : Gx} (h : finishBlock z g = .ok g') :
    0 ≤ g.nextWrite ∧ ∃ m syms s, g.cur = .sym (m + 1) ∧ g.names = some syms ∧ syms[m]? = some s ∧
      g' = { ({ g with names := some (syms.set m { s with dataCount := g.dataCount, errors := g.errCnt }) } : Gx).put
        g.nextWrite.toNat (z.wr s.compr (g.blk ++ [255])) with
        nextWrite := g.nextWrite + (z.wr s.compr (g.blk ++ [255])).length
        errCnt := 0
        mode := .wInit
        cur := .none
        blk := [] } := by
  unfold finishBlock at h
  obtain ⟨s, h1, h⟩ := Res.bind_eq_ok.mp h
  split at h
  · cases h
  rename_i hc
  obtain ⟨g1, h2, h⟩ := Res.bind_eq_ok.mp h
  cases h
  obtain ⟨m, syms, e1, e2, e3⟩ := curSym_ok h1
  obtain ⟨m', syms', s', f1, f2, f3, rfl⟩ := modCur_ok h2
  rw [e1] at f1
  cases f1
  rw [e2] at f2
  cases f2
  rw [e3] at f3
  cases f3
  exact ⟨by omega, m, syms, s, e1, e2, e3, rfl⟩

/-- the symbol that is finished -/
theorem Blk.finish {z : Cz} {g g' : Gx} {m : Nat} {rs : List Rec} (hb : Blk g m rs) (hlo : (g.majorPos : Int) + 80 ≤ g.nextWrite)
    (h : finishBlock z g = .ok g') :
    ∃ syms s, g.names = some syms ∧ syms[m]? = some s ∧
      g'.names = some (syms.set m { s with dataCount := rs.length, errors := g.errCnt }) ∧
      StoredAs z g'.file (g'.majorPos + 80) g'.nextWrite { s with dataCount := rs.length, errors := g.errCnt } rs := by
  obtain ⟨h0, m', syms, s, e1, e2, e3, rfl⟩ := finishBlock_ok h
  obtain ⟨syms', s', f1, f2, f3, f4, f5⟩ := hb.sym
  rw [hb.cur] at e1
  cases e1
  rw [f1] at e2
  cases e2
  rw [f2] at e3
  cases e3
  refine ⟨syms, s, f1, f2, ?_, ?_⟩
  · show some (syms.set m { s with dataCount := g.dataCount, errors := g.errCnt }) = _
    rw [hb.cnt]
  · obtain ⟨nr, out, i1, i2, i3⟩ := hb.enc
    refine ⟨by rw [f3]; exact hb.dim, ?_, ?_, rfl, g.blk ++ [255], ?_⟩
    · show (g.majorPos : Int) + 80 ≤ s.pos
      rw [f5]; exact hlo
    · show 0 ≤ s.pos
      rw [f5]; exact h0
    show ∃ t, (splice g.file g.nextWrite.toNat (z.wr s.compr (g.blk ++ [255]))).drop s.pos.toNat = _ ++ t ∧
      s.pos + (z.wr s.compr (g.blk ++ [255])).length ≤ g.nextWrite + (z.wr s.compr (g.blk ++ [255])).length ∧
      IsBlock s.dim.toNat (dataTypSize s.typ) rs (g.blk ++ [255])
    have hib : IsBlock s.dim.toNat (dataTypSize s.typ) rs (g.blk ++ [255]) := by
      rw [f3, ← f4]
      exact ⟨nr, g.bounds, out, i1, hb.bl, hb.b32, by rw [i2]; rfl, i3⟩
    by_cases hw : z.wr s.compr (g.blk ++ [255]) = []
    · rw [hw]
      exact ⟨_, rfl, by simp [f5], hib⟩
    · rw [f5]
      exact ⟨_, splice_drop_at _ _ _ hw, le_refl _, hib⟩

end Gdx
