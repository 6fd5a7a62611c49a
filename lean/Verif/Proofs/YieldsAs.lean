import Verif.Proofs.Trace

/-! What DoRead yields for the symbols that are in a file, whatever reader started it. -/

namespace Gdx

/-- Reading symbol `nr` without mapping yields the records `outs`, whatever unmapped reader starts it, now or later (while the tables
    stay as they are). -/
def YieldsAs (z : Cz) (g : Gx) (nr dim : Int) (outs : List (RecOut Int)) : Prop :=
  ∀ g0, RdSame g g0 → g0.mode = .rInit → ∀ nm, nm ≠ Mode.rMap → ∃ g1 g2 n,
    prepareRead z g0 nr (List.replicate 20 domcUnmapped) nm = .ok (g1, n) ∧ 0 ≤ n ∧ Yields g1 outs g2 ∧ g1.curDim = dim ∧ RdSame g0 g1 ∧
      RdSame g0 g2

theorem YieldsAs.congr {z : Cz} {g g' : Gx} {nr dim : Int} {outs : List (RecOut Int)} (h : YieldsAs z g nr dim outs) (hs : RdSame g g') :
    YieldsAs z g' nr dim outs := fun g0 h0 => h g0 (hs.trans h0)

theorem At.yields {m : Nat} {s : Sym} : ∀ (rs : List Rec) {g : Gx} {p : Option (List Int)}, At g m s p rs →
    ∃ x l, Yields g (rawOuts g.loads g.nd p rs) { g with rest := x, last := l }
  | [], g, p, h => by
    obtain ⟨x, hx⟩ := h.done
    exact ⟨x, g.last, .done hx⟩
  | r :: rs, g, p, h => by
    obtain ⟨x, hx, h1, h2⟩ := h.next
    obtain ⟨y, l, hy⟩ := At.yields rs h1
    refine ⟨y, l, ?_⟩
    have := Yields.next hx hy
    unfold recOf at this
    rw [show (({ g with rest := x, last := r.key } : Gx).last.take ({ g with rest := x, last := r.key } : Gx).nd) = r.key by
      show r.key.take g.nd = r.key
      rw [← h2, List.take_length]] at this
    exact this

theorem HasData.yieldsAs {z : Cz} (hz : z.Good) {g : Gx} {m : Nat} {s : Sym} {rs : List Rec} (h : HasData z g m s rs) {nr : Int}
    (ht : Targets g nr m) : YieldsAs z g nr s.dim (rawAll g.loads s rs) := by
  intro g0 h0 hm nm hnm
  have h := h.congr h0
  have ht := ht.congr h0
  have hdim : 0 ≤ s.dim := by
    obtain ⟨lo, hi, hd⟩ := h.data
    exact hd.dim.1
  rw [← h0.loads]
  unfold rawAll
  by_cases hc : s.dim = 0 ∧ rs = []
  · obtain ⟨hd, rfl⟩ := hc
    obtain ⟨g1, e1, e2, e3, e4, e5, e6⟩ := h.startScalar hz hm ht nm hd (List.replicate 20 domcUnmapped)
    obtain ⟨x, l, hy⟩ := e3.yields []
    refine ⟨g1, { g1 with scalarFrst := false, rest := x, last := l }, 1, e1, by omega, ?_, e3.dim.1.symm, e6, e6.trans ⟨rfl, rfl, rfl, rfl, rfl, rfl, rfl, rfl, rfl, rfl, rfl, rfl, rfl, rfl, rfl, rfl, rfl, rfl, rfl⟩⟩
    · rw [if_pos ⟨hd, rfl⟩]
      have hcs : g1.curSym = .ok s := e3.curSym
      have hdr : doRead g1 = .ok ({ g1 with scalarFrst := false }, some (0, defaultRecord g1.rsv s)) := by
        have hu : ¬ g1.rdUniverse = true := by rw [show g1.rdUniverse = false from e3.uni]; decide
        unfold doRead
        rw [if_neg hu, hcs]
        simp only [Res.bind_ok, if_pos e2]
        rfl
      have := Yields.next hdr hy
      unfold recOf at this
      rw [show ({ g1 with scalarFrst := false } : Gx).nd = 0 from e5, List.take_zero] at this
      rw [show g0.loads.rsv = g1.rsv from e6.rsv.symm]
      exact this
  · obtain ⟨g1, e1, e2, e3, e4, e5⟩ := h.start hz hm ht (nm := nm) hnm (by
      by_cases h0 : s.dim = 0
      · exact Or.inr fun h1 => hc ⟨h0, h1⟩
      · exact Or.inl h0)
    obtain ⟨x, l, hy⟩ := e2.yields rs
    rw [e4, e5.loads] at hy
    rw [if_neg hc]
    exact ⟨g1, _, rs.length, e1, by omega, hy, e2.dim.1.symm, e5, e5.trans ⟨rfl, rfl, rfl, rfl, rfl, rfl, rfl, rfl, rfl, rfl, rfl, rfl, rfl, rfl, rfl, rfl, rfl, rfl, rfl⟩⟩

theorem AtUniverse.yields : ∀ (k n : Nat) {g : Gx}, AtUniverse g n k → ∃ g', Yields g (universeOuts n k) g' ∧ RdSame g g'
  | 0, n, g, h => by
    have h1 := h.orig
    have h2 := h.nr
    have h3 := h.lt
    refine ⟨{ g with universeNr := g.universeNr + 1 }, .done ?_,
      ⟨rfl, rfl, rfl, rfl, rfl, rfl, rfl, rfl, rfl, rfl, rfl, rfl, rfl, rfl, rfl, rfl, rfl, rfl, rfl⟩⟩
    unfold doRead
    rw [if_pos h.uni, if_neg (by omega), if_neg (by omega)]
    rfl
  | k + 1, n, g, h => by
    have h1 := h.orig
    have h2 := h.nr
    have h3 := h.lt
    have hd := h.dim
    have hn : AtUniverse { g with universeNr := g.universeNr + 1, last := [g.universeNr + 1] } (n + 1) k :=
      ⟨h.uni, by show g.universeNr + 1 = _; push_cast; omega, by show g.uelOrig = _; rw [h1]; push_cast; omega, h.lt, h.dim, h.nrm⟩
    obtain ⟨g', e1, e2⟩ := AtUniverse.yields k (n + 1) hn
    have hr : doRead g = .ok ({ g with universeNr := g.universeNr + 1, last := [g.universeNr + 1] }, some (1, [Dbl.zero])) := by
      unfold doRead
      rw [if_pos h.uni, if_neg (by omega), if_pos (by omega)]
      rfl
    refine ⟨g', ?_, (RdSame.mk rfl rfl rfl rfl rfl rfl rfl rfl rfl rfl rfl rfl rfl rfl rfl rfl ⟨rfl, rfl, rfl⟩ : RdSame g { g with universeNr := g.universeNr + 1, last := [g.universeNr + 1] }).trans e2⟩
    have := Yields.next hr e1
    unfold recOf at this
    rw [show ({ g with universeNr := g.universeNr + 1, last := [g.universeNr + 1] } : Gx).nd = 1 by show g.curDim.toNat = 1; rw [hd]; rfl] at this
    unfold universeOuts
    rw [show ({ g with universeNr := g.universeNr + 1, last := [g.universeNr + 1] } : Gx).last.take 1 = [(n : Int) + 1] by
      show [g.universeNr + 1] = _
      rw [h2]] at this
    exact this

theorem universe_yieldsAs {z : Cz} {g : Gx} (hf : g.filters.isSome = true) {nr : Int} (ht : TargetsUniverse g nr)
    (ho : 0 ≤ g.uelOrig ∧ g.uelOrig < intMax) : YieldsAs z g nr 1 (universeOuts 0 g.uelOrig.toNat) := by
  intro g0 h0 hm nm hnm
  have ht : TargetsUniverse g0 nr := by
    obtain ⟨syms, a, b⟩ := ht
    exact ⟨syms, h0.names.trans a, b⟩
  obtain ⟨g1, e1, e2, e3, e4⟩ := universe_prepare (z := z) hm (by rw [h0.filt]; exact hf) ht (by rw [h0.orig]; exact ho) hnm
  obtain ⟨g2, e5, e6⟩ := e2.yields _ _
  rw [h0.orig] at e5 e1
  exact ⟨g1, g2, _, e1, ho.1, e5, e2.dim, e4, e4.trans e6⟩

end Gdx
