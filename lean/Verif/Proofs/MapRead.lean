import Verif.Proofs.MapStatus
import Verif.Props.Reads

/-! The mapped reader for stored symbols and for the universe. -/

namespace Gdx
open Gdx.Spec Gdx.Props

theorem enc_frsts {d thr nv : Nat} {ps : List PosDesc} {p : Option (List Int)} {rs : List Rec} {out : List UInt8} (h : Enc d thr nv ps p rs out) (l : Loads) :
    (∀ k, p = some k → k.length = d) → FrstsOk d p (rawOuts l d p rs) := by
  induction h with
  | nil => exact fun _ => trivial
  | @cons p r rs b out hk hb hf h ih =>
    intro hp
    refine ⟨?_, ih fun k hk => by cases hk; exact hf.len⟩
    unfold FrstOk
    simp only
    by_cases hd : d = 0
    · subst hd
      refine ⟨Or.inr rfl, ?_, ?_, ?_⟩
      · cases p <;> simp [dimFrst]
      · rintro rfl; simp [dimFrst]
      · rintro k rfl; simp [dimFrst]
    · cases p with
      | none =>
        simp only [dimFrst, if_neg hd]
        exact ⟨Or.inl (by omega), by omega, fun _ => by omega, by rintro k ⟨⟩⟩
      | some q =>
        simp only [dimFrst, if_neg hd]
        have hlt := (hf.ord.resolve_left hd) q rfl
        have hlq := hp q rfl
        have hlr := hf.len
        obtain ⟨c1, c2, c3⟩ := findIdx_first q r.key (by rw [hlq, hlr]) (ne_of_lt hlt)
        have hle : firstChange q r.key ≤ d := by
          by_contra hgt
          obtain ⟨a, b, c2, _, _⟩ := c2
          rw [List.getElem?_eq_none (by omega)] at c2
          cases c2
        refine ⟨Or.inl c1, hle, (by rintro ⟨⟩), ?_⟩
        rintro k ⟨⟩
        refine List.ext_getElem? fun i => ?_
        rw [List.getElem?_take, List.getElem?_take]
        split
        · have := c3 (i + 1) (by omega) (by omega)
          simpa using this
        · rfl

theorem recPairs_keys (outs : List (RecOut Int)) : (recPairs outs).map Prod.fst = outs.map RecOut.key := by
  unfold recPairs
  rw [List.map_map]
  rfl

/-- Start of a mapped read of a symbol that has a record or a dimension -/
theorem HasData.startMapped {z : Cz} (hz : z.Good) {g : Gx} {m : Nat} {s : Sym} {rs : List Rec} (h : HasData z g m s rs) (hm : g.mode = .rInit)
    {nr : Int} (ht : Targets g nr m) (hne : s.dim ≠ 0 ∨ rs ≠ []) {acts : List Int} (hl : s.dim.toNat ≤ acts.length) {das : List DAct}
    (ha : ∀ l, g.filters = some l → domActs l (acts.take s.dim.toNat) = some das) :
    ∃ g0, prepareRead z g nr acts .rMap = prepareMapped g0 rs.length ∧ At g0 m s none rs ∧ g0.nd = s.dim.toNat ∧ g0.doms = das ∧
      g0.prev = List.replicate s.dim.toNat (-1) ++ g.prev.drop s.dim.toNat ∧ g0.dataSize = dataTypSize s.typ ∧ RdSame g g0 := by
  obtain ⟨lo, hi, hd⟩ := h.data
  have hdim := hd.dim
  have hcnt := hd.cnt
  rw [h.prepare hm ht hl ha]
  obtain ⟨nr, bs, out, t, h1, h2, h3, h4, h5⟩ := hd.header hz
  unfold prepareData
  rw [h1, rdStrE_encStr (by decide)]
  simp only [ne_eq, not_true_eq_false, if_false]
  have hb : (UInt8.ofNat s.dim.toNat).toNat = s.dim.toNat := by
    rw [UInt8.toNat_ofNat']
    omega
  simp only [rdOk, wrByte, List.cons_append, List.nil_append, rdByte_cons, need, Res.bind_ok]
  rw [hb, if_neg (by simp only [Gx.atBlock, not_not]; omega), rdInt_wrInt _ h2]
  simp only [Res.bind_ok]
  have hc : ¬ ((g.atBlock m s das).curDim = 0 ∧ s.dataCount = 0) := by
    rintro ⟨e1, e2⟩
    rcases hne with hne | hne
    · exact hne e1
    · exact hne (List.length_eq_zero_iff.mp (by omega))
  rw [if_neg hc]
  have hnd : (g.atBlock m s das).nd = bs.length := h3.symm
  rw [hnd, decBounds_encBounds _ h4]
  simp only [Res.bind_ok, if_true]
  refine ⟨_, by rw [hcnt], ?_, rfl, rfl, by rw [h3]; rfl, rfl, ?_⟩
  · refine ⟨rfl, rfl, h.names, ⟨rfl, hdim⟩, rfl, rfl, ⟨out, t, rfl, h5⟩, ⟨?_, by rintro l ⟨⟩⟩, h.acros, h.auto, h.text, rfl⟩
    simp [Gx.nd, Gx.atBlock, h3]
  · exact ⟨rfl, rfl, rfl, rfl, rfl, rfl, rfl, rfl, rfl, rfl, rfl, rfl, rfl, rfl, rfl, rfl, rfl, rfl, rfl⟩

theorem At.enc {g : Gx} {m : Nat} {s : Sym} {rs : List Rec} (h : At g m s none rs) (l : Loads) : FrstsOk g.nd none (rawOuts l g.nd none rs) := by
  obtain ⟨out, t, _, he⟩ := h.rest
  exact enc_frsts he l (by rintro k ⟨⟩)

theorem rawOuts_vals (l : Loads) (d : Nat) : ∀ (rs : List Rec) (p : Option (List Int)) (o : RecOut Int), o ∈ rawOuts l d p rs →
    ∃ r ∈ rs, o.key = r.key ∧ o.vals = r.vals.map l.val
  | [], _, _, h => by cases h
  | r :: rs, p, o, h => by
    rcases List.mem_cons.mp h with rfl | h
    · exact ⟨r, by simp, rfl, rfl⟩
    · obtain ⟨x, hx, e⟩ := rawOuts_vals l d rs _ o h
      exact ⟨x, by simp [hx], e⟩

/-- What a mapped read delivers and leaves behind -/
structure MappedRead (g : Gx) (u : Uel) (das : List DAct) (prev key : List Int) (cnt : Int) (outs : List (RecOut Int)) (g1 : Gx) (n : Int) : Prop where
  res : ∃ g2 out u2, DeliversMap g1 key (mapOuts prev out) g2 ∧
      Ordered (streams u das) (mapAll (das.map DAct.act) u.users (recPairs outs)).2 out ∧
      n = (if streams u das then cnt else out.length) ∧ g1.mode = (if streams u das then .rMapR else .rMap) ∧
      g2.uel = some u2 ∧ u2.users = (mapAll (das.map DAct.act) u.users (recPairs outs)).1 ∧ MapOk u2 ∧ u2.size = u.size ∧ u2.strs = u.strs ∧
      g2.mode = g1.mode ∧ g2.nrMapped = u2.usr.highest - u.usr.highest

theorem HasData.mapped {z : Cz} (hz : z.Good) {g : Gx} {m : Nat} {s : Sym} {rs : List Rec} (h : HasData z g m s rs) (hm : g.mode = .rInit)
    {nr : Int} (ht : Targets g nr m) (hne : s.dim ≠ 0 ∨ rs ≠ []) {acts : List Int} (hl : s.dim.toNat ≤ acts.length) {das : List DAct}
    (ha : ∀ l, g.filters = some l → domActs l (acts.take s.dim.toNat) = some das) (hdl : das.length = s.dim.toNat) {u : Uel} (hu : g.uel = some u) (ho : MapOk u)
    (hin : ∀ r ∈ rs, ∀ e ∈ r.key, 1 ≤ e ∧ e ≤ u.size) {key : List Int} (hk : key.length = s.dim.toNat) :
    ∃ g1 n, prepareRead z g nr acts .rMap = .ok (g1, n) ∧
      MappedRead g u das (List.replicate s.dim.toNat (-1) ++ g.prev.drop s.dim.toNat) key rs.length (rawOuts g.loads s.dim.toNat none rs) g1 n := by
  obtain ⟨g0, e1, e2, e3, e4, e5, e6, e7⟩ := h.startMapped hz hm ht hne hl ha
  obtain ⟨x, l, f1⟩ := At.feeds rs e2
  have e2' : At { g0 with last := List.replicate g0.nd (-1), mode := .rMapR } m s none rs :=
    ⟨e2.uni, e2.cur, e2.sym, e2.dim, e2.scal, e2.delta, e2.rest, ⟨List.length_replicate .., by rintro l ⟨⟩⟩, e2.acros, e2.auto, e2.text, e2.nrm⟩
  obtain ⟨x', l', f2⟩ := At.feeds rs e2'
  rw [e7.loads] at f1
  have hlo : ({ g0 with last := List.replicate g0.nd (-1), mode := .rMapR } : Gx).loads = g.loads := e7.loads
  rw [hlo] at f2
  have hfr := e2.enc g.loads
  obtain ⟨out, t, _, he⟩ := e2.rest
  obtain ⟨g1, g2, o, u2, n, a1, a2, a3, a4, a5, a6, a7, a8, a9, a10, a11, a12⟩ := prepareMapped_spec f1 f2 (e7.uel.trans hu) ho (by rw [e4, hdl, e3]) (by
    intro o ho
    obtain ⟨r, hr, b1, b2⟩ := rawOuts_vals _ _ _ _ _ ho
    have := he.fits r hr
    rw [b1, b2, List.length_map]
    exact ⟨this.1, hin r hr, this.2.2.1⟩) hfr (by rw [e2.cur]; simp) e2.scal (by rw [hk, e3]) rs.length
  rw [e4, e3] at *
  rw [e2.nrm] at a12
  rw [e5] at a2
  refine ⟨g1, n, e1.trans a1, ⟨g2, o, u2, a2, a3, a4, a5, a6, a7, a8, a9, a10, a11, by omega⟩⟩

theorem universe_mapped {z : Cz} {g : Gx} (hm : g.mode = .rInit) (hf : g.filters.isSome = true) {nr : Int} (ht : TargetsUniverse g nr)
    (ho : 0 ≤ g.uelOrig ∧ g.uelOrig < intMax) {acts : List Int} {das : List DAct} (hl : 1 ≤ acts.length)
    (ha : ∀ l, g.filters = some l → domActs l (acts.take 1) = some das) (hdl : das.length = 1) {u : Uel} (hu : g.uel = some u) (hok : MapOk u)
    (hsz : g.uelOrig ≤ u.size) {key : List Int} (hk : key.length = 1) :
    ∃ g1 n, prepareRead z g nr acts .rMap = .ok (g1, n) ∧ MappedRead g u das g.prev key g.uelOrig (universeOuts 0 g.uelOrig.toNat) g1 n := by
  obtain ⟨syms, h1, h2, h3, h4⟩ := ht
  obtain ⟨fl, hf⟩ := Option.isSome_iff_exists.mp hf
  have hrun : ∃ g0, prepareRead z g nr acts .rMap = prepareMapped g0 g.uelOrig ∧ AtUniverse g0 0 g.uelOrig.toNat ∧ g0.doms = das ∧ g0.prev = g.prev ∧
      g0.cur = .none ∧ g0.scalarFrst = false ∧ g0.uel = g.uel ∧ g0.dataSize = 1 := by
    unfold prepareRead
    rw [prepareStart_init hm]
    simp only [Res.bind_ok, Bool.true_eq_false, if_false, hf, h1, need]
    rw [if_neg (by omega), h4]
    simp only [Res.bind_ok]
    rw [if_neg (by omega), ha fl hf]
    simp only [if_true]
    refine ⟨_, rfl, ⟨rfl, rfl, ?_, ho.2, rfl, rfl⟩, rfl, rfl, rfl, rfl, rfl, rfl⟩
    show g.uelOrig = ((0 + g.uelOrig.toNat : Nat) : Int)
    omega
  obtain ⟨g0, e1, e2, e3, e4, e5, e6, e7, e8⟩ := hrun
  have hnd : g0.nd = 1 := by unfold Gx.nd; rw [e2.dim]; rfl
  obtain ⟨g', f1, _⟩ := AtUniverse.feeds _ _ e2
  obtain ⟨g'', f2, _⟩ := AtUniverse.feeds _ _ (g := { g0 with last := List.replicate g0.nd (-1), mode := .rMapR }) ⟨e2.uni, e2.nr, e2.orig, e2.lt, e2.dim, e2.nrm⟩
  have hrec : ∀ k n, ∀ o ∈ universeOuts n k, ∃ j : Nat, n ≤ j ∧ j < n + k ∧ o = ⟨[(j : Int) + 1], [Dbl.zero], 1⟩ := by
    intro k
    induction k with
    | zero => intro n o h; cases h
    | succ k ih =>
      intro n o h
      rcases List.mem_cons.mp h with rfl | h
      · exact ⟨n, by omega, by omega, rfl⟩
      · obtain ⟨j, b1, b2, b3⟩ := ih (n + 1) o h
        exact ⟨j, by omega, by omega, b3⟩
  have hfrst : ∀ k n p, FrstsOk 1 p (universeOuts n k) := by
    intro k
    induction k with
    | zero => intro n p; trivial
    | succ k ih => exact fun n p => ⟨⟨Or.inl (Nat.le_refl _), Nat.le_refl _, fun _ => Nat.le_refl _, fun _ _ => rfl⟩, ih _ _⟩
  obtain ⟨g1, g2, o, u2, n, a1, a2, a3, a4, a5, a6, a7, a8, a9, a10, a11, a12⟩ := prepareMapped_spec f1 f2 (e7.trans hu) hok (by rw [e3, hdl, hnd]) (by
    intro o ho
    obtain ⟨j, b1, b2, rfl⟩ := hrec _ _ o ho
    refine ⟨hnd.symm, ?_, e8.symm⟩
    intro e he
    rw [List.mem_singleton.mp he]
    omega) (by rw [hnd]; exact hfrst _ _ _) (by rw [e5]; simp) e6 (by rw [hk, hnd]) g.uelOrig
  rw [e3] at *
  rw [e2.nrm] at a12
  rw [e4] at a2
  exact ⟨g1, n, e1.trans a1, ⟨g2, o, u2, a2, a3, a4, a5, a6, a7, a8, a9, a10, a11, by omega⟩⟩

end Gdx
