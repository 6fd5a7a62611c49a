import Verif.Proofs.Reading

/-!
Starting to read a stored symbol.
-/

namespace Gdx

open Spec

/-- What reading a symbol does not change -/
structure RdSame (g g' : Gx) : Prop where
  names : g'.names = g.names
  file : g'.file = g.file
  opn : g'.opened = g.opened
  ver : g'.verRead = g.verRead
  filt : g'.filters = g.filters
  acros : g'.acros = g.acros
  auto : g'.nextAuto = g.nextAuto
  text : g'.mapText = g.mapText
  uel : g'.uel = g.uel
  orig : g'.uelOrig = g.uelOrig
  sv : g'.sv = g.sv
  rsv : g'.rsv = g.rsv
  nan : g'.acrNaN = g.acrNaN
  texts : g'.texts = g.texts
  doms : g'.domStrs = g.domStrs
  stat : g'.stat = g.stat
  err : g'.lastErr = g.lastErr ∧ g'.errCnt = g.errCnt ∧ g'.errTotal = g.errTotal

theorem RdSame.trans {a b c : Gx} (h : RdSame a b) (k : RdSame b c) : RdSame a c :=
  ⟨k.names.trans h.names, k.file.trans h.file, k.opn.trans h.opn, k.ver.trans h.ver, k.filt.trans h.filt, k.acros.trans h.acros,
    k.auto.trans h.auto, k.text.trans h.text, k.uel.trans h.uel, k.orig.trans h.orig, k.sv.trans h.sv, k.rsv.trans h.rsv,
    k.nan.trans h.nan, k.texts.trans h.texts, k.doms.trans h.doms, k.stat.trans h.stat,
    k.err.1.trans h.err.1, k.err.2.1.trans h.err.2.1, k.err.2.2.trans h.err.2.2⟩

theorem RdSame.loads {g g' : Gx} (h : RdSame g g') : g'.loads = g.loads := by
  unfold Gx.loads
  rw [h.rsv]
  congr 1
  funext d
  unfold plainRemap
  rw [h.sv, h.nan, h.acros]

theorem readEnd_same (g : Gx) (x : List UInt8) (l : List Int) : RdSame g (readEnd g x l) :=
  ⟨rfl, rfl, rfl, rfl, rfl, rfl, rfl, rfl, rfl, rfl, rfl, rfl, rfl, rfl, rfl, rfl, rfl, rfl, rfl⟩

/-- An object that has a file open for reading in which symbol `m` (from 0) holds the records `rs` -/
structure HasData (z : Cz) (g : Gx) (m : Nat) (s : Sym) (rs : List Rec) : Prop where
  names : ∃ syms, g.names = some syms ∧ syms[m]? = some s
  data : ∃ lo hi, StoredAs z g.file lo hi s rs
  typ : s.typ ≤ 3
  opn : g.opened = true
  ver : g.verRead = 7
  filt : g.filters.isSome = true
  acros : g.acros.isSome = true
  auto : g.nextAuto ≤ 0
  text : g.mapText = none

theorem HasData.congr {z : Cz} {g g' : Gx} {m : Nat} {s : Sym} {rs : List Rec} (h : HasData z g m s rs) (e : RdSame g g') :
    HasData z g' m s rs where
  names := by rw [e.names]; exact h.names
  data := by rw [e.file]; exact h.data
  typ := h.typ
  opn := by rw [e.opn]; exact h.opn
  ver := by rw [e.ver]; exact h.ver
  filt := by rw [e.filt]; exact h.filt
  acros := by rw [e.acros]; exact h.acros
  auto := by rw [e.auto]; exact h.auto
  text := by rw [e.text]; exact h.text

theorem domActs_unmapped (l : List Filt) (n : Nat) :
    domActs l (List.replicate n domcUnmapped) = some (List.replicate n DAct.unmapped) := by
  induction n with
  | zero => rfl
  | succ n ih =>
    rw [List.replicate_succ]
    unfold domActs
    rw [if_pos rfl, ih]
    rfl

theorem readTarget_sym {syms : List Sym} {m : Nat} {s : Sym} (hs : syms[m]? = some s) (ht : s.typ ≤ 3) :
    readTarget syms ((m : Int) + 1) = .ok (some (m + 1)) := by
  unfold readTarget
  rw [if_neg (by omega), at1_nat hs]
  simp only [Res.bind_ok]
  rw [if_neg (by rw [dtAlias]; omega), show ((m : Int) + 1).toNat = m + 1 by omega]
  rfl

/-- reading symbol number `nr` means reading the data of symbol `m` (from 0) -/
def Targets (g : Gx) (nr : Int) (m : Nat) : Prop :=
  ∃ syms, g.names = some syms ∧ 1 ≤ nr ∧ nr ≤ syms.length ∧ readTarget syms nr = .ok (some (m + 1))

theorem prepareStart_init {g : Gx} (hm : g.mode = .rInit) :
    prepareStart g = .ok ({ g with nrMapped := 0, errList := none, cur := .none, sort := none }, true) := by
  unfold prepareStart finishRead
  rw [if_neg (by rw [hm]; decide)]
  simp only [Res.bind_ok]
  rcases chk_cases ({ g with nrMapped := 0, errList := none, cur := .none, sort := none } : Gx) [.rInit] with ⟨_, hc⟩ | ⟨hc, _⟩
  · simp only [hc, Bool.true_eq_false, if_false]
    rfl
  · exact absurd (by simp [hm]) hc

theorem HasData.self {z : Cz} {g : Gx} {m : Nat} {s : Sym} {rs : List Rec} (h : HasData z g m s rs) : Targets g ((m : Int) + 1) m := by
  obtain ⟨syms, h1, h2⟩ := h.names
  have := (List.getElem?_eq_some_iff.mp h2).1
  exact ⟨syms, h1, by omega, by omega, readTarget_sym h2 h.typ⟩

theorem Targets.congr {g g' : Gx} {nr : Int} {m : Nat} (h : Targets g nr m) (e : RdSame g g') : Targets g' nr m := by
  unfold Targets
  rw [e.names]
  exact h

/-- the object at the beginning of a data block -/
def Gx.atBlock (g : Gx) (m : Nat) (s : Sym) (acts : List DAct) : Gx :=
  { g with
    nrMapped := 0
    errList := none
    sort := none
    rdUniverse := false
    cur := .sym (m + 1)
    curDim := s.dim
    dataSize := dataTypSize s.typ
    deltaRead := s.dim.toNat
    doms := acts }

theorem HasData.prepare {z : Cz} {g : Gx} {m : Nat} {s : Sym} {rs : List Rec} (h : HasData z g m s rs) (hm : g.mode = .rInit)
    {nr : Int} (ht : Targets g nr m) {acts : List Int} (hl : s.dim.toNat ≤ acts.length) {das : List DAct} (ha : ∀ l, g.filters = some l → domActs l (acts.take s.dim.toNat) = some das)
    (nm : Mode) :
    prepareRead z g nr acts nm =
      prepareData (g.atBlock m s das) (z.rd s.compr (g.file.drop s.pos.toNat)) s.dataCount nm := by
  obtain ⟨syms, h1, h2⟩ := h.names
  obtain ⟨lo, hi, hd⟩ := h.data
  obtain ⟨fl, hf⟩ := Option.isSome_iff_exists.mp h.filt
  obtain ⟨syms', ht1, ht2, ht3, ht4⟩ := ht
  rw [h1] at ht1
  cases ht1
  have hty := h.typ
  have hdim := hd.dim
  have hpos := hd.pos
  unfold prepareRead
  rw [prepareStart_init hm]
  simp only [Res.bind_ok, Bool.true_eq_false, if_false, hf, h1, need]
  rw [if_neg (by omega), ht4]
  simp only [Res.bind_ok]
  rw [show ((m + 1 : Nat) : Int) = (m : Int) + 1 by push_cast; rfl, at1_nat h2]
  simp only [Res.bind_ok]
  rw [if_neg (by rw [show maxDim = 20 from rfl]; omega), if_neg (by rw [h.opn]; simp; omega), ha fl hf]
  simp only [h.ver]
  rw [show (decide (nr = 0)) = false from decide_eq_false (by omega)]
  simp only [Gx.atBlock, hf, h1, h.ver, show ¬ ((7 : Int) ≤ 6) by decide, if_false]

/-- the header of the block -/
theorem StoredAs.header {z : Cz} (hz : z.Good) {f : List UInt8} {lo hi : Int} {s : Sym} {rs : List Rec}
    (h : StoredAs z f lo hi s rs) : ∃ nr bs out t, z.rd s.compr (f.drop s.pos.toNat) =
      encStr markData ++ (wrByte (UInt8.ofNat s.dim.toNat) ++ (wrInt nr ++ (encBounds bs ++ (out ++ 255 :: t)))) ∧ I32 nr ∧
      bs.length = s.dim.toNat ∧ (∀ b ∈ bs, I32 b.1 ∧ I32 b.2) ∧
      Enc s.dim.toNat s.dim.toNat (dataTypSize s.typ) (bs.map posDesc) none rs out := by
  obtain ⟨bytes, t, h1, _, nr, bs, out, hn, hl, hb, rfl, he⟩ := h.data
  have hx : ∃ u, z.rd s.compr (z.wr s.compr (encBlockHeader s.dim.toNat nr bs ++ out ++ [255]) ++ t) =
      encBlockHeader s.dim.toNat nr bs ++ out ++ [255] ++ u := by
    unfold Cz.rd Cz.wr
    cases s.compr with
    | true => exact hz _ t
    | false => exact ⟨t, by simp⟩
  obtain ⟨u, hu⟩ := hx
  refine ⟨nr, bs, out, u, ?_, hn, hl, hb, he⟩
  rw [h1, hu]
  simp [encBlockHeader, List.append_assoc]

/-- Start of an unmapped read of a symbol that has a record or a dimension -/
theorem HasData.start {z : Cz} (hz : z.Good) {g : Gx} {m : Nat} {s : Sym} {rs : List Rec} (h : HasData z g m s rs) (hm : g.mode = .rInit)
    {nr : Int} (ht : Targets g nr m) {nm : Mode} (hnm : nm ≠ .rMap) (hne : s.dim ≠ 0 ∨ rs ≠ []) :
    ∃ g', prepareRead z g nr (List.replicate 20 domcUnmapped) nm = .ok (g', rs.length) ∧ At g' m s none rs ∧
      g'.mode = nm ∧ g'.nd = s.dim.toNat ∧ RdSame g g' := by
  obtain ⟨lo, hi, hd⟩ := h.data
  have hdim := hd.dim
  have hcnt := hd.cnt
  rw [h.prepare hm ht (by rw [List.length_replicate]; omega) (das := List.replicate s.dim.toNat DAct.unmapped) (by
    intro l _
    rw [List.take_replicate, Nat.min_eq_left (by omega), domActs_unmapped])]
  obtain ⟨nr, bs, out, t, h1, h2, h3, h4, h5⟩ := hd.header hz
  unfold prepareData
  rw [h1, rdStrE_encStr (by decide)]
  simp only [ne_eq, not_true_eq_false, if_false]
  have hb : (UInt8.ofNat s.dim.toNat).toNat = s.dim.toNat := by
    rw [UInt8.toNat_ofNat']
    omega
  simp only [rdOk, wrByte, List.cons_append, List.nil_append, rdByte_cons, need, Res.bind_ok]
  rw [hb, if_neg (by simp only [Gx.atBlock, not_not]; omega), rdInt_wrInt _ h2]
  simp only [Res.bind_ok]
  have hc : ¬ ((g.atBlock m s (List.replicate s.dim.toNat DAct.unmapped)).curDim = 0 ∧ s.dataCount = 0) := by
    rintro ⟨e1, e2⟩
    rcases hne with hne | hne
    · exact hne e1
    · exact hne (List.length_eq_zero_iff.mp (by omega))
  rw [if_neg hc]
  have hnd : (g.atBlock m s (List.replicate s.dim.toNat DAct.unmapped)).nd = bs.length := h3.symm
  rw [hnd, decBounds_encBounds _ h4]
  simp only [Res.bind_ok, if_neg hnm]
  refine ⟨_, by rw [hcnt]; rfl, ?_, rfl, rfl, ?_⟩
  · refine ⟨rfl, rfl, h.names, ⟨rfl, hdim⟩, rfl, rfl, ⟨out, t, rfl, h5⟩, ⟨?_, by rintro l ⟨⟩⟩, h.acros, h.auto, h.text, rfl⟩
    simp [Gx.nd]
  · exact ⟨rfl, rfl, rfl, rfl, rfl, rfl, rfl, rfl, rfl, rfl, rfl, rfl, rfl, rfl, rfl, rfl, rfl, rfl, rfl⟩

/-- Start of a read of a scalar without a record -/
theorem HasData.startScalar {z : Cz} (hz : z.Good) {g : Gx} {m : Nat} {s : Sym} (h : HasData z g m s []) (hm : g.mode = .rInit)
    {nr : Int} (ht : Targets g nr m) (nm : Mode) (h0 : s.dim = 0) (acts : List Int) :
    ∃ g', prepareRead z g nr acts nm = .ok (g', 1) ∧ g'.scalarFrst = true ∧
      At { g' with scalarFrst := false } m s none [] ∧ g'.mode = nm ∧ g'.nd = 0 ∧ RdSame g g' := by
  obtain ⟨lo, hi, hd⟩ := h.data
  have hdim := hd.dim
  have hcnt := hd.cnt
  rw [h.prepare hm ht (by omega) (das := []) (by
    intro l _
    rw [h0]
    rfl)]
  obtain ⟨nr, bs, out, t, h1, h2, h3, h4, h5⟩ := hd.header hz
  unfold prepareData
  rw [h1, rdStrE_encStr (by decide)]
  simp only [ne_eq, not_true_eq_false, if_false]
  have hb : (UInt8.ofNat s.dim.toNat).toNat = s.dim.toNat := by
    rw [UInt8.toNat_ofNat']
    omega
  simp only [rdOk, wrByte, List.cons_append, List.nil_append, rdByte_cons, need, Res.bind_ok]
  rw [hb, if_neg (by simp only [Gx.atBlock, not_not]; omega), rdInt_wrInt _ h2]
  simp only [Res.bind_ok]
  rw [if_pos ⟨h0, by rw [hcnt]; rfl⟩]
  have hbs : bs = [] := List.length_eq_zero_iff.mp (by rw [h3, h0]; rfl)
  subst hbs
  refine ⟨_, rfl, rfl, ?_, rfl, by show s.dim.toNat = 0; rw [h0]; rfl, ?_⟩
  · refine ⟨rfl, rfl, h.names, ⟨rfl, hdim⟩, rfl, rfl, ⟨out, t, rfl, ?_⟩, ⟨?_, by rintro l ⟨⟩⟩, h.acros, h.auto, h.text, rfl⟩
    · show Enc s.dim.toNat s.dim.toNat (dataTypSize s.typ) ([].map posDesc) none [] out
      exact h5
    · show ([] : List Int).length = s.dim.toNat
      rw [h0]; rfl
  · exact ⟨rfl, rfl, rfl, rfl, rfl, rfl, rfl, rfl, rfl, rfl, rfl, rfl, rfl, rfl, rfl, rfl, rfl, rfl, rfl⟩

/-! ### whole reads -/

/-- the records a reader must get: a scalar without a record has its default record -/
def rawAll (l : Loads) (s : Sym) (rs : List Rec) : List (RecOut Int) :=
  if s.dim = 0 ∧ rs = [] then [⟨[], defaultRecord l.rsv s, 0⟩] else rawOuts l s.dim.toNat none rs

theorem rawOuts_length (l : Loads) (d : Nat) (rs : List Rec) (p : Option (List Int)) : (rawOuts l d p rs).length = rs.length := by
  induction rs generalizing p with
  | nil => rfl
  | cons r rs ih => simp [rawOuts, ih]

theorem HasData.raw {z : Cz} (hz : z.Good) {g : Gx} {m : Nat} {s : Sym} {rs : List Rec} (h : HasData z g m s rs) (hm : g.mode = .rInit)
    {nr : Int} (ht : Targets g nr m) : ∃ g1 g2, dataReadRawStart z g nr = .ok (g1, (true, (rawAll g.loads s rs).length)) ∧
      DeliversRaw g1 (rawAll g.loads s rs) g2 ∧ g2.mode = .rInit ∧ RdSame g g2 := by
  unfold dataReadRawStart rawAll
  by_cases hc : s.dim = 0 ∧ rs = []
  · obtain ⟨h0, rfl⟩ := hc
    obtain ⟨g1, e1, e2, e3, e4, e5, e6⟩ := h.startScalar hz hm ht .rRaw h0 (List.replicate 20 domcUnmapped)
    obtain ⟨x, l, hd⟩ := e3.raw [] e4
    have hl := e6.loads
    refine ⟨g1, readEnd { g1 with scalarFrst := false } x l, ?_, ?_, rfl, ?_⟩
    · rw [e1, if_pos ⟨h0, rfl⟩]; rfl
    · rw [if_pos ⟨h0, rfl⟩]
      refine .next (g1 := { g1 with scalarFrst := false }) ?_ hd
      unfold dataReadRaw
      rcases chk_cases g1 [.rRaw] with ⟨_, hc⟩ | ⟨hc, _⟩
      · have hcs : g1.curSym = .ok s := e3.curSym
        have hdr : doRead g1 = .ok ({ g1 with scalarFrst := false }, some (0, defaultRecord g1.rsv s)) := by
          have hu : ¬ g1.rdUniverse = true := by rw [show g1.rdUniverse = false from e3.uni]; decide
          unfold doRead
          rw [if_neg hu, hcs]
          simp only [Res.bind_ok, if_pos e2]
          rfl
        simp only [hc, Bool.true_eq_false, if_false, hdr, Res.bind_ok]
        rw [show g.loads.rsv = g1.rsv from e6.rsv.symm]
        show (Res.ok (({ g1 with scalarFrst := false } : Gx), some (RecOut.mk (List.take g1.nd g1.last) _ 0)) : Res _) = _
        rw [e5, List.take_zero]
      · exact absurd (by simp [e4]) hc
    · exact e6.trans ⟨rfl, rfl, rfl, rfl, rfl, rfl, rfl, rfl, rfl, rfl, rfl, rfl, rfl, rfl, rfl, rfl, rfl, rfl, rfl⟩
  · obtain ⟨g1, e1, e2, e3, e4, e5⟩ := h.start hz hm ht (nm := .rRaw) (by decide) (by
      by_cases h0 : s.dim = 0
      · exact Or.inr fun h1 => hc ⟨h0, h1⟩
      · exact Or.inl h0)
    obtain ⟨x, l, hd⟩ := e2.raw rs e3
    rw [e4, e5.loads] at hd
    refine ⟨g1, readEnd g1 x l, ?_, ?_, rfl, e5.trans (readEnd_same _ _ _)⟩
    · rw [e1, if_neg hc, rawOuts_length]
      simp only [Res.bind_ok, Res.pure_eq]
      rw [decide_eq_true (by omega)]
    · rw [if_neg hc]; exact hd

theorem HasData.str {z : Cz} (hz : z.Good) {g : Gx} {m : Nat} {s : Sym} {rs : List Rec} (h : HasData z g m s rs) (hm : g.mode = .rInit)
    {nr : Int} (ht : Targets g nr m) {u : Uel} (hu : g.uel = some u) (hs : ∀ x ∈ u.ents, x.1.length < 64) :
    ∃ g1 g2, dataReadStrStart z g nr = .ok (g1, (true, (rawAll g.loads s rs).length)) ∧
      DeliversStr g1 ((rawAll g.loads s rs).map (RecOut.toStr u)) g2 ∧ g2.mode = .rInit ∧ RdSame g g2 := by
  unfold dataReadStrStart rawAll
  by_cases hc : s.dim = 0 ∧ rs = []
  · obtain ⟨h0, rfl⟩ := hc
    obtain ⟨g1, e1, e2, e3, e4, e5, e6⟩ := h.startScalar hz hm ht .rStr h0 (List.replicate 20 domcUnmapped)
    obtain ⟨x, l, hd⟩ := e3.str hs [] e4 (e6.uel.trans hu)
    have hl := e6.loads
    refine ⟨g1, readEnd { g1 with scalarFrst := false } x l, ?_, ?_, rfl, ?_⟩
    · rw [e1, if_pos ⟨h0, rfl⟩]; rfl
    · rw [if_pos ⟨h0, rfl⟩]
      refine .next (g1 := { g1 with scalarFrst := false }) ?_ hd
      unfold dataReadStr
      rcases chk_cases g1 [.rStr] with ⟨_, hc⟩ | ⟨hc, _⟩
      · have hcs : g1.curSym = .ok s := e3.curSym
        have hdr : doRead g1 = .ok ({ g1 with scalarFrst := false }, some (0, defaultRecord g1.rsv s)) := by
          have hu : ¬ g1.rdUniverse = true := by rw [show g1.rdUniverse = false from e3.uni]; decide
          unfold doRead
          rw [if_neg hu, hcs]
          simp only [Res.bind_ok, if_pos e2]
          rfl
        simp only [hc, Bool.true_eq_false, if_false, hdr, Res.bind_ok]
        rw [show g.loads.rsv = g1.rsv from e6.rsv.symm]
        show (elemStrs g1.uel (List.take g1.nd g1.last) >>= fun ks =>
          Res.ok (({ g1 with scalarFrst := false } : Gx), some (RecOut.mk ks _ 0))) = _
        rw [e5, List.take_zero]
        rfl
      · exact absurd (by simp [e4]) hc
    · exact e6.trans ⟨rfl, rfl, rfl, rfl, rfl, rfl, rfl, rfl, rfl, rfl, rfl, rfl, rfl, rfl, rfl, rfl, rfl, rfl, rfl⟩
  · obtain ⟨g1, e1, e2, e3, e4, e5⟩ := h.start hz hm ht (nm := .rStr) (by decide) (by
      by_cases h0 : s.dim = 0
      · exact Or.inr fun h1 => hc ⟨h0, h1⟩
      · exact Or.inl h0)
    obtain ⟨x, l, hd⟩ := e2.str hs rs e3 (e5.uel.trans hu)
    rw [e4, e5.loads] at hd
    refine ⟨g1, readEnd g1 x l, ?_, ?_, rfl, e5.trans (readEnd_same _ _ _)⟩
    · rw [e1, if_neg hc, rawOuts_length]
      simp only [Res.bind_ok, Res.pure_eq]
      rw [decide_eq_true (by omega)]
    · rw [if_neg hc]; exact hd

/-! ### the universe -/

/-- the elements from number `n + 1` on as records -/
def universeOuts : Nat → Nat → List (RecOut Int)
  | _, 0 => []
  | n, k + 1 => ⟨[(n : Int) + 1], [Dbl.zero], 1⟩ :: universeOuts (n + 1) k

structure AtUniverse (g : Gx) (n k : Nat) : Prop where
  uni : g.rdUniverse = true
  nr : g.universeNr = n
  orig : g.uelOrig = (n + k : Nat)
  lt : g.uelOrig < intMax
  dim : g.curDim = 1
  nrm : g.nrMapped = 0

theorem AtUniverse.raw : ∀ (k n : Nat) {g : Gx}, AtUniverse g n k → g.mode = .rRaw →
    ∃ g', DeliversRaw g (universeOuts n k) g' ∧ g'.mode = .rInit ∧ RdSame g g'
  | 0, n, g, h, hm => by
    refine ⟨{ g with universeNr := g.universeNr + 1, sort := none, cur := .none, mode := .rInit }, .done ?_, rfl,
      ⟨rfl, rfl, rfl, rfl, rfl, rfl, rfl, rfl, rfl, rfl, rfl, rfl, rfl, rfl, rfl, rfl, rfl, rfl, rfl⟩⟩
    have h1 := h.orig
    have h2 := h.nr
    have h3 := h.lt
    unfold dataReadRaw
    rcases chk_cases g [.rRaw] with ⟨_, hc⟩ | ⟨hc, _⟩
    · simp only [hc, Bool.true_eq_false, if_false]
      unfold doRead
      rw [if_pos h.uni, if_neg (by omega), if_neg (by omega)]
      simp only [Res.pure_eq, Res.bind_ok]
      rw [dataReadDone_plain]
      · rfl
      · simp [hm]
      · exact h.nrm
    · exact absurd (by simp [hm]) hc
  | k + 1, n, g, h, hm => by
    have h1 := h.orig
    have h2 := h.nr
    have h3 := h.lt
    have h4 : AtUniverse { g with universeNr := g.universeNr + 1, last := [g.universeNr + 1] } (n + 1) k :=
      ⟨h.uni, by show g.universeNr + 1 = _; rw [h2]; push_cast; rfl, by rw [← Nat.add_right_comm, Nat.add_assoc]; exact h1, h3, h.dim, h.nrm⟩
    obtain ⟨g', h5, h6, h7⟩ := AtUniverse.raw k (n + 1) h4 hm
    refine ⟨g', .next ?_ h5, h6, RdSame.trans (b := { g with universeNr := g.universeNr + 1, last := [g.universeNr + 1] })
      ⟨rfl, rfl, rfl, rfl, rfl, rfl, rfl, rfl, rfl, rfl, rfl, rfl, rfl, rfl, rfl, rfl, rfl, rfl, rfl⟩ h7⟩
    unfold dataReadRaw
    rcases chk_cases g [.rRaw] with ⟨_, hc⟩ | ⟨hc, _⟩
    · simp only [hc, Bool.true_eq_false, if_false]
      unfold doRead
      rw [if_pos h.uni, if_neg (by omega), if_pos (by omega)]
      simp only [Res.pure_eq, Res.bind_ok]
      have hnd : g.nd = 1 := by
        show g.curDim.toNat = 1
        rw [h.dim]; rfl
      show (Res.ok (({ g with universeNr := g.universeNr + 1, last := [g.universeNr + 1] } : Gx),
        some (RecOut.mk (List.take g.nd [g.universeNr + 1]) [Dbl.zero] 1)) : Res _) = _
      rw [hnd, h2]
      rfl
    · exact absurd (by simp [hm]) hc

theorem AtUniverse.str {u : Uel} (hs : ∀ x ∈ u.ents, x.1.length < 64) : ∀ (k n : Nat) {g : Gx}, AtUniverse g n k → g.mode = .rStr →
    g.uel = some u → ∃ g', DeliversStr g ((universeOuts n k).map (RecOut.toStr u)) g' ∧ g'.mode = .rInit ∧ RdSame g g'
  | 0, n, g, h, hm, _ => by
    refine ⟨{ g with universeNr := g.universeNr + 1, sort := none, cur := .none, mode := .rInit }, .done ?_, rfl,
      ⟨rfl, rfl, rfl, rfl, rfl, rfl, rfl, rfl, rfl, rfl, rfl, rfl, rfl, rfl, rfl, rfl, rfl, rfl, rfl⟩⟩
    have h1 := h.orig
    have h2 := h.nr
    have h3 := h.lt
    unfold dataReadStr
    rcases chk_cases g [.rStr] with ⟨_, hc⟩ | ⟨hc, _⟩
    · simp only [hc, Bool.true_eq_false, if_false]
      unfold doRead
      rw [if_pos h.uni, if_neg (by omega), if_neg (by omega)]
      simp only [Res.pure_eq, Res.bind_ok]
      rw [dataReadDone_plain]
      · rfl
      · simp [hm]
      · exact h.nrm
    · exact absurd (by simp [hm]) hc
  | k + 1, n, g, h, hm, hu => by
    have h1 := h.orig
    have h2 := h.nr
    have h3 := h.lt
    have h4 : AtUniverse { g with universeNr := g.universeNr + 1, last := [g.universeNr + 1] } (n + 1) k :=
      ⟨h.uni, by show g.universeNr + 1 = _; rw [h2]; push_cast; rfl, by rw [← Nat.add_right_comm, Nat.add_assoc]; exact h1, h3, h.dim, h.nrm⟩
    obtain ⟨g', h5, h6, h7⟩ := AtUniverse.str hs k (n + 1) h4 hm hu
    refine ⟨g', .next ?_ h5, h6, RdSame.trans (b := { g with universeNr := g.universeNr + 1, last := [g.universeNr + 1] })
      ⟨rfl, rfl, rfl, rfl, rfl, rfl, rfl, rfl, rfl, rfl, rfl, rfl, rfl, rfl, rfl, rfl, rfl, rfl, rfl⟩ h7⟩
    unfold dataReadStr
    rcases chk_cases g [.rStr] with ⟨_, hc⟩ | ⟨hc, _⟩
    · simp only [hc, Bool.true_eq_false, if_false]
      unfold doRead
      rw [if_pos h.uni, if_neg (by omega), if_pos (by omega)]
      simp only [Res.pure_eq, Res.bind_ok]
      have hnd : g.nd = 1 := by
        show g.curDim.toNat = 1
        rw [h.dim]; rfl
      show (elemStrs g.uel (List.take g.nd [g.universeNr + 1]) >>= fun ks =>
        Res.ok (({ g with universeNr := g.universeNr + 1, last := [g.universeNr + 1] } : Gx), some (RecOut.mk ks [Dbl.zero] 1))) = _
      rw [hnd, hu, elemStrs_out hs, h2]
      rfl
    · exact absurd (by simp [hm]) hc

/-- reading symbol number `nr` means reading the universe -/
def TargetsUniverse (g : Gx) (nr : Int) : Prop :=
  ∃ syms, g.names = some syms ∧ 0 ≤ nr ∧ nr ≤ syms.length ∧ readTarget syms nr = .ok none

theorem universe_prepare {z : Cz} {g : Gx} (hm : g.mode = .rInit) (hf : g.filters.isSome = true) {nr : Int} (ht : TargetsUniverse g nr)
    (ho : 0 ≤ g.uelOrig ∧ g.uelOrig < intMax) {nm : Mode} (hnm : nm ≠ .rMap) :
    ∃ g', prepareRead z g nr (List.replicate 20 domcUnmapped) nm = .ok (g', g.uelOrig) ∧ AtUniverse g' 0 g.uelOrig.toNat ∧
      g'.mode = nm ∧ RdSame g g' := by
  obtain ⟨syms, h1, h2, h3, h4⟩ := ht
  obtain ⟨fl, hf⟩ := Option.isSome_iff_exists.mp hf
  unfold prepareRead
  rw [prepareStart_init hm]
  simp only [Res.bind_ok, Bool.true_eq_false, if_false, hf, h1, need]
  rw [if_neg (by omega), h4]
  simp only [Res.bind_ok]
  rw [if_neg (by simp), show (List.replicate 20 domcUnmapped).take 1 = List.replicate 1 domcUnmapped from rfl, domActs_unmapped]
  simp only [if_neg hnm]
  refine ⟨_, rfl, ⟨rfl, rfl, ?_, ho.2, rfl, rfl⟩, rfl, ⟨h1.symm, rfl, rfl, rfl, hf.symm, rfl, rfl, rfl, rfl, rfl, rfl, rfl, rfl, rfl, rfl, rfl, rfl, rfl, rfl⟩⟩
  show g.uelOrig = ((0 + g.uelOrig.toNat : Nat) : Int)
  omega

end Gdx
