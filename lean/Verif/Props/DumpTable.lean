import Verif.Proofs.DumpTable
import Verif.Props.DumpCsv

/-!
C69: gdxdump with CDim writes a table whose columns are the last indices.
-/

namespace Gdx.Props
open Gdx Gdx.Dump Gdx.DblStr Gdx.Diff Gdx.Spec

/-- what stands in the cell of a record: `Y` for an element of a set, the text of the (level) value otherwise -/
def CellText (o : Dump.Opt) (a : Gx) (typ : Nat) (r : RecOut Int) (t : Str) : Prop :=
  if typ = dtSet ∨ typ = dtAlias then t = [89] else ∃ v vs, r.vals = v :: vs ∧ ValueText o a v t

theorem chain_of {dim : Nat} (hd : dim ≠ 0) {outs : List (RecOut Int)} (h : FirstsOk dim (keysOf outs)) : outs.IsChain fun a b => FirstDiff a.key b.key b.frst := by
  rw [List.isChain_iff_getElem]
  intro i hi
  have := h (i + 1) (outs[i + 1]).key (outs[i + 1]).frst (by simp [keysOf, List.getElem?_eq_getElem hi])
  rw [if_neg hd] at this
  obtain ⟨p, p1, p2⟩ := this
  rw [keysOf, List.getElem?_map, List.getElem?_eq_getElem (by omega)] at p1
  cases p1
  exact p2

theorem delims_joined {d : UInt8} (ns : List Str) (ks : List Str) (hk : ks ≠ []) : (ns.map fun s => qqcsv d s ++ [d]).flatten ++ joined d ks = joined d (ns.map (qqcsv d) ++ ks) := by
  induction ns with
  | nil => rfl
  | cons n ns ih =>
    rw [List.map_cons, List.flatten_cons, List.append_assoc, ih, List.map_cons, List.cons_append]
    have : ns.map (qqcsv d) ++ ks ≠ [] := by simp [hk]
    generalize ns.map (qqcsv d) ++ ks = l at this
    cases l with
    | nil => exact absurd rfl this
    | cons s ss => rfl

/-- C69: With CDim the text is, for a reader of CSV, a table. The columns after the names of the first dimensions are the last indices that occur, in the order of their
    numbers; there is a line for every beginning of a key, in the order of the file; the cell of a line and a column has the text of the record with this key and
    is empty if there is none. -/
theorem C69_table {o : Dump.Opt} (ho : OptOk o) {z : Cz} (hz : z.Good) {a : Gx} (ha : Fresh a) {nr : Int} {d : SymDesc} {xs : List RawEntry} (h : HoldsSym z a nr d xs)
    (ht : symTyp (symbolInfo a nr).typ = d.typ) (ht3 : d.typ ≤ 3) {ds : List Str} (hd : DomsOk a nr ds) (hc : o.cdim = true) (hd2 : 2 ≤ d.dim)
    (hr : ∀ outs, Delivered a.rsv (acrOf a) d xs outs → ∀ r ∈ outs, CanDump o a (symbolInfo a nr).typ r) {fuel : Nat} (hf : xs.length < fuel) :
    ∃ outs names us heads leads rows g' text, Delivered a.rsv (acrOf a) d xs outs ∧ NamesOf ds names ∧
      us.Pairwise (· < ·) ∧ (∀ u, u ∈ us ↔ ∃ r ∈ outs, r.key[d.dim.toNat - 1]? = some u) ∧ List.Forall₂ (LabelIs a) us heads ∧
      writeCSV o z fuel a nr = .ok (g', text) ∧
      csvRead o.delim text = some ((if o.showHdr = true then [names.take (d.dim.toNat - 1) ++ (if outs = [] then [[]] else heads)] else []) ++ rows) ∧
      IsTable (CellText o a (symbolInfo a nr).typ) a d.dim.toNat us outs leads rows := by
  obtain ⟨m, ld, tg⟩ := h.sym
  obtain ⟨outs, o1, ⟨g1, g2, s1, s2, s3, s4⟩, -⟩ := ld.reads hz tg
  obtain ⟨hall, hlen⟩ := vals_length h o1
  obtain ⟨c, hget⟩ := hd.get
  have hdim : (symbolInfo a nr).dim.toNat = d.dim.toNat := by rw [h.info]
  have hds : ds.length ≤ 20 := by
    rw [hd.len, hdim]
    have := h.dim
    omega
  obtain ⟨names, n1, n2, _⟩ := domNames_spec ds [] [] 1 ⟨rfl, (fun i s t hh => by cases hh), (fun i j s t _ hh => by cases hh)⟩ (by simpa using hds) (by simp)
  rw [List.nil_append] at n2
  have haw := o1
  unfold Delivered at haw
  rw [if_neg (by omega)] at haw
  generalize hD : d.dim.toNat = dim at *
  have hdd : 2 ≤ dim := by omega
  have hord : InOrder dim outs := by
    refine ⟨fun r hr' => (hall r hr').2.1, ?_, chain_of (by omega) (hD ▸ haw.frst)⟩
    have := haw.sorted (by omega)
    rwa [List.pairwise_map] at this
  have hlast : ∀ r ∈ outs, ∃ x, lastOf dim r = some x ∧ 1 ≤ x ∧ x ≤ (systemInfo a).2 := by
    intro r hr'
    have hl := (hall r hr').2.1
    have hlt : dim - 1 < r.key.length := by omega
    have := (hall r hr').2.2 _ (List.getElem_mem hlt)
    exact ⟨_, List.getElem?_eq_getElem hlt, this⟩
  obtain ⟨f1, f2⟩ := dataReadRawStart_fix ha.auto ha.nrm s1
  -- the columns
  have hsys : (systemInfo g1).2 = (systemInfo a).2 := by
    have := (View.of_fixed f1).uel
    unfold systemInfo
    cases h1 : g1.uel with
    | none =>
      rw [h1] at this
      cases h2 : a.uel with
      | none => rfl
      | some u => rw [h2] at this; cases this
    | some u =>
      rw [h1] at this
      cases h2 : a.uel with
      | none => rw [h2] at this; cases this
      | some u' =>
        rw [h2] at this
        have : u.ents = u'.ents := Option.some.inj this
        simp [Uel.size, this]
  obtain ⟨ms, cnt, high, m1, m2, m3⟩ := colScan_ok (dim := dim) (by omega) s2 (f := fuel) (ms := List.replicate (systemInfo g1).2.toNat false) (cnt := 0) (high := 0) (by omega)
    (by
      intro r hr'
      obtain ⟨x, x1, x2, x3⟩ := hlast r hr'
      refine ⟨x, x1, x2, ?_⟩
      rw [List.length_replicate, hsys]
      omega) ⟨by omega, by
      intro i hi
      rw [List.getElem?_replicate] at hi
      split at hi
      · cases hi
      · cases hi⟩
  have hms : ∀ i : Nat, ms[i]? = some true ↔ ∃ r ∈ outs, lastOf dim r = some ((i : Int) + 1) := by
    intro i
    rw [m3]
    constructor
    · rintro (hi | hi)
      · rw [List.getElem?_replicate] at hi
        split at hi <;> cases hi
      · exact hi
    · exact Or.inr
  obtain ⟨u1, u2⟩ := colUels_spec m2
  have hmem : ∀ u, u ∈ colUels ms high ↔ ∃ r ∈ outs, lastOf dim r = some u := by
    intro u
    rw [u2]
    constructor
    · rintro ⟨i, rfl, hi⟩
      exact (hms i).mp hi
    · rintro ⟨r, hr', hu⟩
      obtain ⟨x, x1, x2, _⟩ := hlast r hr'
      rw [x1] at hu
      cases hu
      refine ⟨(u - 1).toNat, by omega, (hms _).mpr ⟨r, hr', ?_⟩⟩
      rw [x1]
      congr 1
      omega
  generalize hus : colUels ms high = us at u1 hmem
  obtain ⟨heads, hheads⟩ := forall₂_of (R := LabelIs a) (l := us) fun u hu => by
    obtain ⟨r, hr', hu⟩ := (hmem u).mp hu
    obtain ⟨x, x1, x2, x3⟩ := hlast r hr'
    rw [x1] at hu
    cases hu
    exact label_of ha ⟨x2, x3⟩
  have hfix2 : g2.fixed = a.fixed := (delivers_fixed s2 (by rw [RFix.auto f1]; exact ha.auto) ((congrArg Fixed.nrm f1).trans ha.nrm)).trans f1
  have hdone := dataReadDone_plain (g := g2) (by rw [s3]; simp) ((congrArg Fixed.nrm hfix2).trans ha.nrm)
  have ld2 := loaded_idle ld hfix2
  have tg2 := targets_fixed tg hfix2
  obtain ⟨outs', o2, ⟨g3, g4, v1, v2, v3, v4⟩, -⟩ := ld2.reads hz tg2
  have hacr : acrOf (idle g2) = acrOf a := by
    have e1 : (idle g2).acros = a.acros := congrArg Fixed.acros hfix2
    have e2 : (idle g2).acrNaN = a.acrNaN := congrArg Fixed.nan hfix2
    have e3 : (idle g2).sv = a.sv := congrArg Fixed.sv hfix2
    funext x
    unfold acrOf plainRemap
    rw [e1, e2, e3]
  have hrsv : (idle g2).rsv = a.rsv := congrArg Fixed.rsv hfix2
  rw [hacr, hrsv] at o2
  rw [← Delivered.unique ld.sv o1 o2] at v1 v2
  have hidle : (idle g2).fixed = a.fixed := hfix2
  obtain ⟨w1, w2⟩ := dataReadRawStart_fix (g := idle g2) (by rw [RFix.auto hidle]; exact ha.auto) ((congrArg Fixed.nrm hidle).trans ha.nrm) v1
  have hfix3 : g3.fixed = a.fixed := w1.trans hidle
  have hau3 : g3.nextAuto ≤ 0 := by rw [RFix.auto hfix3]; exact ha.auto
  have hnr3 : g3.nrMapped = 0 := (congrArg Fixed.nrm hfix3).trans ha.nrm
  have hfix4 : g4.fixed = a.fixed := (delivers_fixed v2 hau3 hnr3).trans hfix3
  have hdone4 := dataReadDone_plain (g := g4) (by rw [v3]; simp) ((congrArg Fixed.nrm hfix4).trans ha.nrm)
  have hdelim : o.delim ≠ 89 := by
    rcases ho.delim with hh | hh | hh | hh <;> rw [hh] <;> decide
  -- the cells
  have hcells : ∀ r ∈ outs, ∃ t, CellIs o a (symbolInfo a nr).typ r t ∧ CellText o a (symbolInfo a nr).typ r t := by
    intro r hr'
    unfold CellIs CellText
    by_cases hty : (symbolInfo a nr).typ = dtSet ∨ (symbolInfo a nr).typ = dtAlias
    · simp only [if_pos hty]
      exact ⟨[89], rfl, rfl⟩
    · simp only [if_neg hty]
      have hvl : 1 ≤ r.vals.length := by
        rw [(hall r hr').1]
        interval_cases d.typ <;> decide
      match hv : r.vals, hvl with
      | v :: vs, _ =>
        have hin : v ∈ shown o (symbolInfo a nr).typ r.vals := by
          unfold shown
          rw [hv]
          split <;> simp
        obtain ⟨t, t1, t2⟩ := val_text ho ((hr outs o1 r hr').vals (fun hh => hty (Or.inl hh)) (fun hh => hty (Or.inr hh)) v hin)
        exact ⟨t, ⟨v, vs, rfl, t1⟩, v, vs, rfl, t2⟩
  have hsame : ∀ r ∈ outs, ∀ t, CellIs o a (symbolInfo a nr).typ r t → CellText o a (symbolInfo a nr).typ r t := by
    intro r hr' t ht'
    obtain ⟨t2, e1, e2⟩ := hcells r hr'
    have : t = t2 := by
      unfold CellIs at ht' e1
      split at ht'
      · rename_i hty
        rw [if_pos hty] at e1
        rw [ht', e1]
      · rename_i hty
        rw [if_neg hty] at e1
        obtain ⟨v, vs, q1, q2, _⟩ := ht'
        obtain ⟨v', vs', q1', q2', _⟩ := e1
        rw [q1] at q1'
        cases q1'
        rw [q2] at q2'
        cases q2'
        rfl
    rw [this]
    exact e2
  -- the lines
  have hlines : ∃ g5 r5 leads lines rows, dataReadRaw g3 = .ok (g5, r5) ∧ colLines o dim (symbolInfo a nr).typ us fuel fuel g5 r5 = .ok (g4, lines.flatten, 0) ∧
      List.Forall₂ (IsLine o.delim) lines rows ∧ IsTable (CellIs o a (symbolInfo a nr).typ) a dim us outs leads rows := by
    cases v2 with
    | done hh =>
      refine ⟨g4, none, [], [], [], hh, ?_, .nil, ⟨by simp, by simp, .nil⟩⟩
      cases fuel <;> rfl
    | next hh hrest =>
      rename_i g5 r rs
      have fx := dataReadRaw_fix hau3 hnr3 hh
      obtain ⟨leads, lines, rows, q1, q2, q3⟩ := colLines_ok (typ := (symbolInfo a nr).typ) (g0 := a) (fc := fuel) ho.no34 ho.no10 hdelim hdd u1 (rs.length + 1) rs r g5 fuel (by omega) hrest
        (fx.fix.trans hfix3) ha.auto ha.nrm hord (fun r' hr' => by
          obtain ⟨x, x1, _⟩ := hlast r' hr'
          obtain ⟨t, t1, _⟩ := hcells r' hr'
          refine ⟨⟨x, x1, (hmem x).mpr ⟨r', hr', x1⟩⟩, ⟨t, t1⟩, ?_⟩
          exact forall₂_of (R := LabelIs a) fun e he => label_of ha ((hall r' hr').2.2 e (List.mem_of_mem_take he))) (by simp at hlen; omega) (by simp at hlen; omega)
      exact ⟨g5, some r, leads, lines, rows, hh, q1, q2, q3⟩
  obtain ⟨g5, r5, leads, lines, rows, l1, l2, l3, l4⟩ := hlines
  have htab : IsTable (CellText o a (symbolInfo a nr).typ) a dim us outs leads rows := by
    refine ⟨l4.sorted, l4.mem, l4.rows.imp ?_⟩
    rintro l row ⟨ls, ts, q1, q2, q3⟩
    refine ⟨ls, ts, q1, q2, q3.imp ?_⟩
    rintro u t (⟨r, e1, e2, e3⟩ | hh)
    · exact Or.inl ⟨r, e1, e2, hsame r e1 t e3⟩
    · exact Or.inr hh
  -- the header
  have hkeys : csvKeys o (idle g2) us = .ok (heads.map (qqcsv o.delim), 0) := csvKeys_ok (hheads.imp fun _ _ hh => (View.of_fixed hidle).label hh)
  have hhead : ∃ hs : List Str, colHead o (idle g2) dim names us = .ok (hs.flatten, 0) ∧
      List.Forall₂ (IsLine o.delim) hs (if o.showHdr = true then [names.take (dim - 1) ++ (if outs = [] then [[]] else heads)] else []) := by
    unfold colHead
    rw [ho.header]
    by_cases hs : o.showHdr = true
    · simp only [if_pos hs, hkeys, Res.bind_ok, Res.pure_eq]
      have hl := n2.len.trans hd.len
      have hne : (names.take (dim - 1)).map (qqcsv o.delim) ≠ [] := by
        intro hcc
        rw [List.map_eq_nil_iff] at hcc
        have := congrArg List.length hcc
        rw [List.length_take, List.length_nil] at this
        omega
      have hpr := names_printable hd.print n2
      have hnf : List.Forall₂ (IsField o.delim) ((names.take (dim - 1)).map (qqcsv o.delim)) (names.take (dim - 1)) := by
        have hp : ∀ s ∈ names.take (dim - 1), Printable s := fun s hs' => hpr s (List.mem_of_mem_take hs')
        generalize names.take (dim - 1) = ns at hp
        clear hne
        induction ns with
        | nil => exact .nil
        | cons n ns ih => exact .cons (field_of (hp n (by simp))) (ih fun s hs' => hp s (by simp [hs']))
      refine ⟨[_], by rw [List.flatten_singleton], .cons ?_ .nil⟩
      by_cases hou : outs = []
      · have hu0 : us = [] := by
          rw [List.eq_nil_iff_forall_not_mem]
          intro u hu
          obtain ⟨r, hr', _⟩ := (hmem u).mp hu
          rw [hou] at hr'
          cases hr'
        have hh0 : heads = [] := by
          rw [hu0] at hheads
          cases hheads
          rfl
        rw [if_pos hou, hh0]
        have := line_of ho.no34 ho.no10 (forall₂_append hnf (.cons (bare_field (d := o.delim) (t := []) (by intro c hc'; cases hc')) .nil)) (by simp)
        rw [← delims_joined _ _ (by simp)] at this
        simpa [joined] using this
      · have hh0 : heads ≠ [] := by
          rintro rfl
          cases hheads
          obtain ⟨r, hr'⟩ := List.exists_mem_of_ne_nil outs hou
          obtain ⟨x, x1, _⟩ := hlast r hr'
          have := (hmem x).mpr ⟨r, hr', x1⟩
          cases this
        rw [if_neg hou]
        have := line_of ho.no34 ho.no10 (forall₂_append hnf (labels_fields hheads)) (by simp [hh0])
        rw [← delims_joined _ _ (by simpa using hh0)] at this
        simpa using this
    · simp only [if_neg hs]
      exact ⟨[], rfl, .nil⟩
  obtain ⟨hs, hs1, hs2⟩ := hhead
  refine ⟨outs, names, us, heads, leads, rows, { g4 with sort := none, cur := .none, mode := .rInit }, hs.flatten ++ lines.flatten, o1, n2, u1, hmem, hheads, ?_, ?_, htab⟩
  · unfold writeCSV
    dsimp only
    rw [hget, Res.bind_ok]
    have n1' : domNames [] 1 ds = .ok names := n1
    simp only [n1', Res.bind_ok]
    rw [if_pos ⟨hc, by omega⟩, hdim]
    unfold csvTable
    simp only [s1, Res.bind_ok]
    rw [m1]
    simp only [Res.bind_ok, hdone]
    rw [hus]
    have hs1' : colHead o { g2 with sort := none, cur := .none, mode := .rInit } dim names us = _ := hs1
    have v1' : dataReadRawStart z { g2 with sort := none, cur := .none, mode := .rInit } nr = _ := v1
    simp only [hs1', v1', Res.bind_ok, l1, l2, hdone4, Res.pure_eq]
    simp [badLine]
  · have := csvRead_lines (forall₂_append hs2 l3)
    simpa using this

/-- C69 for a file of the library: the object gdxdump opens delivers the records that were written, and its table has them. -/
theorem C69_own {o : Dump.Opt} (ho : OptOk o) {e : Env} {z : Cz} (hz : z.Good) {g : Gx} {syms : List Sym} {R : Nat → List RawEntry} {f : List UInt8} (h : OwnFile e z g syms R f)
    (hacr : ∀ l, g.acros = some l → ∀ x ∈ l, Bare o.delim x.saveName ∧ x.saveName.length ≤ 255) {n : Nat} {s : Sym} (hs : syms[n]? = some s)
    (hc : o.cdim = true) (hd2 : 2 ≤ s.dim) :
    ∃ a outs, openRead z Gx.new (.content f) = .ok (a, (true, 0)) ∧ a.uel.map Uel.strs = g.uel.map Uel.strs ∧
      Delivered SVTab.default (acrOf a) (contentOf syms R ((n : Int) + 1)).1 (contentOf syms R ((n : Int) + 1)).2 outs ∧
      ((∀ r ∈ outs, ∀ v ∈ r.vals, ∃ q, v.fv = .fin q ∧ (q ≠ 0 → Nearest15 (o.dtoa v) q)) →
       ((s.typ = dtSet ∨ s.typ = dtAlias) → o.setText = true → ∀ r ∈ outs, ∀ v ∈ r.vals, Diff.roundInt v ≠ .ub) →
       ∀ fuel, outs.length < fuel → ∃ ds c names us heads leads rows g' text, symbolGetDomainX a ((n : Int) + 1) = .ok (a, (c, ds)) ∧ NamesOf ds names ∧
        us.Pairwise (· < ·) ∧ (∀ u, u ∈ us ↔ ∃ r ∈ outs, r.key[s.dim.toNat - 1]? = some u) ∧ List.Forall₂ (LabelIs a) us heads ∧
        writeCSV o z fuel a ((n : Int) + 1) = .ok (g', text) ∧
        csvRead o.delim text = some ((if o.showHdr = true then [names.take (s.dim.toNat - 1) ++ (if outs = [] then [[]] else heads)] else []) ++ rows) ∧
        IsTable (CellText o a s.typ) a s.dim.toNat us outs leads rows) := by
  obtain ⟨a, d, xs, outs, ds, a1, a2, a3, a4, a5, a6, a7, a8, a9, a10, a11, a12, a13, a14, a15⟩ := own_ready ho hz h hacr hs
  refine ⟨a, outs, a1, a2, by rw [a3, ← a12]; exact a13, ?_⟩
  intro hfin hset fuel hfu
  obtain ⟨outs', names, us, heads, leads, rows, g2, text, q1, q2, q3, q4, q5, q6, q7, q8⟩ := C69_table ho hz a4 a5 (by rw [a7]; exact a8) a9 a11 hc (by rw [a10]; exact hd2)
    (by rw [a7]; exact a15 hfin hset) (fuel := fuel) (by omega)
  obtain ⟨c, hget⟩ := a11.get
  rw [← Delivered.unique a6 a13 q1, a7, a10] at q8
  rw [← Delivered.unique a6 a13 q1, a10] at q4 q7
  exact ⟨ds, c, names, us, heads, leads, rows, g2, text, hget, q2, q3, q4, q5, q6, q7, q8⟩

/-! ## examples, elements without a label -/

/-- the table of the example: `Dim1`, `x,y`, `y`, `z`; `a"b`, 1.5, empty, empty; `c`, empty, 0.1, Eps -/
example : (do
    let t ← csvOf { dtoa := sampleDtoa, cdim := true } exDump 1
    pure (csvRead 44 t)) = .ok (some [[[68, 105, 109, 49], [120, 44, 121], [121], [122]], [[97, 34, 98], [49, 46, 53], [], []], [[99], [], [48, 46, 49], [69, 112, 115]]]) := by decide +kernel

/-- a parameter with the record (1, 7): 1.5 although the file has one label only -/
def exNoLabel : List Call := [.openWrite false 0 [65] 0, .uelRawStart, .uelRaw [97], .uelDone, .rawStart [112] [] 2 1 0, .writeRaw [1, 7] [0x3ff8000000000000], .writeDone]

/-- C69 fails for elements without a label: without CDim gdxdump writes a name made of the number, with CDim it writes outside the table of columns. -/
theorem C69_no_label : csvOf { dtoa := sampleDtoa, showHdr := false } exNoLabel 1 = .ok ([34, 97, 34, 44, 34, 76, 95, 95, 55, 34, 44, 49, 46, 53, 10] ++ badLine 1) ∧
    csvOf { dtoa := sampleDtoa, showHdr := false, cdim := true } exNoLabel 1 = .ub := by decide +kernel

#print axioms C69_table
#print axioms C69_own
#print axioms C69_no_label

end Gdx.Props
