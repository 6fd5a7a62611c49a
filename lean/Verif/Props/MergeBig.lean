import Verif.Proofs.MergeBigWrite
import Verif.Props.MergeAll

/-!
C62: gdxmerge with the option BIG. The small symbols are written first and the big ones behind them; no record is lost when the symbols with
the same name agree with each other.
-/

namespace Gdx.Props

open Gdx Spec Gdx.Merge

/-- symbol `nr` of the merged file is the symbol described by `r`, with the explanatory text `t` -/
structure HoldsText (z : Cz) (g : Gx) (nr : Int) (r : Row) (t : Str) : Prop where
  info : symbolInfo g nr = ⟨true, r.name, r.dim + 1, r.typ⟩
  sub : (symbolInfoX g nr).userInfo = r.sub
  expl : (symbolInfoX g nr).expl = t
  recs : ∃ ps ss, ps.Perm (allRecs r.srcs) ∧ List.Forall₂ (Carried g r.typ) ps ss ∧ ReadsStr z g nr ss

/-- The merged file with BIG, opened as `g`, for the symbols `l` of the input files `fs`: the positions of the symbols that come first with
    their name are parted into `js` and `ks`. There is one symbol for each of `js` in this order, then one for each of `ks`, and then the
    set of the files. The symbols for `ks` have at least `c` entries; they have no explanatory text. -/
structure BigFile (o : Merge.Opt) (z : Cz) (c : Int) (fs : List Merge.InFile) (l : List Src) (g : Gx) : Prop where
  rows : ∃ js ks rs ts, js.Pairwise (· < ·) ∧ ks.Pairwise (· < ·) ∧ (js ++ ks).Nodup ∧ (∀ i, i ∈ js ++ ks ↔ ∃ s, Leads o l i s) ∧
    List.Forall₂ (RowOf o l) js rs ∧ List.Forall₂ (RowOf o l) ks ts ∧ (∀ r ∈ ts, c ≤ (weight r.srcs : Int)) ∧
    (∀ (i : Nat) r, rs[i]? = some r → HoldsText z g (i + 1) r (makeGoodExplText (firstText r.srcs))) ∧
    (∀ (i : Nat) r, ts[i]? = some r → HoldsText z g (rs.length + i + 1) r []) ∧ (systemInfo g).1 = rs.length + ts.length + 1
  srcs : ∀ i r, RowOf o l i r → r.srcs = l.filter fun s => sameText false r.name s.name
  list : ∃ n its ss, symbolInfo g (systemInfo g).1 = ⟨true, mergedSet ++ intToStr n, 1, dtSet⟩ ∧ (symbolInfoX g (systemInfo g).1).expl = mergeSet ∧ its.Perm fs ∧
    List.Forall₂ (FileNamed g) its ss ∧ ReadsStr z g (systemInfo g).1 ss

theorem rowOf_srcs {o : Merge.Opt} {l : List Src} (h : Merge.Agree o l) {i : Nat} {r : Row} (hr : RowOf o l i r) : r.srcs = named r.name l := by
  obtain ⟨is, _, t2, t3⟩ := table_rows o l
  obtain ⟨s, a1, a2, a3, a4, a5, a6⟩ := hr.lead
  obtain ⟨k, hk, he⟩ := List.mem_iff_getElem.mp ((t2 i).mpr ⟨s, a1⟩)
  have hk' : k < (table o l).length := by rw [← t3.length_eq]; exact hk
  have hrow := (List.forall₂_iff_get.mp t3).2 k hk hk'
  simp only [List.get_eq_getElem, he] at hrow
  obtain ⟨s', b1, b2, b3, b4, b5, b6⟩ := hrow.lead
  have : s' = s := by
    have := a1.get
    rw [b1.get] at this
    exact Option.some.inj this
  subst this
  have hq := h.srcs (List.getElem?_eq_getElem hk')
  rw [b6, b2] at hq
  rw [a6, a2]
  exact hq

/-- the rows, parted by a mark, and their positions -/
theorem parts {o : Merge.Opt} {l : List Src} {W : List (Row × Bool)} : ∀ {is : List Nat}, List.Forall₂ (RowOf o l) is (W.map Prod.fst) → is.Pairwise (· < ·) →
    ∃ js ks, js.Sublist is ∧ ks.Sublist is ∧ (js ++ ks).Perm is ∧ List.Forall₂ (RowOf o l) js ((smalls W).map Prod.fst) ∧
      List.Forall₂ (RowOf o l) ks ((bigs W).map Prod.fst) := by
  induction W with
  | nil =>
    intro is h _
    cases h
    exact ⟨[], [], .slnil, .slnil, .nil, .nil, .nil⟩
  | cons w W ih =>
    intro is h hp
    obtain ⟨r, b⟩ := w
    cases h with
    | cons h1 h2 =>
      rename_i i is
      obtain ⟨js, ks, a1, a2, a3, a4, a5⟩ := ih h2 (List.pairwise_cons.mp hp).2
      cases b with
      | true => exact ⟨i :: js, ks, a1.cons_cons i, a2.cons i, a3.cons i, .cons h1 a4, a5⟩
      | false => exact ⟨js, i :: ks, a1.cons i, a2.cons_cons i, List.perm_middle.trans (a3.cons i), a4, .cons h1 a5⟩

/-- C62: gdxmerge with BIG, input files with different identifiers and without acronyms, where the symbols with one name agree in
    dimension, type and (for variables and equations) subtype, and no symbol is both big and of dimension 0 or more than 17: it comes to its
    end, and the file that it writes can be opened and has exactly the symbols and records that it should have. Only the order of the
    symbols and the explanatory texts of the big ones differ from what it writes without BIG. What is missing: what is excluded; then
    records can be lost or the text of a symbol is not kept (`C62_scalar`, `C62_empty_label`, `C62_types`, `C62_wide`, `C62_text`). -/
theorem C62_big_partial {o : Merge.Opt} {e : Env} {z : Cz} (hz : z.Good) {srt : List MRec → List MRec} (hs : Sorting srt) {c : Int} (hbig : o.big = some c)
    (hcp : I32 o.compr) (hw : ∃ m r, openWriteEx e Gx.new false 0 Merge.producer o.compr = .ok (m, r)) {A X : List Str} (h0 : [] ∈ A) {fs : List Merge.InFile}
    {srss : List (List Src)} (h : Inputs z A X fs srss) (hl : Merge.Agree o srss.flatten)
    (hdim : ∀ s ∈ srss.flatten, (weight (srss.flatten.filter fun t => sameText false s.name t.name) : Int) < c ∨ 1 ≤ s.dim ∧ s.dim ≤ 17) :
    ∃ s f n, mergeTo o e z srt fs = .ok s ∧ merge o e z srt fs = .ok (f, n) ∧ (∃ m, Errors o srss.flatten m ∧ n ≤ m) ∧
      (FileFits s.out → (f.length : Int) ≤ 9223372036854775807 → ∀ g0, Reader g0 → ∃ g, openRead z g0 (.content f) = .ok (g, (true, 0)) ∧ BigFile o z c fs srss.flatten g) := by
  obtain ⟨s, W, u, T, n, its, ys, a1, a2, a3, a4, a5, aW, aB, a6, a8, a9, a10, a11, a12, a13⟩ := mergeBig_ok hz hs hbig hcp hw h0 h hl hdim
  obtain ⟨f, hm⟩ := merge_closes hz a1 a3 a2
  refine ⟨s, f, s.errs, a1, hm, ⟨_, errsOf_errors o _, a12⟩, ?_⟩
  intro hfit hlen g0 hg0
  unfold merge at hm
  rw [a1] at hm
  simp only [Res.bind_ok] at hm
  obtain ⟨⟨g', k⟩, hc, hm⟩ := Res.bind_eq_ok.mp hm
  cases hm
  have fi := a3.fine hz
  obtain ⟨g, h1, h2, _⟩ := close_open hz fi.inv a2 (fi.stat a2) hc hfit hlen g0 hg0.mode 0
  have ho : openRead z g0 (.content g'.file) = .ok (g, (true, 0)) := h1
  have hre : Reopens z s.out g := .intro g0 g' k a2 hc hfit hlen hg0 ho
  obtain ⟨u', b1, b2, _⟩ := h2.uel
  rw [a4] at b1
  cases b1
  obtain ⟨tl, t1, t2⟩ := h2.texts rfl
  have hT : T = tl.map Prod.fst := by
    unfold textsOf at a5
    rw [t1] at a5
    cases a5
    rfl
  have htx : g.texts = some (T.map fun t => (t, 0)) := by
    rw [t2, hT, List.map_map]
    rfl
  have htl : T.length ≤ 2147483647 := by
    have := hfit.texts tl t1
    rw [hT, List.length_map]
    omega
  have hue : ({ Uel.empty with ents := u.strs.map (·, -1) } : Uel).ents.map Prod.fst = u.strs := by
    simp only [List.map_map]
    exact List.map_id' _
  have hcount : (systemInfo g).1 = (smalls W ++ bigs W).length + 1 := by
    obtain ⟨l, l1, l2⟩ := h2.names
    unfold namesOf at a11
    rw [l1] at a11
    have := congrArg List.length (Option.some.inj a11)
    simp only [List.length_map, List.length_append, List.length_singleton] at this
    unfold systemInfo
    rw [l2]
    simp only [Option.map_some, Option.getD_some, List.length_map, List.length_append]
    omega
  have hrow : ∀ (i : Nat) r t, (smalls W ++ bigs W)[i]? = some (r, t) → HoldsText z g (i + 1) r (makeGoodExplText t) := by
    intro i r t hr
    obtain ⟨ps, ys, p1, p2, p3, p4⟩ := a6 i r t hr
    obtain ⟨c1, c2, _⟩ := p3.loaded hz hre
    have hd : (⟨r.name, (r.dim : Int) + 1, (r.typ : Int).toNat, r.sub⟩ : SymDesc).dim ≠ 0 := by
      show (r.dim : Int) + 1 ≠ 0
      omega
    obtain ⟨_, d2, d3, _⟩ := loaded_info c1 hd
    obtain ⟨ss, e1, e2⟩ := reads_given hz c1 hd c2 b2
    refine ⟨by rw [d2]; simp, d3, explained_read h2.names p4, ps, ss, p1, ?_, e1⟩
    refine forall₂_trans ?_ p2 e2
    rintro p y x hmv ⟨x1, x2⟩
    refine ⟨by rw [x1]; exact keys_read hue hmv.key, ?_⟩
    have hv := hmv.vals
    split
    · rename_i hs
      rw [if_pos hs] at hv
      obtain ⟨d, t, v1, v2, j, v3, v4⟩ := hv
      rw [v3] at x2
      exact ⟨d, t, v1, v2, text_read htx htl v4 x2⟩
    · rename_i hs
      rw [if_neg hs] at hv
      rw [← hv]
      exact x2
  refine ⟨g, ho, ⟨?_, fun i r hr => rowOf_srcs hl hr, ?_⟩⟩
  · obtain ⟨is, r1, r2, r3⟩ := table_rows o srss.flatten
    rw [← aW] at r3
    obtain ⟨js, ks, q1, q2, q3, q4, q5⟩ := parts r3 r1
    refine ⟨js, ks, (smalls W).map Prod.fst, (bigs W).map Prod.fst, r1.sublist q1, r1.sublist q2, q3.nodup_iff.mpr (r1.imp fun h => Nat.ne_of_lt h),
      fun i => (q3.mem_iff).trans (r2 i), q4, q5, ?_, ?_, ?_, ?_⟩
    · intro r hr
      obtain ⟨p, hp, rfl⟩ := List.mem_map.mp hr
      obtain ⟨i, hi⟩ := mem_bigs hp
      exact aB _ (List.mem_of_getElem? hi)
    · intro i r hr
      rw [List.getElem?_map, Option.map_eq_some_iff] at hr
      obtain ⟨⟨r', t⟩, hr, rfl⟩ := hr
      have ht : t = firstText r'.srcs := by
        have := List.mem_of_getElem? hr
        unfold smalls at this
        obtain ⟨p, _, hp⟩ := List.mem_map.mp this
        cases hp
        rfl
      rw [← ht]
      exact hrow i r' t (by rw [List.getElem?_append_left (List.getElem?_eq_some_iff.mp hr).1]; exact hr)
    · intro i r hr
      rw [List.getElem?_map, Option.map_eq_some_iff] at hr
      obtain ⟨⟨r', t⟩, hr, rfl⟩ := hr
      have ht : t = [] := by
        have := List.mem_of_getElem? hr
        unfold bigs at this
        obtain ⟨p, _, hp⟩ := List.mem_map.mp this
        cases hp
        rfl
      subst ht
      have := hrow ((smalls W).length + i) r' [] (by rw [List.getElem?_append_right (by omega), Nat.add_sub_cancel_left]; exact hr)
      rw [List.length_map]
      exact_mod_cast this
    · rw [hcount, List.length_append, List.length_map, List.length_map]
      push_cast
      rfl
  · obtain ⟨c1, c2, _⟩ := a10.loaded hz hre
    have hd : (⟨setName n, 1, (0 : Int).toNat, 0⟩ : SymDesc).dim ≠ 0 := by
      show (1 : Int) ≠ 0
      omega
    obtain ⟨_, d2, d3, _⟩ := loaded_info c1 hd
    obtain ⟨ss, e1, e2⟩ := reads_given hz c1 hd c2 b2
    rw [hcount]
    obtain ⟨its', k1, k2⟩ := forall₂_perm a8 a9.symm
    refine ⟨n, its', ss, d2, explained_read h2.names a13, k1, ?_, e1⟩
    refine forall₂_trans ?_ k2 e2
    rintro p y x hmv ⟨x1, x2⟩
    refine ⟨by rw [x1]; exact keys_read hue hmv.key, ?_⟩
    obtain ⟨j, v3, v4⟩ := hmv.vals
    rw [v3] at x2
    exact text_read htx htl v4 x2

/-- one more label may be used -/
theorem Inputs.with_empty {z : Cz} {A X : List Str} {fs : List Merge.InFile} {srss : List (List Src)} (h : Inputs z A X fs srss)
    (hn : A.length + 1 + fs.length ≤ 2147483391) : Inputs z ([] :: A) X fs srss := by
  refine ⟨h.inp, fun s hs => ?_, h.names, h.ids, h.good, h.texts, h.empty, by rw [List.length_cons]; omega, h.ntexts, h.nrecs, h.nsyms⟩
  obtain ⟨⟨h1, h2, h3, h4⟩, h5⟩ := h.ok s hs
  exact ⟨⟨h1, ⟨h2.1, by simp [h2.2]⟩, h3, fun r hr => ⟨(h4 r hr).1, fun t ht => ⟨((h4 r hr).2 t ht).1, by simp [((h4 r hr).2 t ht).2]⟩⟩⟩, h5⟩

/-- C62 for files of the library: `srss` are the symbols of the files. What is missing: see `C62_big_partial`. -/
theorem C62_own_partial {o : Merge.Opt} {e : Env} {z : Cz} (hz : z.Good) {srt : List MRec → List MRec} (hs : Sorting srt) {c : Int} (hbig : o.big = some c)
    (hcp : I32 o.compr) (hw : ∃ m r, openWriteEx e Gx.new false 0 Merge.producer o.compr = .ok (m, r)) {ins : List OwnIn}
    (h : ∀ i ∈ ins, i.Ok z ∧ GoodLabel i.id ∧ ZFree i.info) (hid : ins.Pairwise fun a b => ¬ SameNoCase a.id b.id)
    (hla : (ins.map fun i => i.labels.length + 2).sum < 2147483391) (ht : (ins.map fun i => i.texts.length).sum < 2147483647)
    (hr : (ins.map OwnIn.nrecs).sum ≤ 2147483647) (hsy : (ins.map fun i => i.syms.length).sum ≤ 2147483647) :
    ∃ srss, List.Forall₂ OwnIn.Symbols ins srss ∧ (Merge.Agree o srss.flatten →
      (∀ s ∈ srss.flatten, (weight (srss.flatten.filter fun t => sameText false s.name t.name) : Int) < c ∨ 1 ≤ s.dim ∧ s.dim ≤ 17) →
      ∃ s f n, mergeTo o e z srt (ins.map OwnIn.inFile) = .ok s ∧
        merge o e z srt (ins.map OwnIn.inFile) = .ok (f, n) ∧ (∃ m, Errors o srss.flatten m ∧ n ≤ m) ∧ (FileFits s.out → (f.length : Int) ≤ 9223372036854775807 →
          ∀ g0, Reader g0 → ∃ g, openRead z g0 (.content f) = .ok (g, (true, 0)) ∧ BigFile o z c (ins.map OwnIn.inFile) srss.flatten g)) := by
  obtain ⟨A, X, srss, h1, h2, h3⟩ := own_inputs hz h hid (Nat.le_of_lt hla) ht hr hsy
  exact ⟨srss, h2, fun hl hd => C62_big_partial hz hs hbig hcp hw (List.mem_cons_self ..) (Inputs.with_empty h1 (by rw [List.length_map]; omega)) hl hd⟩

/-- symbols that meet the conditions: two that are big and one that is not -/
example : ∃ s t v : Src, s.name = [112] ∧ t.name = [80] ∧ Merge.Agree {} [s, t, v] ∧ s.recs.length = 2 ∧
    ∀ x ∈ [s, t, v], (weight ([s, t, v].filter fun y => sameText false x.name y.name) : Int) < 5 ∨ 1 ≤ x.dim ∧ x.dim ≤ 17 := by
  refine ⟨⟨[102], Gx.new, [112], 1, 1, 0, [], [⟨[[97]], [dbl03], 1⟩, ⟨[[98]], [dblSum], 1⟩]⟩, ⟨[103], Gx.new, [80], 1, 1, 0, [], [⟨[[98]], [dblSum], 1⟩]⟩,
    ⟨[103], Gx.new, [113], 0, 1, 0, [], [⟨[], [dblSum], 1⟩]⟩, rfl, rfl, ⟨?_, ?_⟩, rfl, ?_⟩
  · simp only [List.mem_cons, List.not_mem_nil, or_false, forall_eq_or_imp, forall_eq]
    decide
  · have h : ¬ SameNoCase [112] [113] ∧ ¬ SameNoCase [80] [113] ∧ ¬ SameNoCase [113] [112] ∧ ¬ SameNoCase [113] [80] := by unfold SameNoCase; decide
    simp only [List.mem_cons, List.not_mem_nil, or_false, forall_eq_or_imp, forall_eq, h, false_imp_iff, and_true, true_and]
    simp [dtVar, dtEqu, Merge.Opt.takes]
  · simp only [List.mem_cons, List.not_mem_nil, or_false, forall_eq_or_imp, forall_eq]
    decide +kernel

/-! ### examples -/

/-- a set `i` with two records, then a parameter `p` with one -/
def exTwo (v : Dbl) : List Call :=
  [.openWrite false 0 [65] 0, .strStart [105] [116] 1 0 0, .writeStr [[97]] [0], .writeStr [[98]] [0], .writeDone,
    .strStart [112] [116] 1 1 0, .writeStr [[97]] [v], .writeDone]

/-- BIG=5: the set with its 4 * 2 entries is big and comes behind the parameter with its 2 * 2 -/
example : mergedNames { big := some 5 } [([102, 49], exTwo dbl03), ([102, 50], exTwo dblSum)] =
    .ok ([([112], 2, 1), ([105], 2, 0), (mergedSet ++ [49], 1, 0)], 0) ∧
  mergedSym { big := some 5 } [([102, 49], exTwo dbl03), ([102, 50], exTwo dblSum)] 2 =
    .ok ([([[102, 49], [97]], [0]), ([[102, 49], [98]], [0]), ([[102, 50], [97]], [0]), ([[102, 50], [98]], [0])], 0) ∧
  mergedSym { big := some 5 } [([102, 49], exTwo dbl03), ([102, 50], exTwo dblSum)] 1 = .ok ([([[102, 49], [97]], [dbl03]), ([[102, 50], [97]], [dblSum])], 0) ∧
  mergedText { big := some 5 } [([102, 49], exTwo dbl03), ([102, 50], exTwo dblSum)] 1 = .ok [116] :=
  ⟨by decide +kernel, by decide +kernel, by decide +kernel, by decide +kernel⟩

/-- a parameter `P` with one record -/
def exParU (v : Dbl) : List Call :=
  [.openWrite false 0 [65] 0, .strStart [80] [] 1 1 0, .writeStr [[97]] [v], .writeDone]

/-- The option ID=P, a file with `p` before a file with `P`: without BIG the record of the first file is left out. With BIG (and no symbol
    is big) it is there: the first pass found the name in the second file. -/
theorem C62_select : mergedSym { incl := [[80]] } [([102], exPar dbl03), ([103], exParU dblSum)] 1 = .ok ([([[103], [97]], [dblSum])], 0) ∧
    mergedSym { incl := [[80]], big := some 1000 } [([102], exPar dbl03), ([103], exParU dblSum)] 1 =
      .ok ([([[102], [97]], [dbl03]), ([[103], [97]], [dblSum])], 0) := ⟨by decide +kernel, by decide +kernel⟩

/-- one record with 20 indices -/
def exTwenty : List Call :=
  [.openWrite false 0 [65] 0, .strStart [112] [] 20 1 0, .writeStr (List.replicate 20 [97]) [dbl03], .writeDone]

/-- A symbol that cannot get one more index is counted as two errors with BIG. -/
theorem C62_twice : mergedNames {} [([102], exTwenty)] = .ok ([(mergedSet ++ [49], 1, 0)], 1) ∧
    mergedNames { big := some 1000 } [([102], exTwenty)] = .ok ([(mergedSet ++ [49], 1, 0)], 2) :=
  ⟨by decide +kernel, by decide +kernel⟩

/-- gdxmerge with one more input file, `g`, that cannot be opened -/
def withBad (o : Merge.Opt) (l : List (Str × List Call)) : Res (List UInt8 × Nat) := do
  let fs ← inputs l
  merge o ⟨[]⟩ Cz.id (fun l => l.foldr insRec []) (fs ++ [⟨[103], [], .ioErr 2⟩])

/-- A file that cannot be opened is skipped without BIG. With BIG and a big symbol the output is unusable: CollectBigOne returns before
    gdxUELRegisterDone, the object for the output stays in the state for registering labels, and so nothing more can be written: not the
    symbol, not the list of the files, and not the tables at the end of the file. No error is counted. -/
theorem C62_unreadable :
    (withBad {} [([102], exPar dbl03)] >>= fun r => readNames r.1 >>= fun l => .ok (l, r.2)) =
      .ok ([([112], 2, 1), (mergedSet ++ [49], 1, 0)], 0) ∧
    (withBad { big := some 1 } [([102], exPar dbl03)] >>= fun r =>
        openReadXX Cz.id Gx.new (.content r.1) 0 >>= fun x => .ok (x.2, r.2)) = .ok ((false, Err.openBoi), 0) ∧
    (withBad { big := some 3 } [([102], exPar dbl03)] >>= fun r => readNames r.1 >>= fun l => .ok (l, r.2)) =
      .ok ([([112], 2, 1), (mergedSet ++ [49], 1, 0)], 0) := ⟨by decide +kernel, by decide +kernel, by decide +kernel⟩

#print axioms C62_unreadable
#print axioms C62_select
#print axioms C62_twice
#print axioms C62_big_partial
#print axioms C62_own_partial

end Gdx.Props
