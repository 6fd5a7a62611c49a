import Verif.Proofs.MergeInput
import Verif.Proofs.MergeClose
import Verif.Props.Merge

/-!
C61, C62: what gdxmerge writes for all input files.
-/

namespace Gdx.Props

open Gdx Spec Gdx.Merge

/-! ### what is in the merged file -/

/-- The record of the merged file (opened as `g`) has this set text -/
def TextIs (g : Gx) (vals : List Dbl) (t : Str) : Prop := ∃ n : Int, vals = [intDbl n] ∧ getElemText g n = (true, t, 0)

/-- The record `s` of the merged file carries the record `p.2` of the symbol `p.1`: the identifier of the file and the key (the case may
    differ: the first spelling of a label is kept), and the values. For a set the text is the same up to what gdxAddSetText does to
    texts. -/
structure Carried (g : Gx) (typ : Nat) (p : Src × RecOut Str) (s : RecOut Str) : Prop where
  key : List.Forall₂ SameNoCase s.key (p.1.id :: p.2.key)
  vals : if typ = dtSet then ∃ d t, p.2.vals = [d] ∧ HasText p.1.a d t ∧ TextIs g s.vals (makeGoodExplText (t.take 255))
    else List.Forall₂ (ReadsAs SVTab.default SVTab.default (acrOf g)) p.2.vals s.vals

/-- the string reader delivers these records of symbol `nr` -/
def ReadsStr (z : Cz) (g : Gx) (nr : Int) (ss : List (RecOut Str)) : Prop :=
  (symbolInfoX g nr).recs = ss.length ∧ ∃ g1 g2, dataReadStrStart z g nr = .ok (g1, (true, ss.length)) ∧ DeliversStr g1 ss g2 ∧ g2.mode = .rInit

/-- symbol `nr` of the merged file is the symbol described by `r`: its explanatory text is the first text of the symbols `r.srcs` that is
    not empty (up to what the library does to texts), and its records are exactly the records of the symbols `r.srcs` -/
structure HoldsRow (z : Cz) (g : Gx) (nr : Int) (r : Row) : Prop where
  info : symbolInfo g nr = ⟨true, r.name, r.dim + 1, r.typ⟩
  sub : (symbolInfoX g nr).userInfo = r.sub
  expl : (symbolInfoX g nr).expl = makeGoodExplText (firstText r.srcs)
  recs : ∃ ps ss, ps.Perm (allRecs r.srcs) ∧ List.Forall₂ (Carried g r.typ) ps ss ∧ ReadsStr z g nr ss

/-- the record for an input file in the set of the files -/
structure FileNamed (g : Gx) (f : Merge.InFile) (s : RecOut Str) : Prop where
  key : List.Forall₂ SameNoCase s.key [f.id]
  text : TextIs g s.vals (makeGoodExplText (f.info.take 255))

/-- The merged file, opened as `g`, for the symbols `l` of the input files `fs`: `is` are the positions of those that come first with
    their name, one symbol for each of them in this order, and then the set of the files. -/
structure MergedFile (o : Merge.Opt) (z : Cz) (fs : List Merge.InFile) (l : List Src) (g : Gx) : Prop where
  rows : ∃ is rs, is.Pairwise (· < ·) ∧ (∀ i, i ∈ is ↔ ∃ s, Leads o l i s) ∧ List.Forall₂ (RowOf o l) is rs ∧
    (∀ (i : Nat) r, rs[i]? = some r → HoldsRow z g (i + 1) r) ∧ (systemInfo g).1 = rs.length + 1
  list : ∃ n its ss, symbolInfo g (systemInfo g).1 = ⟨true, mergedSet ++ intToStr n, 1, dtSet⟩ ∧ (symbolInfoX g (systemInfo g).1).expl = mergeSet ∧ its.Perm fs ∧ List.Forall₂ (FileNamed g) its ss ∧
    ReadsStr z g (systemInfo g).1 ss

theorem strOut_label {u : Uel} {L : List Str} (hu : u.ents.map Prod.fst = L) {k : Int} {s : Str} (h : Merge.Label L k s) : SameNoCase (strOut u k) s := by
  obtain ⟨h1, t, h2, h3⟩ := h
  unfold strOut
  rw [if_pos h1, hu, h2]
  exact h3

theorem loaded_info {z : Cz} {g : Gx} {m : Nat} {d : SymDesc} {xs : List RawEntry} (h : Loaded z g m d xs) (hd : d.dim ≠ 0) :
    Targets g ((m : Int) + 1) m ∧ symbolInfo g ((m : Int) + 1) = ⟨true, d.name, d.dim, d.typ⟩ ∧ (symbolInfoX g ((m : Int) + 1)).userInfo = d.ui ∧
      (symbolInfoX g ((m : Int) + 1)).recs = xs.length := by
  obtain ⟨s, h1, _, h3⟩ := h.data
  refine ⟨h3.self, ?_⟩
  obtain ⟨syms, b1, b2⟩ := h3.names
  have hl := (List.getElem?_eq_some_iff.mp b2).1
  have hat : g.symAt ((m : Int) + 1) = some s := by
    unfold Gx.symAt
    rw [b1]
    simp only
    rw [if_pos (by omega), show ((m : Int) + 1 - 1).toNat = m by omega]
    exact b2
  obtain ⟨lo, hi, hst⟩ := h3.data
  unfold symbolInfo symbolInfoX
  rw [if_neg (by omega), if_neg (by omega), hat]
  refine ⟨by simp only [h1.name, h1.dim, h1.typ], h1.ui, ?_⟩
  simp only
  rw [if_neg (by rw [h1.dim]; exact hd), hst.cnt, List.length_map]

/-- the explanatory text of a symbol in the file read again -/
theorem explained_read {g g' : Gx} (hn : ∃ l, g.names = some l ∧ g'.names = some (l.map Sym.reopened)) {i : Nat} {t : Str} (h : Merge.Explained g i t) :
    (symbolInfoX g' ((i : Int) + 1)).expl = t := by
  obtain ⟨l, h1, h2⟩ := hn
  obtain ⟨l', s, k1, k2, k3⟩ := h
  rw [h1] at k1
  cases k1
  have hat : g'.symAt ((i : Int) + 1) = some s.reopened := by
    unfold Gx.symAt
    rw [h2]
    simp only
    have hl := (List.getElem?_eq_some_iff.mp k2).1
    rw [if_pos (by rw [List.length_map]; omega), show ((i : Int) + 1 - 1).toNat = i by omega, List.getElem?_map, k2]
    rfl
  unfold symbolInfoX
  rw [if_neg (by omega), hat]
  exact k3

/-- what the reader of the merged file gets for the records that were written -/
theorem reads_given {z : Cz} (hz : z.Good) {g : Gx} {m : Nat} {d : SymDesc} {ys : List Given} (h : Loaded z g m d (ys.map (entryOf SVTab.default)))
    (hd : d.dim ≠ 0) (hr : g.rsv = SVTab.default) {u : Uel} (hu : g.uel = some u) :
    ∃ ss, ReadsStr z g ((m : Int) + 1) ss ∧
      List.Forall₂ (fun y s => s.key = y.1.map (strOut u) ∧ List.Forall₂ (ReadsAs SVTab.default SVTab.default (acrOf g)) y.2 s.vals) ys ss := by
  obtain ⟨t1, _, _, t4⟩ := loaded_info h hd
  obtain ⟨outs, a1, _, u', g1, g2, a2, a3, a4, a5, _⟩ := h.reads hz t1
  rw [hu] at a2
  cases a2
  unfold Delivered at a1
  rw [if_neg fun hc => hd hc.1] at a1
  have hlen := a1.recs.length_eq
  refine ⟨outs.map (RecOut.toStr u), ⟨?_, g1, g2, ?_, a4, a5⟩, ?_⟩
  · rw [t4, hlen, List.length_map]
  · rw [List.length_map]; exact a3
  · have hx := a1.recs
    rw [List.forall₂_map_left_iff] at hx
    rw [List.forall₂_map_right_iff]
    refine hx.imp fun y o ho => ⟨?_, ?_⟩
    · show o.key.map (strOut u) = _
      rw [ho.key]
      rfl
    · have := ho.vals
      rw [hr] at this
      exact this

theorem text_read {g : Gx} {T : List Str} (hT : g.texts = some (T.map fun t => (t, 0))) (hl : T.length ≤ 2147483647) {acr : Dbl → Dbl} {j : Nat} {t : Str} (hj : T[j]? = some t)
    {w : List Dbl} (h : List.Forall₂ (ReadsAs SVTab.default SVTab.default acr) [intDbl j] w) : TextIs g w t := by
  cases h with
  | cons h hn =>
    cases hn
    have hlt := (List.getElem?_eq_some_iff.mp hj).1
    rw [readsAs_intDbl (by omega) (by omega) h]
    refine ⟨j, rfl, ?_⟩
    unfold getElemText
    rw [hT]
    simp only
    rw [if_pos (by omega), Int.toNat_natCast, List.getElem?_map, hj]
    rfl

theorem keys_read {u : Uel} {L : List Str} (hu : u.ents.map Prod.fst = L) {ks : List Int} {key : List Str} (h : List.Forall₂ (Merge.Label L) ks key) :
    List.Forall₂ SameNoCase (ks.map (strOut u)) key := by
  rw [List.forall₂_map_left_iff]
  exact h.imp fun _ _ h => strOut_label hu h

theorem forall₂_trans {α β γ : Type} {R : α → β → Prop} {S : β → γ → Prop} {W : α → γ → Prop} (h : ∀ a b c, R a b → S b c → W a c) :
    ∀ {l : List α} {m : List β} {n : List γ}, List.Forall₂ R l m → List.Forall₂ S m n → List.Forall₂ W l n
  | _, _, _, .nil, .nil => .nil
  | _, _, _, .cons h1 t1, .cons h2 t2 => .cons (h _ _ _ h1 h2) (forall₂_trans h t1 t2)

/-- C61: gdxmerge without BIG, input files with different identifiers and without acronyms: it comes to its end, and the file that it
    writes can be opened and has exactly the symbols and records that it should have; whatever is left out is counted as an error. What is
    missing: files with acronyms or with the same identifier are excluded, then records can be lost (`C61_acronym`,
    `C61_same_name`). -/
theorem C61_merge_partial {o : Merge.Opt} {e : Env} {z : Cz} (hz : z.Good) {srt : List MRec → List MRec} (hs : Sorting srt) (hbig : o.big = none)
    (hcp : I32 o.compr) (hw : ∃ m r, openWriteEx e Gx.new false 0 Merge.producer o.compr = .ok (m, r)) {A X : List Str} {fs : List Merge.InFile}
    {srss : List (List Src)} (h : Inputs z A X fs srss) :
    ∃ s f n, mergeTo o e z srt fs = .ok s ∧ merge o e z srt fs = .ok (f, n) ∧ Errors o srss.flatten n ∧ (FileFits s.out → (f.length : Int) ≤ 9223372036854775807 →
      ∀ g0, Reader g0 → ∃ g, openRead z g0 (.content f) = .ok (g, (true, 0)) ∧ MergedFile o z fs srss.flatten g) := by
  obtain ⟨s, u, T, n, its, ys, a1, a2, a3, a4, a5, a6, a7, a8, a9, a10, a11, a12, a13⟩ := mergeTo_ok hz hs hbig hcp hw h
  obtain ⟨f, hm⟩ := merge_closes hz a1 a3 a2
  refine ⟨s, f, s.errs, a1, hm, by rw [a12]; exact errsOf_errors o _, ?_⟩
  intro hfit hlen g0 hg0
  unfold merge at hm
  rw [a1] at hm
  simp only [Res.bind_ok] at hm
  obtain ⟨⟨g', k⟩, hc, hm⟩ := Res.bind_eq_ok.mp hm
  cases hm
  have fi := a3.fine hz
  obtain ⟨g, h1, h2, _⟩ := close_open hz fi.inv a2 (fi.stat a2) hc hfit hlen g0 hg0.mode 0
  have ho : openRead z g0 (.content g'.file) = .ok (g, (true, 0)) := h1
  have hre : Reopens z s.out g := .intro g0 g' k a2 hc hfit hlen hg0 ho
  obtain ⟨u', b1, b2, _⟩ := h2.uel
  rw [a4] at b1
  cases b1
  obtain ⟨tl, t1, t2⟩ := h2.texts rfl
  have hT : T = tl.map Prod.fst := by
    unfold textsOf at a5
    rw [t1] at a5
    cases a5
    rfl
  have htx : g.texts = some (T.map fun t => (t, 0)) := by
    rw [t2, hT, List.map_map]
    rfl
  have htl : T.length ≤ 2147483647 := by
    have := hfit.texts tl t1
    rw [hT, List.length_map]
    omega
  have hue : ({ Uel.empty with ents := u.strs.map (·, -1) } : Uel).ents.map Prod.fst = u.strs := by
    simp only [List.map_map]
    exact List.map_id' _
  have hcount : (systemInfo g).1 = (table o srss.flatten).length + 1 := by
    obtain ⟨l, l1, l2⟩ := h2.names
    unfold namesOf at a11
    rw [l1] at a11
    have := congrArg List.length (Option.some.inj a11)
    simp only [List.length_map, List.length_append, List.length_singleton] at this
    unfold systemInfo
    rw [l2]
    simp only [Option.map_some, Option.getD_some, List.length_map]
    omega
  refine ⟨g, ho, ⟨?_, ?_⟩⟩
  · obtain ⟨is, r1, r2, r3⟩ := table_rows o srss.flatten
    refine ⟨is, table o srss.flatten, r1, r2, r3, ?_, hcount⟩
    intro i r hr
    obtain ⟨ps, ys, p1, p2, p3, p4⟩ := a6 i r hr
    obtain ⟨c1, c2, _⟩ := p3.loaded hz hre
    have hd : (⟨r.name, (r.dim : Int) + 1, (r.typ : Int).toNat, r.sub⟩ : SymDesc).dim ≠ 0 := by
      show (r.dim : Int) + 1 ≠ 0
      omega
    obtain ⟨_, d2, d3, _⟩ := loaded_info c1 hd
    obtain ⟨ss, e1, e2⟩ := reads_given hz c1 hd c2 b2
    refine ⟨by rw [d2]; simp, d3, explained_read h2.names p4, ps, ss, p1, ?_, e1⟩
    refine forall₂_trans ?_ p2 e2
    rintro p y x hmv ⟨x1, x2⟩
    refine ⟨by rw [x1]; exact keys_read hue hmv.key, ?_⟩
    have hv := hmv.vals
    split
    · rename_i hs
      rw [if_pos hs] at hv
      obtain ⟨d, t, v1, v2, j, v3, v4⟩ := hv
      rw [v3] at x2
      exact ⟨d, t, v1, v2, text_read htx htl v4 x2⟩
    · rename_i hs
      rw [if_neg hs] at hv
      rw [← hv]
      exact x2
  · obtain ⟨c1, c2, _⟩ := a10.loaded hz hre
    have hd : (⟨setName n, 1, (0 : Int).toNat, 0⟩ : SymDesc).dim ≠ 0 := by
      show (1 : Int) ≠ 0
      omega
    obtain ⟨_, d2, d3, _⟩ := loaded_info c1 hd
    obtain ⟨ss, e1, e2⟩ := reads_given hz c1 hd c2 b2
    rw [hcount]
    obtain ⟨its', k1, k2⟩ := forall₂_perm a8 a9.symm
    refine ⟨n, its', ss, d2, explained_read h2.names a13, k1, ?_, e1⟩
    refine forall₂_trans ?_ k2 e2
    rintro p y x hmv ⟨x1, x2⟩
    refine ⟨by rw [x1]; exact keys_read hue hmv.key, ?_⟩
    obtain ⟨j, v3, v4⟩ := hmv.vals
    rw [v3] at x2
    exact text_read htx htl v4 x2

/-- C61 for files of the library: whatever files it wrote (by any calls) that are complete and have no acronyms and whose set values are
    numbers of texts, gdxmerge without BIG puts exactly their symbols and records together; `srss` are the symbols of the files. What is
    missing: files with acronyms or with the same identifier. -/
theorem C61_own_partial {o : Merge.Opt} {e : Env} {z : Cz} (hz : z.Good) {srt : List MRec → List MRec} (hs : Sorting srt) (hbig : o.big = none)
    (hcp : I32 o.compr) (hw : ∃ m r, openWriteEx e Gx.new false 0 Merge.producer o.compr = .ok (m, r)) {ins : List OwnIn}
    (h : ∀ i ∈ ins, i.Ok z ∧ GoodLabel i.id ∧ ZFree i.info) (hid : ins.Pairwise fun a b => ¬ SameNoCase a.id b.id)
    (hl : (ins.map fun i => i.labels.length + 2).sum ≤ 2147483391) (ht : (ins.map fun i => i.texts.length).sum < 2147483647)
    (hr : (ins.map OwnIn.nrecs).sum ≤ 2147483647) (hsy : (ins.map fun i => i.syms.length).sum ≤ 2147483647) :
    ∃ srss, List.Forall₂ OwnIn.Symbols ins srss ∧ ∃ s f n, mergeTo o e z srt (ins.map OwnIn.inFile) = .ok s ∧
      merge o e z srt (ins.map OwnIn.inFile) = .ok (f, n) ∧ Errors o srss.flatten n ∧ (FileFits s.out → (f.length : Int) ≤ 9223372036854775807 →
        ∀ g0, Reader g0 → ∃ g, openRead z g0 (.content f) = .ok (g, (true, 0)) ∧ MergedFile o z (ins.map OwnIn.inFile) srss.flatten g) := by
  obtain ⟨A, X, srss, h1, h2, _⟩ := own_inputs hz h hid hl ht hr hsy
  exact ⟨srss, h2, C61_merge_partial hz hs hbig hcp hw h1⟩

/-- there are such files -/
example : ∃ a b : OwnIn, (∀ i ∈ [a, b], i.Ok Cz.id ∧ GoodLabel i.id ∧ ZFree i.info) ∧ ([a, b].Pairwise fun a b => ¬ SameNoCase a.id b.id) ∧
    ([a, b].map fun i => i.labels.length + 2).sum ≤ 2147483391 ∧ ([a, b].map fun i => i.texts.length).sum < 2147483647 ∧
    ([a, b].map OwnIn.nrecs).sum = 2 ∧ ([a, b].map fun i => i.syms.length).sum = 2 := by
  have key : ∀ (v : Bool) (id : Str), ∃ a : OwnIn, a.Ok Cz.id ∧ a.id = id ∧ a.info = [] ∧ a.labels.length = 1 ∧ a.texts.length = 1 ∧ a.nrecs = 1 ∧ a.syms.length = 1 := by
    intro v id
    obtain ⟨g, syms, R, f, h1, ⟨_, _, h4⟩, h5, h6, h7, s, rfl, s1, s2⟩ := own_exists v
    have one : ∀ {m : Nat} {s' : Sym}, [s][m]? = some s' → m = 0 ∧ s' = s := by
      intro m s' h
      cases m with
      | zero => cases h; exact ⟨rfl, rfl⟩
      | succ m => cases h
    refine ⟨⟨id, [], ⟨[]⟩, g, [s], R, f⟩, ⟨h1, h5, ?_, ?_⟩, rfl, rfl, ?_, ?_, ?_, rfl⟩
    · intro s' hs' ha
      rw [List.mem_singleton.mp hs', s1] at ha
      cases ha
    · intro n s' hs' ha
      obtain ⟨rfl, rfl⟩ := one hs'
      rw [s1] at ha
      cases ha
    · obtain ⟨u, u1, u2⟩ := Option.map_eq_some_iff.mp h7
      unfold OwnIn.labels
      rw [u1]
      show (u.ents.map Prod.fst).length = 1
      rw [List.length_map, u2]
    · obtain ⟨l, l1, l2⟩ := Option.map_eq_some_iff.mp h6
      unfold OwnIn.texts
      rw [l1]
      simpa using l2
    · have : contentOf [s] R ((0 : Nat) + 1) = (⟨s.name, s.dim, s.typ, s.userInfo⟩, R 0) := by
        unfold contentOf targetOf readTarget
        rw [if_neg (by omega), at1_nat (n := 0) (a := s) rfl, Res.bind_ok, if_neg (by rw [s1]; decide)]
        rfl
      show ((List.range 1).map fun n : Nat => (contentOf [s] R ((n : Int) + 1)).2.length).sum = 1
      simp only [List.range_one, List.map_cons, List.map_nil, List.sum_cons, List.sum_nil]
      have := congrArg (fun p => p.2.length) this
      have h4 := congrArg List.length h4
      simp only [List.length_map, List.length_singleton] at h4
      simp only [] at this
      rw [this, h4]
      rfl
  obtain ⟨a, a1, a2, a3, a4, a5, a6, a7⟩ := key true [97]
  obtain ⟨b, b1, b2, b3, b4, b5, b6, b7⟩ := key false [98]
  refine ⟨a, b, ?_, ?_, by simp [a4, b4], by simp [a5, b5], by simp [a6, b6], by simp [a7, b7]⟩
  · intro i hi
    simp only [List.mem_cons, List.not_mem_nil, or_false] at hi
    rcases hi with rfl | rfl
    · exact ⟨a1, by rw [a2]; exact ⟨by decide, by decide⟩, by rw [a3]; intro b hb; cases hb⟩
    · exact ⟨b1, by rw [b2]; exact ⟨by decide, by decide⟩, by rw [b3]; intro b hb; cases hb⟩
  · refine List.pairwise_pair.mpr ?_
    rw [a2, b2]
    unfold SameNoCase
    decide

#print axioms C61_merge_partial
#print axioms C61_own_partial

end Gdx.Props
