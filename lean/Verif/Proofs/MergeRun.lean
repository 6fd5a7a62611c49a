import Verif.Proofs.MergeTable
import Verif.Proofs.MergeNames

/-! gdxmerge: the whole program without the option for big symbols. -/

namespace Gdx.Merge
open Gdx Gdx.Spec Gdx.Props

/-- What a sorting function does: the same records in the order of their keys -/
structure Sorting (srt : List MRec → List MRec) : Prop where
  perm : ∀ l, (srt l).Perm l
  sorted : ∀ l, (srt l).Pairwise fun a b => ¬ b.1 < a.1

/-- A symbol that the library can write: an identifier, no alias, numbers in range, and its records have different keys -/
structure SrcFits (s : Src) : Prop where
  name : Ident s.name
  typ : s.typ ≤ 3
  sub : I32 s.sub
  expl : ZFree s.expl ∧ s.expl.length ≤ 255
  keys : s.recs.Pairwise fun a b => ¬ List.Forall₂ SameNoCase a.key b.key

theorem labels_same {L : List Str} : ∀ {ks : List Int} {a b : List Str}, List.Forall₂ (Label L) ks a → List.Forall₂ (Label L) ks b → List.Forall₂ SameNoCase a b
  | [], _, _, .nil, .nil => .nil
  | _ :: _, _, _, .cons h1 t1, .cons h2 t2 => .cons (h1.same h2) (labels_same t1 t2)

theorem taken_mem {L P : List Str} {g : Gx} {typ : Nat} {id : Str} {rs : List (RecOut Str)} {xs : List MRec} (h : AllTaken L P g typ id rs xs) {x : MRec}
    (hx : x ∈ xs) : ∃ r ∈ rs, Taken L P g typ id r x := by
  obtain ⟨i, hi, he⟩ := List.mem_iff_getElem.mp hx
  have hi' : i < rs.length := by rw [h.length_eq]; exact hi
  have := (List.forall₂_iff_get.mp h).2 i hi' hi
  simp only [List.get_eq_getElem, he] at this
  exact ⟨_, List.getElem_mem hi', this⟩

theorem taken_nodup {L P : List Str} {g : Gx} {typ : Nat} {id : Str} {rs : List (RecOut Str)} {xs : List MRec} (h : AllTaken L P g typ id rs xs)
    (hk : rs.Pairwise fun a b => ¬ List.Forall₂ SameNoCase a.key b.key) : (xs.map Prod.fst).Nodup := by
  induction h with
  | nil => exact List.nodup_nil
  | cons h1 hr ih =>
    rename_i r x rs xs
    rw [List.pairwise_cons] at hk
    rw [List.map_cons, List.nodup_cons]
    refine ⟨fun hm => ?_, ih hk.2⟩
    obtain ⟨y, hy, he⟩ := List.mem_map.mp hm
    obtain ⟨r', hr', ht⟩ := taken_mem hr hy
    refine hk.1 r' hr' ?_
    have k1 := h1.key
    have k2 := ht.key
    rw [he] at k2
    cases labels_same k1 k2 with
    | cons _ h => exact h

/-- the records of a row have different keys -/
theorem row_nodup {L P : List Str} {typ : Nat} {ss : List Src} {xss : List (List MRec)} (h : List.Forall₂ (fun s xs => AllTaken L P s.a typ s.id s.recs xs) ss xss)
    (hk : ∀ s ∈ ss, SrcFits s) (hid : ss.Pairwise fun a b => ¬ SameNoCase a.id b.id) : (xss.flatten.map Prod.fst).Nodup := by
  induction h with
  | nil => exact List.nodup_nil
  | cons h1 hr ih =>
    rename_i s xs ss xss
    rw [List.pairwise_cons] at hid
    rw [List.flatten_cons, List.map_append, List.nodup_append]
    refine ⟨taken_nodup h1 (hk s (by simp)).keys, ih (fun s hs => hk s (by simp [hs])) hid.2, ?_⟩
    intro a ha b hb hab
    obtain ⟨x, hx, rfl⟩ := List.mem_map.mp ha
    obtain ⟨y, hy, rfl⟩ := List.mem_map.mp hb
    obtain ⟨ys, hys, hy⟩ := List.mem_flatten.mp hy
    obtain ⟨i, hi, he⟩ := List.mem_iff_getElem.mp hys
    have hi' : i < ss.length := by rw [hr.length_eq]; exact hi
    have hq := (List.forall₂_iff_get.mp hr).2 i hi' hi
    simp only [List.get_eq_getElem, he] at hq
    obtain ⟨r, _, t1⟩ := taken_mem h1 hx
    obtain ⟨r', _, t2⟩ := taken_mem hq hy
    have k1 := t1.key
    have k2 := t2.key
    rw [← hab] at k2
    cases labels_same k1 k2 with
    | cons h _ => exact hid.1 _ (List.getElem_mem hi') h

theorem row_mem {L P : List Str} {typ : Nat} {ss : List Src} {xss : List (List MRec)} (h : List.Forall₂ (fun s xs => AllTaken L P s.a typ s.id s.recs xs) ss xss)
    {x : MRec} (hx : x ∈ xss.flatten) : ∃ s ∈ ss, ∃ r ∈ s.recs, Taken L P s.a typ s.id r x := by
  obtain ⟨xs, h1, h2⟩ := List.mem_flatten.mp hx
  obtain ⟨i, hi, he⟩ := List.mem_iff_getElem.mp h1
  have hi' : i < ss.length := by rw [h.length_eq]; exact hi
  have hq := (List.forall₂_iff_get.mp h).2 i hi' hi
  simp only [List.get_eq_getElem, he] at hq
  obtain ⟨r, h3, h4⟩ := taken_mem hq h2
  exact ⟨_, List.getElem_mem hi', r, h3, h4⟩

/-! ### the input -/

/-- The input files `fs` with their symbols `srss`; all labels are out of `A`, all texts out of `X`. -/
structure Inputs (z : Cz) (A X : List Str) (fs : List InFile) (srss : List (List Src)) : Prop where
  inp : List.Forall₂ (Input z) fs srss
  ok : ∀ s ∈ srss.flatten, SrcOk A X s ∧ SrcFits s
  names : ∀ srs ∈ srss, srs.Pairwise fun a b => ¬ SameNoCase a.name b.name
  ids : fs.Pairwise fun a b => ¬ SameNoCase a.id b.id
  good : ∀ f ∈ fs, GoodLabel f.id ∧ ZFree f.info
  texts : ∀ t ∈ X, ZFree t
  empty : [] ∈ X
  nlabels : ((A.length + fs.length : Nat) : Int) ≤ 2147483391
  ntexts : X.length < 2147483648
  nrecs : recsOf srss.flatten ≤ 2147483647
  nsyms : (srss.flatten.length : Int) ≤ 2147483647

/-- symbols of one name come from different files -/
theorem Inputs.apart {z : Cz} {fs : List InFile} {srss : List (List Src)} (h : List.Forall₂ (Input z) fs srss)
    (hn : ∀ srs ∈ srss, srs.Pairwise fun a b => ¬ SameNoCase a.name b.name) (hi : fs.Pairwise fun a b => ¬ SameNoCase a.id b.id) :
    srss.flatten.Pairwise fun a b => SameNoCase a.name b.name → ¬ SameNoCase a.id b.id := by
  induction h with
  | nil => exact List.Pairwise.nil
  | cons h1 hr ih =>
    rename_i f srs fs srss
    rw [List.pairwise_cons] at hi
    rw [List.flatten_cons, List.pairwise_append]
    refine ⟨(hn srs (by simp)).imp fun h h' => absurd h' h, ih (fun s hs => hn s (by simp [hs])) hi.2, ?_⟩
    intro a ha b hb _ hid
    obtain ⟨bs, hbs, hb⟩ := List.mem_flatten.mp hb
    obtain ⟨i, hi', he⟩ := List.mem_iff_getElem.mp hbs
    have hi2 : i < fs.length := by rw [hr.length_eq]; exact hi'
    have hq := (List.forall₂_iff_get.mp hr).2 i hi2 hi'
    simp only [List.get_eq_getElem, he] at hq
    obtain ⟨_, _, _, _, _, _, _, f6, _⟩ := h1.file
    obtain ⟨_, _, _, _, _, _, _, k6, _⟩ := hq.file
    rw [(f6 a ha).1, (k6 b hb).1] at hid
    exact hi.1 _ (List.getElem_mem hi2) hid

theorem typSize_eq {t : Nat} (h : t ≤ 3) {n : Nat} (hn : typSize t = .ok n) : n = dataTypSize t := by
  interval_cases t <;> cases hn <;> rfl

/-- what the program collected can be written -/
theorem row_fits {o : Opt} {srt : List MRec → List MRec} (hs : Sorting srt) {z : Cz} {A X : List Str} {fs : List InFile} {srss : List (List Src)}
    (h : Inputs z A X fs srss) {u : Uel} (hu : Labels A u) {st : MState} (hc : Coll o X u srss.flatten st) : ∀ (i : Nat) (y : MSym), st.syms[i]? = some y →
      ∃ d, y.data = some d ∧ SymFits ((st.syms.take i).map MSym.name) st.pool y (srt d) := by
  intro i y hy
  obtain ⟨is, t1, t2, t3⟩ := table_rows o srss.flatten
  have hT := List.forall₂_iff_get.mp t3
  have hR := List.forall₂_iff_get.mp hc.rows
  obtain ⟨hi, hy⟩ := List.getElem?_eq_some_iff.mp hy
  have hit : i < (table o srss.flatten).length := by rw [hR.1]; exact hi
  have hii : i < is.length := by rw [hT.1]; exact hit
  have hrow := hT.2 i hii hit
  have hok := hR.2 i hit hi
  simp only [List.get_eq_getElem] at hrow hok
  rw [hy] at hok
  obtain ⟨s, a1, a2, a3, a4, a5, a6⟩ := hrow.lead
  have hsm : s ∈ srss.flatten := List.mem_of_getElem? a1.get
  obtain ⟨o1, o2⟩ := h.ok s hsm
  have hsub := hrow.srcs_sub
  obtain ⟨xss, hd, hx⟩ := hok.data
  have hkeys : (xss.flatten.map Prod.fst).Nodup := by
    refine row_nodup hx (fun s hs => (h.ok s (hsub.subset hs)).2) ?_
    have hall := hrow.srcs_name
    refine List.Pairwise.imp_of_mem (fun {a b} ha hb hab => hab ?_) ((Inputs.apart h.inp h.names h.ids).sublist hsub)
    exact (hall a ha).1.symm.trans (hall b hb).1
  have hperm := hs.perm xss.flatten
  have hrecs := table_recs o srss.flatten _ (List.getElem_mem hit)
  have hsz := hu.size
  have hnl := h.nlabels
  refine ⟨xss.flatten, hd, ?_⟩
  refine ⟨?_, ?_, ?_, ?_, ?_, ?_, ?_, ?_, ?_, ?_⟩
  · rw [hok.name, a2]
    exact o2.name
  · intro t ht hn
    obtain ⟨y', hy', rfl⟩ := List.mem_map.mp ht
    obtain ⟨j, hj, he⟩ := List.mem_iff_getElem.mp hy'
    rw [List.length_take] at hj
    rw [List.getElem_take] at he
    have hjt : j < (table o srss.flatten).length := by omega
    have hokj := hR.2 j hjt (by omega)
    simp only [List.get_eq_getElem, he] at hokj
    have := List.pairwise_iff_getElem.mp (table_names o srss.flatten) j i hjt hit (by omega)
    rw [hokj.name, hok.name] at hn
    exact this hn
  · rw [hok.name, a2]
    exact (ident_zfree ((C14_ident _).mpr o2.name)).1
  · rw [hok.expl]
    have : ∀ l : List Src, (∀ s ∈ l, ZFree s.expl) → ZFree (firstText l) := by
      intro l
      induction l with
      | nil => intro _; simp [firstText, ZFree]
      | cons x l ih =>
        intro hl
        unfold firstText
        split
        · exact ih fun s hs => hl s (by simp [hs])
        · exact hl x (by simp)
    exact this _ fun s hs => (h.ok s (hsub.subset hs)).2.expl.1
  · rw [hok.dim, a3]
    have := a1.may.1
    omega
  · rw [hok.typ, a4]
    exact o2.typ
  · rw [hok.sub, a5]
    exact o2.sub
  · intro x hxm
    obtain ⟨s', s1, r, s2, s3⟩ := row_mem hx (hperm.mem_iff.mp hxm)
    obtain ⟨n1, n2, n3⟩ := hrow.srcs_name s' s1
    obtain ⟨p1, p2⟩ := h.ok s' (hsub.subset s1)
    obtain ⟨v1, v2⟩ := p1.recs r s2
    have hlen : r.key.length = s'.dim := by
      have hdd : s'.dim < 20 := by rw [n2, a3]; exact a1.may.1
      have : ∀ (rs : List (RecOut Str)) k, Firsts s'.dim k rs → ∀ r ∈ rs, r.key.length = s'.dim := by
        intro rs
        induction rs with
        | nil => intro _ _ r hr; cases hr
        | cons q rs ih =>
          intro k hk r hr
          rcases List.mem_cons.mp hr with rfl | hr
          · exact hk.1
          · exact ih _ hk.2.2 r hr
      exact this _ _ (p1.frst hdd) r s2
    refine ⟨?_, ?_, ?_, ?_⟩
    · rw [s3.key.length_eq, List.length_cons, hlen, hok.dim, n2]
      omega
    · have hsz := typSize_eq p2.typ v1.1
      have htv := s3.vals
      unfold TakenVals at htv
      rw [hok.typ, ← n3]
      split at htv
      · obtain ⟨d, t, n, e1, _, e2, _⟩ := htv
        rw [← hsz, e1, e2]
        simp only [List.length_cons, List.length_nil]
      · rw [htv, hsz]
    · intro k hk
      obtain ⟨j, hj, he⟩ := List.mem_iff_getElem.mp hk
      have hj' : j < (s'.id :: r.key).length := by rw [← s3.key.length_eq]; exact hj
      have hl := (List.forall₂_iff_get.mp s3.key).2 j hj hj'
      simp only [List.get_eq_getElem, he] at hl
      obtain ⟨l1, t, l2, _⟩ := hl
      have := (List.getElem?_eq_some_iff.mp l2).1
      simp only [Uel.strs, List.length_map] at this
      omega
    · intro ht
      have htv := s3.vals
      unfold TakenVals at htv
      rw [if_pos (by rw [← hok.typ]; exact ht)] at htv
      obtain ⟨d, t, n, _, _, e2, e3, e4, e5⟩ := htv
      exact ⟨n, t, e2, e3, e4, e5, h.texts t (hc.pool.sub t (List.mem_of_getElem? e5))⟩
  · exact strict_of (hs.sorted _) ((hperm.map _).nodup_iff.mpr hkeys)
  · rw [hperm.length_eq, taken_len hx]
    have := h.nrecs
    unfold intMax
    omega

/-! ### the whole program -/

/-- the record `x'` of the merged file stands for the record `r` of the symbol `s` -/
structure Moved (L T : List Str) (typ : Nat) (p : Src × RecOut Str) (x : Given) : Prop where
  key : List.Forall₂ (Label L) x.1 (p.1.id :: p.2.key)
  vals : if typ = dtSet then ∃ d t, p.2.vals = [d] ∧ HasText p.1.a d t ∧ ∃ j : Nat, x.2 = [intDbl j] ∧ T[j]? = some (makeGoodExplText (t.take 255))
    else x.2 = p.2.vals

/-- the records of all these symbols -/
def allRecs (l : List Src) : List (Src × RecOut Str) := l.flatMap fun s => s.recs.map fun r => (s, r)

theorem moved_all {L P T : List Str} {typ : Nat} {ss : List Src} {xss : List (List MRec)} (h : List.Forall₂ (fun s xs => AllTaken L P s.a typ s.id s.recs xs) ss xss) :
    List.Forall₂ (fun p x => ∀ x', Wr P T typ x x' → Moved L T typ p x') (allRecs ss) xss.flatten := by
  induction h with
  | nil => exact .nil
  | cons h1 _ ih =>
    rename_i s xs ss xss
    unfold allRecs at ih ⊢
    rw [List.flatMap_cons, List.flatten_cons]
    refine List.rel_append ?_ ih
    rw [List.forall₂_map_left_iff]
    refine List.Forall₂.imp ?_ h1
    intro r x ht x' hw
    refine ⟨by rw [hw.key]; exact ht.key, ?_⟩
    have hv := ht.vals
    have hw' := hw.vals
    unfold TakenVals at hv
    split
    · rename_i hs
      rw [if_pos hs] at hv hw'
      obtain ⟨d, t, n, e1, e2, e3, e4, e5, e6⟩ := hv
      obtain ⟨n', t', j, k1, k2, k3, k4, k5, k6⟩ := hw'
      have hnn : n = n' := by
        have : intDbl n = intDbl n' := by
          rw [e3] at k1
          exact (List.cons.inj k1).1
        have f1 := fv_intDbl e4 e5
        rw [this, fv_intDbl k2 k3] at f1
        injection f1 with f1
        exact_mod_cast f1.symm
      subst hnn
      rw [e6] at k4
      cases k4
      exact ⟨d, t, e1, e2, j, k5, k6⟩
    · rename_i hs
      rw [if_neg hs] at hv hw'
      exact hw'.trans hv

/-- a permutation of the second list is one of the first -/
theorem forall₂_perm {α β : Type} {R : α → β → Prop} {l : List α} {m m' : List β} (h : List.Forall₂ R l m) (hp : m'.Perm m) :
    ∃ l', l'.Perm l ∧ List.Forall₂ R l' m' := by
  induction hp generalizing l with
  | nil => exact ⟨[], by cases h; exact .nil, .nil⟩
  | cons x hp ih =>
    cases h with
    | cons h1 h2 =>
      obtain ⟨l', k1, k2⟩ := ih h2
      exact ⟨_ :: l', k1.cons _, .cons h1 k2⟩
  | swap x y l =>
    cases h with
    | cons h1 h2 =>
      cases h2 with
      | cons h3 h4 => exact ⟨_, .swap _ _ _, .cons h3 (.cons h1 h4)⟩
  | trans _ _ ih1 ih2 =>
    obtain ⟨l1, a1, a2⟩ := ih2 h
    obtain ⟨l2, b1, b2⟩ := ih1 a2
    exact ⟨l2, b1.trans a1, b2⟩

/-- symbol `i` (from 0) of the merged file is the row `r` -/
def RowIn (e : Env) (z : Cz) (L T : List Str) (g : Gx) (i : Nat) (r : Row) : Prop :=
  ∃ ps ys, ps.Perm (allRecs r.srcs) ∧ List.Forall₂ (Moved L T r.typ) ps ys ∧ Written e z r.name (r.dim + 1) r.typ r.sub i (ys.map (entryOf SVTab.default)) g ∧
    Explained g i (makeGoodExplText (firstText r.srcs))

theorem Moved.mono {L L' T T' : List Str} {typ : Nat} {p : Src × RecOut Str} {x : Given} (h : Moved L T typ p x) (hl : L <+: L') (ht : T <+: T') :
    Moved L' T' typ p x := by
  refine ⟨h.key.imp fun _ _ h => h.mono hl, ?_⟩
  have hv := h.vals
  split
  · rename_i hs
    rw [if_pos hs] at hv
    obtain ⟨d, t, a1, a2, j, a3, a4⟩ := hv
    refine ⟨d, t, a1, a2, j, a3, ?_⟩
    obtain ⟨q, rfl⟩ := ht
    rw [List.getElem?_append_left (List.getElem?_eq_some_iff.mp a4).1]
    exact a4
  · rename_i hs
    rw [if_neg hs] at hv
    exact hv

theorem row_srcs {o : Opt} {l : List Src} {i : Nat} {r : Row} (h : (table o l)[i]? = some r) : r.srcs.Sublist l := by
  obtain ⟨is, _, _, t3⟩ := table_rows o l
  obtain ⟨hi, rfl⟩ := List.getElem?_eq_some_iff.mp h
  have hT := List.forall₂_iff_get.mp t3
  exact (hT.2 i (by rw [hT.1]; exact hi) hi).srcs_sub

theorem firstText_le {n : Nat} : ∀ {l : List Src}, (∀ s ∈ l, s.expl.length ≤ n) → (firstText l).length ≤ n
  | [], _ => by simp [firstText]
  | x :: l, h => by
    unfold firstText
    split
    · exact firstText_le fun s hs => h s (by simp [hs])
    · exact h x (by simp)

theorem Labels.empty (A : List Str) : Labels A Uel.empty := ⟨⟨by simp [Uel.empty], rfl, ⟨List.Pairwise.nil, by simp [Uel.empty, Uel.strs]⟩⟩, by simp [Uel.empty, Uel.strs]⟩

theorem mergeTo_ok {o : Opt} {e : Env} {z : Cz} (hz : z.Good) {srt : List MRec → List MRec} (hs : Sorting srt) (hbig : o.big = none) (hcp : I32 o.compr)
    (hw : ∃ m r, openWriteEx e Gx.new false 0 producer o.compr = .ok (m, r)) {A X : List Str} {fs : List InFile} {srss : List (List Src)} (h : Inputs z A X fs srss) :
    ∃ s u T n its ys, mergeTo o e z srt fs = .ok s ∧ s.out.mode = .wInit ∧ After e z s.out ∧ s.out.uel = some u ∧ textsOf s.out = some T ∧
      (∀ (i : Nat) r, (table o srss.flatten)[i]? = some r → RowIn e z u.strs T s.out i r) ∧
      (∀ r ∈ table o srss.flatten, ¬ SameNoCase r.name (setName n)) ∧
      List.Forall₂ (NameRec u.strs T) fs its ∧ its.Perm ys ∧
      Written e z (setName n) 1 0 0 (table o srss.flatten).length (ys.map (entryOf SVTab.default)) s.out ∧
      namesOf s.out = some ((table o srss.flatten).map Row.name ++ [setName n]) ∧ s.errs = errsOf o srss.flatten ∧
      Explained s.out (table o srss.flatten).length mergeSet := by
  obtain ⟨m0, r0, hw⟩ := hw
  have hopen : m0.mode = .wInit ∧ m0.names = some [] ∧ m0.uel = some Uel.empty ∧ m0.acros = some [] ∧ m0.texts = some [([], 0)] ∧ m0.sv = SVTab.default := by
    unfold openWriteEx at hw
    rw [if_neg (by simp [Gx.new]), if_neg (by simp), if_neg (by simp)] at hw
    obtain ⟨hd, _, hw⟩ := Res.bind_eq_ok.mp hw
    cases hw
    exact ⟨rfl, rfl, rfl, rfl, rfl, rfl⟩
  obtain ⟨w1, w2, w3, w4, w5, w6⟩ := hopen
  have haft : After e z { m0 with storeDom := false } := by
    refine ⟨[.openWrite false 0 producer o.compr, .storeDomainSets false], ?_, ?_, ?_⟩
    · intro c hc
      simp only [List.mem_cons, List.not_mem_nil, or_false] at hc
      rcases hc with rfl | rfl
      · exact ⟨by unfold I32; omega, by unfold producer ZFree; decide, hcp⟩
      · trivial
    · intro c hc
      simp only [List.mem_cons, List.not_mem_nil, or_false] at hc
      rcases hc with rfl | rfl <;> exact ⟨fun d m h => (by cases h), fun d p h => (by cases h)⟩
    · show (stateOf (openWriteEx e Gx.new false 0 producer o.compr)).bind _ = _
      rw [hw]
      rfl
  have hu0 : ({ m0 with storeDom := false } : Gx) = { m0 with storeDom := false, uel := some Uel.empty, modeAft := m0.modeAft } := by
    rw [← w3]
  have hOK : List.Forall₂ (fun f srs => Input z f srs ∧ ∀ s ∈ srs, SrcOk A X s) fs srss := by
    have : ∀ {fs : List InFile} {srss : List (List Src)}, List.Forall₂ (Input z) fs srss → (∀ s ∈ srss.flatten, SrcOk A X s) →
        List.Forall₂ (fun f srs => Input z f srs ∧ ∀ s ∈ srs, SrcOk A X s) fs srss := by
      intro fs srss h
      induction h with
      | nil => intro _; exact .nil
      | cons h _ ih =>
        intro hk
        exact .cons ⟨h, fun s hs => hk s (by simp [hs])⟩ (ih fun s hs => hk s (by rw [List.flatten_cons]; exact List.mem_append_right _ hs))
    exact this h.inp fun s hs => (h.ok s hs).1
  have hnl := h.nlabels
  obtain ⟨st, u1, q1, a1, a2, a3, a4, a5⟩ := addFiles_ok o e z (m := { m0 with storeDom := false }) w1 (by omega) h.ntexts hOK (Labels.empty A)
    (st := { out := { m0 with storeDom := false } }) (pre := []) (q := m0.modeAft) hu0
    ⟨.nil, ⟨List.nodup_singleton _, by intro t ht; rw [List.mem_singleton.mp ht]; exact h.empty, rfl⟩, rfl, rfl⟩ (by rw [List.nil_append]; exact h.nrecs)
  rw [List.nil_append] at a4
  have hlen : st.syms.length = (table o srss.flatten).length := a4.rows.length_eq.symm
  have hout : Out e z ((st.syms.take 0).map MSym.name) [[]] st.out := by
    refine ⟨haft.more a5, by rw [a2]; exact w1, by rw [a2]; unfold namesOf; rw [w2]; rfl, ⟨[], by rw [a2]; exact w4, by simp⟩, by rw [a2]; unfold textsOf; rw [w5]; rfl, rfl,
      by rw [a2]; exact w6⟩
  obtain ⟨s', T1, b1, b2, b3, b4, b5, b6, b7⟩ := writeSyms_ok (o := o) hz (srt := srt) a4.pool.fst (L := st.syms) (row_fits hs h a3 a4) st.syms.length 0 (s := st) (by omega) rfl
    (fun _ _ => rfl) hout
  have hu2 : s'.out.uel = some u1 := by rw [b4, a2]
  have hsz := a3.size
  have htl : (table o srss.flatten).length ≤ srss.flatten.length := by
    obtain ⟨is, t1, t2, t3⟩ := table_rows o srss.flatten
    rw [← t3.length_eq]
    have hsub : is ⊆ List.range srss.flatten.length := by
      intro i hi
      obtain ⟨s, hs⟩ := (t2 i).mp hi
      rw [List.mem_range]
      exact (List.getElem?_eq_some_iff.mp hs.get).1
    have hnd : is.Nodup := t1.imp fun h => Nat.ne_of_lt h
    have := (hnd.subperm hsub).length_le
    simpa using this
  have hns := h.nsyms
  have hnames : st.syms.map MSym.name = (table o srss.flatten).map Row.name := by
    have hr := a4.rows
    generalize table o srss.flatten = tb at hr
    generalize st.syms = ls at hr
    clear * - hr
    induction hr with
    | nil => rfl
    | cons h _ ih => rw [List.map_cons, List.map_cons, h.name, ih]
  obtain ⟨n, g', u', T', its, ys, c1, c2, c3, c4, c5, c6, c7, c8, c9, c10, c11, c12, c13, c14⟩ := writeNameList_ok hz b2 hu2 h.good h.ids (by rw [List.length_map, hlen]; omega) (by omega)
  rw [hnames] at c2 c13
  rw [List.length_map, hlen] at c12 c14
  refine ⟨{ s' with out := g' }, u', T', n, its, ys, ?_, c3, c4, c6, c8, ?_, ?_, c10, c11, c12, c13, b7.trans a4.errs, c14⟩
  · unfold mergeTo
    rw [hw]
    simp only [Res.bind_ok, hbig, a1, List.range_eq_range', b1, c1]
    rfl
  · intro i r hr
    obtain ⟨y, hy, hok⟩ := forall₂_get a4.rows hr
    obtain ⟨d, ys, e1, e2, e3, e4⟩ := (b6 i y (Nat.zero_le _) hy).more hz b2.aft c13 c9 c5
    obtain ⟨xss, x1, x2⟩ := hok.data
    rw [e1] at x1
    cases x1
    obtain ⟨ps, p1, p2⟩ := forall₂_perm (moved_all (T := T') x2) (hs.perm xss.flatten)
    refine ⟨ps, ys, p1, ?_, ?_, ?_⟩
    · rw [hok.typ] at e2
      have : ∀ {ps : List (Src × RecOut Str)} {l ys : List MRec}, List.Forall₂ (fun p x => ∀ x', Wr st.pool T' r.typ x x' → Moved u1.strs T' r.typ p x') ps l →
          List.Forall₂ (Wr st.pool T' r.typ) l ys → List.Forall₂ (Moved u'.strs T' r.typ) ps ys := by
        intro ps l ys h1
        induction h1 generalizing ys with
        | nil => intro h2; cases h2; exact .nil
        | cons h1 _ ih =>
          intro h2
          cases h2 with
          | cons h2 t2 => exact .cons ((h1 _ h2).mono c7 (List.prefix_refl _)) (ih t2)
      exact this p2 e2
    · rw [hok.name, hok.dim, hok.typ, hok.sub] at e3
      exact e3
    · rw [hok.expl, assignExpl_short (firstText_le fun s hs => (h.ok s ((row_srcs hr).subset hs)).2.expl.2)] at e4
      exact e4
  · intro r hr
    exact c2 _ (List.mem_map.mpr ⟨r, hr, rfl⟩)

end Gdx.Merge
