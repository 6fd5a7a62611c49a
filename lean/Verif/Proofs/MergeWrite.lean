import Verif.Proofs.MergeFiles
import Verif.Props.Texts
import Verif.Props.Acronyms
import Verif.Proofs.Explained

/-! gdxmerge: the symbols are written. -/

namespace Gdx.Merge
open Gdx Gdx.Spec Gdx.Props

/-! ### what writing the records of a symbol does to the tables -/

def namesOf (g : Gx) : Option (List Str) := g.names.map fun l => l.map Sym.name
def textsOf (g : Gx) : Option (List Str) := g.texts.map fun l => l.map Prod.fst

/-- the names of the symbols and the labels stay, acronyms without name and texts are added -/
structure Tabs (g g' : Gx) : Prop where
  uel : g'.uel = g.uel
  names : namesOf g' = namesOf g
  acros : ∀ l, g.acros = some l → ∃ l', g'.acros = some l' ∧ ∀ a ∈ l', a ∈ l ∨ a.name = []
  texts : ∀ l, textsOf g = some l → ∃ l', textsOf g' = some l' ∧ l <+: l'
  sv : g'.sv = g.sv

theorem Tabs.refl (g : Gx) : Tabs g g :=
  ⟨rfl, rfl, fun l h => ⟨l, h, fun a ha => Or.inl ha⟩, fun l h => ⟨l, h, List.prefix_refl _⟩, rfl⟩

theorem Tabs.trans {a b c : Gx} (h : Tabs a b) (k : Tabs b c) : Tabs a c := by
  refine ⟨k.uel.trans h.uel, k.names.trans h.names, ?_, ?_, k.sv.trans h.sv⟩
  · intro l hl
    obtain ⟨l1, h1, h2⟩ := h.acros l hl
    obtain ⟨l2, h3, h4⟩ := k.acros l1 h1
    refine ⟨l2, h3, fun a ha => ?_⟩
    rcases h4 a ha with h5 | h5
    · exact h2 a h5
    · exact Or.inr h5
  · intro l hl
    obtain ⟨l1, h1, h2⟩ := h.texts l hl
    obtain ⟨l2, h3, h4⟩ := k.texts l1 h1
    exact ⟨l2, h3, h2.trans h4⟩

theorem map_set_same {α β : Type} (f : α → β) {l : List α} {n : Nat} {a b : α} (h : l[n]? = some a) (hf : f b = f a) : (l.set n b).map f = l.map f := by
  apply List.ext_getElem?
  intro i
  rw [List.getElem?_map, List.getElem?_map, List.getElem?_set]
  split
  · rename_i hi
    subst hi
    rw [if_pos (List.getElem?_eq_some_iff.mp h).1, h]
    simp [hf]
  · rfl

theorem doWrite_tabs {g g' : Gx} {k : List Int} {v : List Dbl} (h : doWrite g k v = .ok (g', true)) :
    Tabs g g' ∧ g'.texts = g.texts ∧ g'.errList = g.errList ∧ g'.acros.isSome = true := by
  obtain ⟨la, la', ha1, ha2, _, _, ha3⟩ := C32_write g g' k v h
  obtain ⟨_, _, _, syms, bad, _, _, hh⟩ := doWrite_cases h
  rcases hh with ⟨_, hb, _⟩ | ⟨_, o, _, ⟨_, hb, _⟩ | ⟨_, hb, _⟩ | ⟨bs, l, _, ha⟩⟩
  · cases hb
  · cases hb
  · cases hb
  · obtain ⟨_, hmax, acros, acros', n, syms, s, s', e1, e2, e3, e4, e5, e6, rfl⟩ := acceptRec_cases ha
    refine ⟨⟨rfl, ?_, ?_, fun l h => ⟨l, h, List.prefix_refl _⟩, rfl⟩, rfl, rfl, rfl⟩
    · unfold namesOf
      rw [e4]
      simp only [Option.map_some]
      congr 1
      refine map_set_same _ e5 ?_
      obtain ⟨t, bm, _, rfl⟩ := noteElem_ok e6
      rfl
    · intro l hl
      rw [ha1] at hl
      cases hl
      exact ⟨la', ha2, fun a h => (ha3 a h).imp id And.left⟩

theorem dataWriteRaw_tabs {g g' : Gx} (hr : RawMode g.mode) {k : List Int} {v : List Dbl} (h : dataWriteRaw g k v = .ok (g', true)) :
    Tabs g g' ∧ g'.texts = g.texts ∧ g'.errList = g.errList ∧ g'.acros.isSome = true := by
  rw [dataWriteRaw_raw hr] at h
  obtain ⟨h1, h2, h3, h4⟩ := doWrite_tabs h
  exact ⟨⟨h1.uel, h1.names, h1.acros, h1.texts, h1.sv⟩, h2, h3, h4⟩

theorem addSetText_tabs {g : Gx} {T : List Str} (hT : textsOf g = some T) (t : Str) :
    ∃ (g' : Gx) (T' : List Str) (n : Nat) (x : Option (List (Str × Int))), addSetText g t = (g', (true, (n : Int))) ∧ g' = { g with texts := x } ∧
      textsOf g' = some T' ∧ T <+: T' ∧ T'[n]? = some (makeGoodExplText (t.take 255)) := by
  unfold textsOf at hT
  obtain ⟨l, hl, rfl⟩ := Option.map_eq_some_iff.mp hT
  unfold addSetText
  rw [hl]
  dsimp only
  cases hf : lookup true (makeGoodExplText (t.take 255)) (l.map Prod.fst) with
  | some n =>
    obtain ⟨x, h1, h2⟩ := lookup_some hf
    refine ⟨g, l.map Prod.fst, n, some l, rfl, ?_, ?_, List.prefix_refl _, ?_⟩
    · rw [← hl]
    · unfold textsOf; rw [hl]; rfl
    · rw [h1]
      congr 1
  | none =>
    refine ⟨_, l.map Prod.fst ++ [makeGoodExplText (t.take 255)], l.length, _, rfl, rfl, ?_, ⟨_, rfl⟩, ?_⟩
    · unfold textsOf; simp
    · rw [List.getElem?_append_right (by simp)]
      simp

theorem _root_.Gdx.RawLog.append {e : Env} {z : Cz} {a b c : Gx} {l m : List RawEntry} (h : RawLog e z a l b) (k : RawLog e z b m c) : RawLog e z a (l ++ m) c := by
  induction h with
  | nil g => exact k
  | write hw _ ih => exact .write hw (ih k)
  | other hc hw hs _ ih => exact .other hc hw hs (ih k)

/-! ### records -/

/-- `x'` is the record that is written for the record `x` of the program: a set has the number of its text in the table `T` -/
structure Wr (P T : List Str) (typ : Nat) (x x' : MRec) : Prop where
  key : x'.1 = x.1
  vals : if typ = dtSet then ∃ (n : Int) (t : Str) (j : Nat), x.2 = [intDbl n] ∧ 0 ≤ n ∧ n < 2147483648 ∧ P[n.toNat]? = some t ∧ x'.2 = [intDbl j] ∧
      T[j]? = some (makeGoodExplText (t.take 255)) else x'.2 = x.2

theorem Wr.mono {P T T' : List Str} {typ : Nat} {x x' : MRec} (h : Wr P T typ x x') (ht : T <+: T') : Wr P T' typ x x' := by
  refine ⟨h.key, ?_⟩
  have := h.vals
  split
  · rename_i hs
    rw [if_pos hs] at this
    obtain ⟨n, t, j, h1, h2, h3, h4, h5, h6⟩ := this
    refine ⟨n, t, j, h1, h2, h3, h4, h5, ?_⟩
    obtain ⟨q, rfl⟩ := ht
    rw [List.getElem?_append_left (List.getElem?_eq_some_iff.mp h6).1]
    exact h6
  · rename_i hs
    rw [if_neg hs] at this
    exact this

/-- the records `xs` of the symbol that was begun with `g1` are written -/
structure Mid (e : Env) (z : Cz) (g1 : Gx) (xs : List Given) (g : Gx) : Prop where
  log : RawLog e z g1 (xs.map (entryOf g1.sv)) g
  mode : RawMode g.mode
  same : WrSame g1 g
  tabs : Tabs g1 g
  errs : g.errList = none
  acr : g.acros.isSome = true

theorem logRecs_entries (sv : SVTab) (xs : List Given) : logRecs (xs.map (entryOf sv)) = xs.map fun x => stored sv x.1 x.2 := by
  unfold logRecs
  rw [List.filter_eq_self.mpr (by
    intro a ha
    obtain ⟨x, _, rfl⟩ := List.mem_map.mp ha
    rfl), List.map_map]
  rfl

theorem lastKey_entries (sv : SVTab) : ∀ (xs : List Given), ∀ k, lastKey none (xs.map fun x => stored sv x.1 x.2) = some k → ∃ x ∈ xs, x.1 = k := by
  intro xs
  induction xs using List.reverseRecOn with
  | nil => intro k h; cases h
  | append_singleton l x ih =>
    intro k h
    rw [List.map_append, List.map_singleton, lastKey_snoc] at h
    cases h
    exact ⟨x, by simp, rfl⟩

/-- one record -/
theorem Mid.write {e : Env} {z : Cz} {g1 g : Gx} {xs : List Given} (h : Mid e z g1 xs g) {m : Nat} {d : SymDesc} (hse : Sess g1 m d [] [])
    (hr1 : RawMode g1.mode) (hw : ∀ w ∈ g1.wrBits, w = none) (hk : ∀ x ∈ xs, ∀ k ∈ x.1, KeyOk k) {x : Given} (hx : GivenFits g1 x)
    (hl : (xs.length : Int) + 1 ≤ intMax) (hs : ∀ y ∈ xs, y.1 < x.1) :
    ∃ g', dataWriteRaw g x.1 x.2 = .ok (g', true) ∧ Mid e z g1 (xs ++ [x]) g' ∧ g'.texts = g.texts := by
  have hkeys : ∀ y ∈ xs.map (entryOf g1.sv), ∀ k ∈ y.key, 0 ≤ k := by
    intro y hy k hkk
    obtain ⟨y', hy', rfl⟩ := List.mem_map.mp hy
    exact (hk y' hy' k hkk).1
  have hS := hse.rawLog h.log hr1 hkeys h.mode
  rw [List.nil_append, logRecs_entries] at hS
  obtain ⟨g', w1, w2, w3, w4, w5⟩ := hS.writes e z [x] h.mode (doms := []) (fun y hy => by
      rw [List.mem_singleton.mp hy]
      exact hx.same h.same) (DomsFix.none (by rw [h.same.wrBits]; exact hw)) h.acr (by
      intro r hr k hkk
      obtain ⟨y, hy, rfl⟩ := List.mem_map.mp hr
      exact hk y hy k hkk) (by simpa using hl) (by rw [h.errs]; simp)
  have hv : verdict [] g.nd (lastKey none (xs.map fun x => stored g1.sv x.1 x.2)) x.1 = .stored := by
    unfold verdict
    rw [outsides_nil, if_neg (by simp)]
    split
    · rfl
    · split
      · rfl
      · rename_i k hk'
        obtain ⟨y, hy, rfl⟩ := lastKey_entries g1.sv xs k hk'
        rw [if_pos (hs y hy)]
  obtain ⟨k, v⟩ := x
  simp only [verdicts, seqLog, hv, List.map_cons, List.map_nil, decide_true] at w1 w3
  unfold writesRaw at w1
  obtain ⟨⟨g2, b⟩, p1, p2⟩ := Res.bind_eq_ok.mp w1
  simp only [writesRaw, Res.bind_ok, Res.pure_eq] at p2
  injection p2 with p2
  injection p2 with p3 p4
  injection p4 with p4 _
  subst p3 p4
  obtain ⟨t1, t2, t3, t4⟩ := dataWriteRaw_tabs h.mode p1
  refine ⟨g2, p1, ⟨?_, w2, h.same.trans w4, h.tabs.trans t1, t3.trans h.errs, t4⟩, t2⟩
  rw [List.map_append]
  rw [h.same.sv] at w3
  exact h.log.append w3

/-- what is needed of a record of the program -/
structure RecFits (P : List Str) (g1 : Gx) (typ : Nat) (x : MRec) : Prop where
  fits : GivenFits g1 x
  set : typ = dtSet → ∃ (n : Int) (t : Str), x.2 = [intDbl n] ∧ 0 ≤ n ∧ n < 2147483648 ∧ P[n.toNat]? = some t ∧ ZFree t
  some : x.2 ≠ []

theorem Mid.text {e : Env} {z : Cz} {g1 g : Gx} {xs : List Given} (h : Mid e z g1 xs g) {T : List Str} (hT : textsOf g = some T) {t : Str} (ht : ZFree t) :
    ∃ (g' : Gx) (T' : List Str) (n : Nat), addSetText g t = (g', (true, (n : Int))) ∧ Mid e z g1 xs g' ∧ textsOf g' = some T' ∧ T <+: T' ∧
      T'[n]? = some (makeGoodExplText (t.take 255)) := by
  obtain ⟨g', T', n, x, h1, h2, h3, h4, h5⟩ := addSetText_tabs hT t
  have hlog : RawLog e z g [] g' := by
    refine .other (c := .addSetText t) (Or.inl rfl) ht ?_ (.nil _)
    show Res.ok (addSetText g t).1 = _
    rw [h1]
  have htab : Tabs g g' := by
    refine ⟨by rw [h2], by rw [h2]; rfl, fun l hl => ⟨l, by rw [h2]; exact hl, fun a ha => Or.inl ha⟩, fun l hl => ?_, by rw [h2]⟩
    rw [hT] at hl
    cases hl
    exact ⟨T', h3, h4⟩
  refine ⟨g', T', n, h1, ⟨?_, by rw [h2]; exact h.mode, ?_, h.tabs.trans htab, by rw [h2]; exact h.errs, by rw [h2]; exact h.acr⟩, h3, h4, h5⟩
  · have := h.log.append hlog
    rwa [List.append_nil] at this
  · refine h.same.trans ?_
    rw [h2]
    exact ⟨rfl, rfl, rfl, rfl, rfl, id, rfl, rfl, rfl⟩

theorem writeRec_ok {e : Env} {z : Cz} {P : List Str} (hP : P[0]? = some []) {g1 : Gx} {m : Nat} {d : SymDesc} (hse : Sess g1 m d [] [])
    (hr1 : RawMode g1.mode) (hw : ∀ w ∈ g1.wrBits, w = none) {typ : Nat} {y : MRec} {xs : List Given} {g : Gx} {T : List Str} (h : Mid e z g1 xs g)
    (hT : textsOf g = some T) (hT0 : T[0]? = some []) (hy : RecFits P g1 typ y) (hk : ∀ x ∈ xs, ∀ k ∈ x.1, KeyOk k) (hl : (xs.length : Int) + 1 ≤ intMax)
    (hlt : ∀ x ∈ xs, x.1 < y.1) :
    ∃ g' T' y', writeRec P typ g y = .ok g' ∧ Mid e z g1 (xs ++ [y']) g' ∧ textsOf g' = some T' ∧ T <+: T' ∧ Wr P T' typ y y' := by
  unfold writeRec
  obtain ⟨v0, vs, hv⟩ := List.exists_cons_of_ne_nil hy.some
  rw [hv]
  simp only [List.head?_cons, need, Res.bind_ok]
  by_cases ht : typ = dtSet
  · obtain ⟨n, t, q1, q2, q3, q4, q5⟩ := hy.set ht
    rw [hv] at q1
    injection q1 with q6 q7
    subst q6 q7
    rw [nonZero_intDbl q2 q3]
    by_cases hn : n = 0
    · subst hn
      rw [if_neg (by simp)]
      obtain ⟨g', w1, w2, w3⟩ := h.write hse hr1 hw hk hy.fits hl hlt
      rw [hv] at w1
      refine ⟨g', T, y, by rw [w1]; rfl, w2, by unfold textsOf at hT ⊢; rw [w3]; exact hT, List.prefix_refl _, rfl, ?_⟩
      rw [if_pos ht]
      refine ⟨0, t, 0, hv, q2, q3, q4, hv, ?_⟩
      rw [show (0 : Int).toNat = 0 from rfl, hP] at q4
      cases q4
      rw [hT0]
      rfl
    · rw [if_pos (by simp [ht, hn])]
      rw [roundInt_intDbl q2 q3]
      simp only [Res.bind_ok]
      rw [show at0 P n = .ok t by
        unfold at0
        rw [if_pos q2, q4]]
      simp only [Res.bind_ok]
      obtain ⟨g2, T2, j, a1, a2, a3, a4, a5⟩ := h.text hT q5
      rw [a1]
      dsimp only [List.drop]
      obtain ⟨g', w1, w2, w3⟩ := a2.write hse hr1 hw hk (x := (y.1, [intDbl j])) ⟨hy.fits.len, hy.fits.key, by rw [← hy.fits.vals, hv]; simp only [List.length_cons, List.length_nil], hy.fits.okk⟩
        hl hlt
      dsimp only at w1
      refine ⟨g', T2, (y.1, [intDbl j]), by rw [w1]; rfl, w2, by unfold textsOf at a3 ⊢; rw [w3]; exact a3, a4, rfl, ?_⟩
      rw [if_pos ht]
      exact ⟨n, t, j, hv, q2, q3, q4, rfl, a5⟩
  · rw [if_neg (by simp [ht])]
    obtain ⟨g', w1, w2, w3⟩ := h.write hse hr1 hw hk hy.fits hl hlt
    rw [hv] at w1
    refine ⟨g', T, y, by rw [w1]; rfl, w2, by unfold textsOf at hT ⊢; rw [w3]; exact hT, List.prefix_refl _, rfl, ?_⟩
    rw [if_neg ht]

theorem writeRecs_ok {e : Env} {z : Cz} {P : List Str} (hP : P[0]? = some []) {g1 : Gx} {m : Nat} {d : SymDesc} (hse : Sess g1 m d [] [])
    (hr1 : RawMode g1.mode) (hw : ∀ w ∈ g1.wrBits, w = none) {typ : Nat} (ys : List MRec) : ∀ {xs : List Given} {g : Gx} {T : List Str}, Mid e z g1 xs g →
      textsOf g = some T → T[0]? = some [] → (∀ y ∈ ys, RecFits P g1 typ y) → (∀ x ∈ xs, ∀ k ∈ x.1, KeyOk k) → ((xs.length + ys.length : Nat) : Int) ≤ intMax →
      (xs.map Prod.fst ++ ys.map Prod.fst).Pairwise (· < ·) →
      ∃ g' T' ys', writeRecs P typ g ys = .ok g' ∧ Mid e z g1 (xs ++ ys') g' ∧ textsOf g' = some T' ∧ T <+: T' ∧ List.Forall₂ (Wr P T' typ) ys ys' := by
  induction ys with
  | nil =>
    intro xs g T h hT _ _ _ _ _
    exact ⟨g, T, [], rfl, by rw [List.append_nil]; exact h, hT, List.prefix_refl _, .nil⟩
  | cons y ys ih =>
    intro xs g T h hT hT0 hf hk hl hs
    have hy := hf y (by simp)
    have hlt : ∀ x ∈ xs, x.1 < y.1 := by
      intro x hx
      exact (List.pairwise_append.mp hs).2.2 x.1 (List.mem_map.mpr ⟨x, hx, rfl⟩) y.1 (by simp)
    have step := writeRec_ok hP hse hr1 hw h hT hT0 hy hk (by simp at hl; omega) hlt
    obtain ⟨g2, T2, y', s1, s2, s3, s4, s5⟩ := step
    have hT2 : T2[0]? = some [] := by
      obtain ⟨q, rfl⟩ := s4
      rw [List.getElem?_append_left (List.getElem?_eq_some_iff.mp hT0).1]
      exact hT0
    obtain ⟨g3, T3, ys', r1, r2, r3, r4, r5⟩ := ih s2 s3 hT2 (fun y hy => hf y (by simp [hy])) (by
        intro x hx k hkk
        rcases List.mem_append.mp hx with hx | hx
        · exact hk x hx k hkk
        · rw [List.mem_singleton] at hx
          subst hx
          rw [s5.key] at hkk
          exact hy.fits.okk k hkk) (by simp at hl ⊢; omega) (by
        rw [List.map_append, List.map_singleton, s5.key, List.append_assoc]
        exact hs)
    refine ⟨g3, T3, y' :: ys', ?_, by rw [List.append_assoc] at r2; exact r2, r3, s4.trans r4, .cons (s5.mono r4) r5⟩
    unfold writeRecs
    rw [s1]
    exact r1

/-! ### a symbol -/

theorem rawStart_tabs {g g1 : Gx} {name text : Str} {dim typ ui : Int} (h : dataWriteRawStart g name text dim typ ui = .ok (g1, true)) {N : List Str}
    (hN : namesOf g = some N) : namesOf g1 = some (N ++ [name]) ∧ g1.uel = g.uel ∧ g1.texts = g.texts ∧ g1.acros = g.acros ∧ g1.sv = g.sv := by
  unfold dataWriteRawStart at h
  obtain ⟨⟨gp, b⟩, h1, h⟩ := Res.bind_eq_ok.mp h
  dsimp only at h
  cases b with
  | false => cases h
  | true =>
    simp only [Bool.true_eq_false, if_false] at h
    obtain ⟨g2, h2, h⟩ := Res.bind_eq_ok.mp h
    cases h
    rcases prepareWrite_cases h1 with ⟨hf, _⟩ | ⟨_, _, syms, sy, k1, k2, _, _, _, _, _, _, _, _, _, he⟩
    · cases hf
    obtain ⟨_, _, _, m', syms', s', e1, e2, e3, rfl⟩ := initDoWrite_ok h2
    subst he
    cases e2
    unfold namesOf at hN
    rw [k1] at hN
    cases hN
    refine ⟨?_, rfl, rfl, rfl, rfl⟩
    unfold namesOf
    simp only [Option.map_some]
    rw [map_set_same Sym.name (b := { s' with pos := g.nextWrite }) e3 rfl, List.map_append, ← k2]
    rfl

theorem writeDone_tabs {z : Cz} {g g' : Gx} {b : Bool} (hr : RawMode g.mode) (h : dataWriteDone z g = .ok (g', b)) :
    namesOf g' = namesOf g ∧ g'.uel = g.uel ∧ g'.texts = g.texts ∧ g'.acros = g.acros ∧ g'.sv = g.sv := by
  unfold dataWriteDone at h
  rcases chk_cases g [.wRaw, .wMap, .wStr, .wDomRaw, .wDomMap, .wDomStr] with ⟨hmm, hc⟩ | ⟨hmm, hc⟩
  · simp only [hc, Bool.true_eq_false, if_false] at h
    rw [if_pos (show g.mode = .wRaw ∨ g.mode = .wDomRaw from hr)] at h
    obtain ⟨g4, h4, h⟩ := Res.bind_eq_ok.mp h
    cases h
    unfold finishBlock at h4
    obtain ⟨s, _, h4⟩ := Res.bind_eq_ok.mp h4
    split at h4
    · cases h4
    obtain ⟨g5, h5, h4⟩ := Res.bind_eq_ok.mp h4
    cases h4
    unfold Gx.modCur at h5
    split at h5
    · rename_i n l _ hl
      split at h5
      · cases h5
        refine ⟨?_, rfl, rfl, rfl, rfl⟩
        show Option.map _ (some _) = Option.map _ g.names
        rw [hl]
        simp only [Option.map_some]
        congr 1
        apply List.ext_getElem?
        intro i
        rw [List.getElem?_map, List.getElem?_map, List.getElem?_modify]
        cases l[i]? with
        | none => rfl
        | some x =>
          simp only [Option.map_some, Option.some.injEq, Option.map_eq_map]
          split <;> rfl
      · cases h5
    · cases h5
  · rcases hr with hr | hr <;> simp [hr] at hmm

/-- the merged file between two symbols: `N` are the names of its symbols, `T` its texts -/
structure Out (e : Env) (z : Cz) (N T : List Str) (g : Gx) : Prop where
  aft : After e z g
  mode : g.mode = .wInit
  names : namesOf g = some N
  acr : ∃ l, g.acros = some l ∧ ∀ a ∈ l, a.name = []
  texts : textsOf g = some T
  fst : T[0]? = some []
  sv : g.sv = SVTab.default

theorem not_same_nil {s : Str} (h : Ident s) : ¬ SameNoCase [] s := by
  intro hs
  have hl : ([] : Str).length = s.length := by
    have := congrArg List.length hs
    rwa [List.length_map, List.length_map] at this
  obtain ⟨_, ⟨c, hc, _⟩, _⟩ := h
  cases s with
  | nil => cases hc
  | cons a l => simp at hl

/-- the symbol `y` can be written with the records `ys` -/
structure SymFits (N P : List Str) (y : MSym) (ys : List MRec) : Prop where
  name : Ident y.name
  new : ∀ t ∈ N, ¬ SameNoCase t y.name
  zname : ZFree y.name
  ztext : ZFree y.expl
  dim : 0 ≤ y.dim ∧ y.dim ≤ 20
  typ : y.typ ≤ 3
  sub : I32 y.sub
  recs : ∀ x ∈ ys, x.1.length = y.dim.toNat ∧ x.2.length = dataTypSize y.typ ∧ (∀ k ∈ x.1, 0 ≤ k ∧ k ≤ 2147483391) ∧ (y.typ = dtSet → ∃ (n : Int) (t : Str),
    x.2 = [intDbl n] ∧ 0 ≤ n ∧ n < 2147483648 ∧ P[n.toNat]? = some t ∧ ZFree t)
  sorted : (ys.map Prod.fst).Pairwise (· < ·)
  few : (ys.length : Int) ≤ intMax

theorem dataTypSize_pos {t : Nat} (h : t ≤ 3) : 0 < dataTypSize t := by
  interval_cases t <;> decide

theorem writeOne_ok {e : Env} {z : Cz} (hz : z.Good) {N T P : List Str} {g : Gx} (ho : Out e z N T g) (hP : P[0]? = some []) {y : MSym} {ys : List MRec}
    (h : SymFits N P y ys) : ∃ g1 g2 g3 T' ys', dataWriteRawStart g y.name y.expl y.dim y.typ y.sub = .ok (g1, true) ∧ writeRecs P y.typ g1 ys = .ok g2 ∧
      dataWriteDone z g2 = .ok (g3, true) ∧ Out e z (N ++ [y.name]) T' g3 ∧ T <+: T' ∧ g3.uel = g.uel ∧ List.Forall₂ (Wr P T' y.typ) ys ys' ∧
      Written e z y.name y.dim y.typ y.sub N.length (ys'.map (entryOf SVTab.default)) g3 ∧ StaysIn e z g g3 ∧
      Explained g3 N.length (makeGoodExplText (assignExpl y.expl)) := by
  obtain ⟨acros, ha, hnl⟩ := ho.acr
  have hN := ho.names
  unfold namesOf at hN
  obtain ⟨syms, hs, rfl⟩ := Option.map_eq_some_iff.mp hN
  have hnew : NewName syms acros y.name := by
    refine ⟨h.name, fun t ht => h.new _ (List.mem_map.mpr ⟨t, ht, rfl⟩), fun a hal => ?_⟩
    rw [hnl a hal]
    exact not_same_nil h.name
  have ht' : (0 : Int) ≤ (y.typ : Int) ∧ (y.typ : Int) ≤ 3 := ⟨by omega, by have := h.typ; omega⟩
  have i1 : I32 y.dim := by have := h.dim; unfold I32; omega
  have i2 : I32 (y.typ : Int) := by unfold I32; omega
  obtain ⟨g1, bs, h1, hS, hbl, hkf, hse, f1, hor⟩ := startRaw_ok hz ho.aft ho.mode hs ha hnew h.zname h.ztext h.dim ht' h.sub none trivial ys (text := y.expl)
    fun x hx => ⟨(h.recs x hx).1, (h.recs x hx).2.1, (h.recs x hx).2.2.1, fun bs hb => by cases hb⟩
  have h1' : dataWriteRawStart g y.name y.expl y.dim y.typ y.sub = .ok (g1, true) := h1
  obtain ⟨n1, n2, n3, n4, n5⟩ := rawStart_tabs h1' ho.names
  have hnd : g1.nd = y.dim.toNat := by unfold Gx.nd; rw [hS.dim]
  have hmid : Mid e z g1 [] g1 := ⟨.nil _, hS.mode, .refl _, .refl _, hS.errs, by rw [n4, ha]; rfl⟩
  have hT1 : textsOf g1 = some T := by
    have := ho.texts
    unfold textsOf at this ⊢
    rw [n3]
    exact this
  have hfit : ∀ x ∈ ys, RecFits P g1 y.typ x := by
    intro x hx
    obtain ⟨r1, r2, r3, r4⟩ := h.recs x hx
    refine ⟨⟨r1.trans hnd.symm, by rw [hS.bounds]; exact hkf x hx, by rw [hS.size, r2]; rfl, r3⟩, r4, ?_⟩
    intro hx0
    have := dataTypSize_pos h.typ
    rw [hx0] at r2
    simp at r2
    omega
  obtain ⟨g2, T', ys', w1, w2, w3, w4, w5⟩ := writeRecs_ok hP hse hS.mode hS.wrBits ys hmid hT1 ho.fst hfit (by simp) (by simpa using h.few) (by simpa using h.sorted)
  rw [List.nil_append] at w2
  have hkeys : ∀ x ∈ ys'.map (entryOf g1.sv), ∀ k ∈ x.key, 0 ≤ k := by
    intro x hx k hk
    obtain ⟨y', hy', rfl⟩ := List.mem_map.mp hx
    obtain ⟨i, hi, he⟩ := List.mem_iff_getElem.mp hy'
    have hi' : i < ys.length := by rw [w5.length_eq]; exact hi
    have hw := (List.forall₂_iff_get.mp w5).2 i hi' hi
    simp only [List.get_eq_getElem, he] at hw
    have : k ∈ ys[i].1 := by rw [← hw.key]; exact hk
    exact ((h.recs _ (List.getElem_mem hi')).2.2.1 k this).1
  have f2 := (f1.rawLog w2.log).1
  have hst2 : g2.stat = .write := f2.ph.stat (Or.inr w2.mode.writing)
  have hs2 := hse.rawLog w2.log hS.mode hkeys w2.mode
  obtain ⟨g3, h3⟩ := Sess.doneTotal (z := z) hs2 w2.mode f2.inv hst2
  obtain ⟨_, hm3, _⟩ := hs2.done w2.mode f2.inv hst2 h3
  obtain ⟨d1, d2, d3, d4, d5⟩ := writeDone_tabs w2.mode h3
  have hacc : ys'.map (entryOf SVTab.default) = acceptedOf (ys'.map (entryOf g1.sv)) := by
    unfold acceptedOf
    rw [n5, ho.sv, List.filter_eq_self.mpr]
    intro a ha
    obtain ⟨x, _, rfl⟩ := List.mem_map.mp ha
    rfl
  have hwr : Written e z y.name y.dim y.typ y.sub syms.length (ys'.map (entryOf SVTab.default)) g3 := by
    refine .raw _ ?_ hacc
    obtain ⟨cs, c1, c2, c3⟩ := ho.aft
    exact ⟨cs, [], syms, g, g1, g2, g3, y.expl, true, c1, c2, c3, hs, rfl, ⟨h.zname, h.ztext, i1, i2, h.sub⟩, hor, w2.log, w2.mode, hkeys, h3, by simp, rfl⟩
  have hin1 : StaysIn e z g g1 :=
    .one (c := .rawStart y.name y.expl y.dim y.typ y.sub) ⟨h.zname, h.ztext, i1, i2, h.sub⟩ rfl (by show stateOf _ = _; rw [h1']; rfl)
  have hin2 : StaysIn e z g1 g3 := (StaysIn.rawLog w2.log).trans (.one (c := .writeDone) trivial rfl (by show stateOf _ = _; rw [h3]; rfl))
  have hin : StaysIn e z g g3 := hin1.trans hin2
  have hnm3 : namesOf g3 = some (syms.map Sym.name ++ [y.name]) := by rw [d1, w2.tabs.names, n1]
  obtain ⟨l3, hl3, _⟩ := Option.map_eq_some_iff.mp (show g3.names.map (fun l => l.map Sym.name) = _ from hnm3)
  refine ⟨g1, g2, g3, T', ys', h1', w1, h3, ⟨ho.aft.more hin, hm3, ?_, ?_, ?_, ?_, ?_⟩, w4, ?_, w5, by rw [List.length_map]; exact hwr, hin,
    by rw [List.length_map]; exact (rawStart_expl h1' hs).stays hz (ho.aft.more hin1) hin2 hl3⟩
  · rw [d1, w2.tabs.names, n1]
  · obtain ⟨l', k1, k2⟩ := w2.tabs.acros acros (n4.trans ha)
    refine ⟨l', d4.trans k1, fun a hal => ?_⟩
    rcases k2 a hal with k3 | k3
    · exact hnl a k3
    · exact k3
  · unfold textsOf at w3 ⊢
    rw [d3]
    exact w3
  · obtain ⟨q, rfl⟩ := w4
    rw [List.getElem?_append_left (List.getElem?_eq_some_iff.mp ho.fst).1]
    exact ho.fst
  · rw [d5, w2.tabs.sv, n5, ho.sv]
  · rw [d2, w2.tabs.uel, n2]

/-! ### all symbols -/

/-- the symbol `y` of the program is symbol `i` (from 0) of the merged file `g` -/
def IsWritten (e : Env) (z : Cz) (srt : List MRec → List MRec) (P T : List Str) (g : Gx) (i : Nat) (y : MSym) : Prop :=
  ∃ d ys, y.data = some d ∧ List.Forall₂ (Wr P T y.typ) (srt d) ys ∧ Written e z y.name y.dim y.typ y.sub i (ys.map (entryOf SVTab.default)) g ∧
    Explained g i (makeGoodExplText (assignExpl y.expl))

theorem _root_.Gdx.Props.Written.stays {e : Env} {z : Cz} {name : Str} {dim typ ui : Int} {m : Nat} {acc : List RawEntry} {g g' : Gx}
    (h : Written e z name dim typ ui m acc g) (hs : StaysIn e z g g') : Written e z name dim typ ui m acc g' := by
  obtain ⟨cs, h1, h2⟩ := hs
  exact h.more h1 h2

theorem IsWritten.more {e : Env} {z : Cz} (hz : z.Good) {srt : List MRec → List MRec} {P T T' : List Str} {g g' : Gx} {i : Nat} {y : MSym}
    (h : IsWritten e z srt P T g i y) (ha : After e z g) {N : List Str} (hn : namesOf g' = some N) (hT : T <+: T') (hs : StaysIn e z g g') : IsWritten e z srt P T' g' i y := by
  obtain ⟨d, ys, h1, h2, h3, h4⟩ := h
  obtain ⟨l, hl, _⟩ := Option.map_eq_some_iff.mp (show g'.names.map (fun l => l.map Sym.name) = _ from hn)
  exact ⟨d, ys, h1, h2.imp fun _ _ h => h.mono hT, h3.stays hs, h4.stays hz ha hs hl⟩

theorem writeSyms_ok {o : Opt} {e : Env} {z : Cz} (hz : z.Good) {srt : List MRec → List MRec} {P : List Str} (hP : P[0]? = some []) {L : List MSym}
    (hL : ∀ i y, L[i]? = some y → ∃ d, y.data = some d ∧ SymFits ((L.take i).map MSym.name) P y (srt d)) : ∀ (k n : Nat) {s : MState} {T : List Str},
      n + k = L.length → s.pool = P → (∀ i, n ≤ i → s.syms[i]? = L[i]?) → Out e z ((L.take n).map MSym.name) T s.out →
      ∃ s' T', writeSyms o z srt .doAll s (List.range' n k) = .ok s' ∧ Out e z (L.map MSym.name) T' s'.out ∧ T <+: T' ∧ s'.out.uel = s.out.uel ∧
        StaysIn e z s.out s'.out ∧ (∀ i y, n ≤ i → L[i]? = some y → IsWritten e z srt P T' s'.out i y) ∧ s'.errs = s.errs := by
  intro k
  induction k with
  | zero =>
    intro n s T hn hp hs ho
    refine ⟨s, T, rfl, ?_, List.prefix_refl _, rfl, .refl _, ?_, rfl⟩
    · rw [List.take_of_length_le (by omega)] at ho
      exact ho
    · intro i y hi hy
      have := (List.getElem?_eq_some_iff.mp hy).1
      omega
  | succ k ih =>
    intro n s T hn hp hs ho
    have hlt : n < L.length := by omega
    have hy : L[n]? = some L[n] := List.getElem?_eq_getElem hlt
    generalize L[n] = y at hy
    obtain ⟨d, hd, hf⟩ := hL n y hy
    obtain ⟨g1, g2, g3, T1, ys, a1, a2, a3, a4, a5, a6, a7, a8, a9, a10⟩ := writeOne_ok hz ho hP hf
    have htake : (L.take (n + 1)).map MSym.name = (L.take n).map MSym.name ++ [y.name] := by
      rw [List.take_add_one, hy, List.map_append]
      rfl
    rw [← htake] at a4
    have hlen : ((L.take n).map MSym.name).length = n := by
      rw [List.length_map, List.length_take]
      omega
    rw [hlen] at a8 a10
    obtain ⟨s', T', b1, b2, b3, b4, b5, b6, b7⟩ := ih (n + 1) (s := { s with out := g3, syms := s.syms.set n { y with data := none } }) (T := T1) (by omega) hp (by
      intro i hi
      dsimp only
      rw [List.getElem?_set_ne (by omega)]
      exact hs i (by omega)) a4
    refine ⟨s', T', ?_, b2, a5.trans b3, b4.trans a6, a9.trans b5, ?_, b7⟩
    · rw [List.range'_succ]
      unfold writeSyms
      have : writeSym o z srt .doAll s n = .ok { s with out := g3, syms := s.syms.set n { y with data := none } } := by
        unfold writeSym
        rw [hs n (Nat.le_refl _), hy]
        simp only [need, Res.bind_ok]
        rw [hd]
        dsimp only
        rw [if_neg (by simp)]
        simp only [a1, Res.bind_ok, hp, a2, a3, Res.pure_eq]
      rw [this]
      exact b1
    · intro i y' hi hy'
      rcases Nat.eq_or_lt_of_le hi with h | h
      · subst h
        rw [hy] at hy'
        cases hy'
        exact IsWritten.more hz ⟨d, ys, hd, a7, a8, a10⟩ a4.aft b2.names b3 b5
      · exact b6 i y' (by omega) hy'

end Gdx.Merge
