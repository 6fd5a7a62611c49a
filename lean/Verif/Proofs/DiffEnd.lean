import Verif.Proofs.DiffAll
import Verif.Proofs.MergeRun

/-!
`gdxdiff`: the beginning and the end of the difference file.
-/

namespace Gdx.Diff
open Gdx Gdx.Spec Gdx.Props
open Gdx.Merge (Out namesOf textsOf GoodLabel HasText digits_inj digits_of lower_digit intToStr_nat not_same_nil)

/-! ### a free name -/

/-- the names that are tried -/
def nameTry (k : Nat) : Str := if k = 0 then filesCompared else filesCompared ++ [57, 53] ++ intToStr k

theorem nameTry_ident (k : Nat) : Ident (nameTry k) := by
  unfold nameTry
  split
  · exact (C14_ident _).mp (by decide)
  · rw [intToStr_nat]
    refine ⟨?_, ⟨70, rfl, by decide⟩, ?_⟩
    · have := digits_length 20 k
      rw [List.length_append]
      have : (filesCompared ++ [57, 53]).length = 15 := rfl
      omega
    · intro c hc
      rcases List.mem_append.mp hc with hc | hc
      · have hall : ∀ c ∈ filesCompared ++ [57, 53], 65 ≤ c ∧ c ≤ 90 ∨ 97 ≤ c ∧ c ≤ 122 ∨ 48 ≤ c ∧ c ≤ 57 ∨ c = 95 := by decide
        exact hall c hc
      · have := digits_of 20 k c hc
        exact Or.inr (Or.inr (Or.inl this))

theorem nameTry_inj {a b : Nat} (ha : a < 10 ^ 20) (hb : b < 10 ^ 20) (h : SameNoCase (nameTry a) (nameTry b)) : a = b := by
  unfold nameTry at h
  have hlen := congrArg List.length h
  rw [List.length_map, List.length_map] at hlen
  split at h <;> split at h
  · omega
  · rename_i h0 h1
    rw [if_pos h0, if_neg h1] at hlen
    simp at hlen
  · rename_i h0 h1
    rw [if_neg h0, if_pos h1] at hlen
    simp at hlen
  · rw [intToStr_nat, intToStr_nat] at h
    unfold SameNoCase at h
    rw [List.append_assoc, List.append_assoc, List.map_append, List.map_append, List.map_append, List.map_append] at h
    have h := List.append_cancel_left (List.append_cancel_left h)
    have hid : ∀ n, (digits 20 n).map lower = digits 20 n := by
      intro n
      conv_rhs => rw [← List.map_id (digits 20 n)]
      exact List.map_congr_left fun c hc => lower_digit (digits_of _ _ c hc)
    rw [hid, hid] at h
    exact digits_inj 20 a b ha hb h

theorem nameTry_star (k : Nat) : nameTry k ≠ star := by
  intro h
  have := nameTry_ident k
  rw [h] at this
  exact absurd ((C14_ident _).mpr this) (by decide)

theorem freeName_step {g : Gx} {N : List Str} (hn : namesOf g = some N) : ∀ (f k : Nat),
    (∃ n, k ≤ n ∧ n < k + f ∧ freeName g f k = .ok (nameTry n) ∧ ∀ t ∈ N, ¬ SameNoCase t (nameTry n)) ∨ ∀ j, k ≤ j → j < k + f → ∃ t ∈ N, SameNoCase t (nameTry j)
  | 0, k => Or.inr fun j h1 h2 => by omega
  | f + 1, k => by
    unfold namesOf at hn
    obtain ⟨syms, hs, rfl⟩ := Option.map_eq_some_iff.mp hn
    unfold freeName
    have hd : (if k = 0 then filesCompared else filesCompared ++ [57, 53] ++ intToStr k) = nameTry k := rfl
    simp only [hd]
    have hf : (findSymbol g (nameTry k)).1 = decide (symIndex syms (nameTry k) ≥ 1) := by
      unfold findSymbol
      rw [if_neg (nameTry_star k), hs]
    rw [hf]
    unfold symIndex indexOf1
    cases hl : lookup false (nameTry k) (syms.map Sym.name) with
    | none =>
      refine Or.inl ⟨k, le_refl _, by omega, by simp, ?_⟩
      intro t ht
      exact lookup_none.mp hl t ht
    | some i =>
      simp only [show ((i : Int) + 1 ≥ 1) = True by simp, decide_true, if_true]
      rcases freeName_step (g := g) (N := syms.map Sym.name) (by unfold namesOf; rw [hs]; rfl) f (k + 1) with ⟨n, h1, h2, h3, h4⟩ | h
      · exact Or.inl ⟨n, by omega, by omega, h3, h4⟩
      · refine Or.inr fun j h1 h2 => ?_
        by_cases hj : j = k
        · subst hj
          obtain ⟨x, x1, x2⟩ := lookup_some hl
          exact ⟨x, List.mem_of_getElem? x1, x2⟩
        · exact h j (by omega) (by omega)

theorem freeName_ok {g : Gx} {N : List Str} (hn : namesOf g = some N) {fuel : Nat} (hf : N.length < fuel) (hN : (N.length : Int) ≤ 2147483647) :
    ∃ n, freeName g fuel 0 = .ok (nameTry n) ∧ ∀ t ∈ N, ¬ SameNoCase t (nameTry n) := by
  rcases freeName_step hn fuel 0 with ⟨n, _, _, h1, h2⟩ | h
  · exact ⟨n, h1, h2⟩
  · exfalso
    have hidx : ∀ j, j < N.length + 1 → ∃ i, i < N.length ∧ lookup false (nameTry j) N = some i := by
      intro j hj
      obtain ⟨t, t1, t2⟩ := h j (by omega) (by omega)
      cases hl : lookup false (nameTry j) N with
      | none => exact absurd t2 (lookup_none.mp hl t t1)
      | some i =>
        obtain ⟨x, hx, _⟩ := lookup_some hl
        exact ⟨i, (List.getElem?_eq_some_iff.mp hx).1, rfl⟩
    let f : Nat → Nat := fun j => (lookup false (nameTry j) N).getD 0
    obtain ⟨a, ha, b, hb, hne, hab⟩ := Finset.exists_ne_map_eq_of_card_lt_of_maps_to (s := Finset.range (N.length + 1)) (t := Finset.range N.length)
      (f := f) (by simp) (by
        intro j hj
        simp only [Finset.coe_range, Set.mem_Iio] at hj
        obtain ⟨i, h1, h2⟩ := hidx j hj
        simp only [f, h2, Finset.coe_range, Set.mem_Iio, Option.getD_some]
        exact h1)
    simp only [Finset.mem_range] at ha hb
    obtain ⟨i, h1, h2⟩ := hidx a ha
    obtain ⟨j, h3, h4⟩ := hidx b hb
    simp only [f, h2, h4, Option.getD_some] at hab
    subst hab
    obtain ⟨x, x1, x2⟩ := lookup_some h2
    obtain ⟨y, y1, y2⟩ := lookup_some h4
    rw [x1] at y1
    cases y1
    exact hne (nameTry_inj (by omega) (by omega) ((show SameNoCase x (nameTry a) from x2).symm.trans y2))

/-! ### the beginning -/

theorem opened_out {e : Env} (z : Cz) {gd : Gx} {r : Bool × Int} (hw : openWriteEx e Gx.new false 0 producer 0 = .ok (gd, r)) :
    Out e z [] [[]] { gd with storeDom := false } ∧ gd.uel = some Uel.empty := by
  have hopen : gd.mode = .wInit ∧ gd.names = some [] ∧ gd.uel = some Uel.empty ∧ gd.acros = some [] ∧ gd.texts = some [([], 0)] ∧ gd.sv = SVTab.default := by
    unfold openWriteEx at hw
    rw [if_neg (by simp [Gx.new]), if_neg (by simp), if_neg (by simp)] at hw
    obtain ⟨hd, _, hw⟩ := Res.bind_eq_ok.mp hw
    cases hw
    exact ⟨rfl, rfl, rfl, rfl, rfl, rfl⟩
  obtain ⟨w1, w2, w3, w4, w5, w6⟩ := hopen
  refine ⟨⟨?_, w1, by unfold namesOf; rw [w2]; rfl, ⟨[], w4, by simp⟩, by unfold textsOf; rw [w5]; rfl, rfl, w6⟩, w3⟩
  refine ⟨[.openWrite false 0 producer 0, .storeDomainSets false], ?_, ?_, ?_⟩
  · intro c hc
    simp only [List.mem_cons, List.not_mem_nil, or_false] at hc
    rcases hc with rfl | rfl
    · exact ⟨by unfold I32; omega, by unfold producer ZFree; decide, by unfold I32; omega⟩
    · trivial
  · intro c hc
    simp only [List.mem_cons, List.not_mem_nil, or_false] at hc
    rcases hc with rfl | rfl <;> exact ⟨fun d m h => (by cases h), fun d p h => (by cases h)⟩
  · show (stateOf (openWriteEx e Gx.new false 0 producer 0)).bind _ = _
    rw [hw]
    rfl

theorem opened_ground {e : Env} (z : Cz) {gd : Gx} {r : Bool × Int} (hw : openWriteEx e Gx.new false 0 producer 0 = .ok (gd, r)) (U : List Str) (g1 g2 : Gx) (k : Nat) :
    Ground e z U [] [] [[]] { g1 := g1, g2 := g2, gd := { gd with storeDom := false }, uels := U, static := k } := by
  obtain ⟨h1, h2⟩ := opened_out z hw
  exact ⟨h1, rfl, ⟨Uel.empty, h2, rfl, fun _ => (Merge.Labels.empty []).num⟩, by simp⟩

/-! ### the end -/

/-- the record for a file -/
structure FileRow (L T : List Str) (p : Str × Str) (y : Given) : Prop where
  key : List.Forall₂ (Merge.Label L) y.1 [p.1]
  vals : ∃ j : Nat, y.2 = [intDbl j] ∧ T[j]? = some (makeGoodExplText (p.2.take 255))

theorem writeRec_eq {g : Gx} {keys : List Str} {vals : List Dbl} (hk : keys.length = g.nd) (h20 : keys.length ≤ 20) (hv : vals.length = g.dataSize) :
    writeRec g keys vals = stateOf (dataWriteStr g keys vals) := by
  unfold writeRec
  rw [if_neg (by omega), List.take_left' hk, List.take_left' hv]

theorem finishTo_ok {e : Env} {z : Cz} (hz : z.Good) {N T : List Str} {g : Gx} {u : Uel} (ho : Out e z N T g) (hu : g.uel = some u) {fuel : Nat} (hf : N.length < fuel)
    (hN : (N.length : Int) ≤ 2147483647) (hL : (u.strs.length : Int) ≤ 2147480000) {in1 in2 : Str} (h1 : ZFree in1) (h2 : ZFree in2) :
    ∃ g' u' T' n its ys, finishTo z fuel g in1 in2 = .ok g' ∧ g'.uel = some u' ∧ u.strs <+: u'.strs ∧ T <+: T' ∧ Out e z (N ++ [nameTry n]) T' g' ∧ StaysIn e z g g' ∧
      List.Forall₂ (FileRow u'.strs T') [(file1, in1), (file2, in2)] its ∧ its.Perm ys ∧
      Written e z (nameTry n) 1 0 0 N.length (ys.map (entryOf SVTab.default)) g' ∧ Merge.Explained g' N.length [] := by
  obtain ⟨n, n1, n2⟩ := freeName_ok ho.names hf hN
  have hA : (((u.strs ++ [file1, file2]).length : Nat) : Int) ≤ 2147483000 := by
    rw [List.length_append]
    simp only [List.length_cons, List.length_nil]
    omega
  have hh : HeadOk N (nameTry n) [] 1 0 0 := ⟨nameTry_ident n, n2, (by intro b hb; cases hb), by omega, by omega, by unfold I32; omega⟩
  obtain ⟨g1, a1, a2, a3, a4⟩ := start_ok hz ho hu (A := u.strs ++ [file1, file2]) (fun s hs => List.mem_append_left _ hs) hh
  have k1 : GoodLabel file1 ∧ file1 ∈ u.strs ++ [file1, file2] := ⟨⟨by decide, by decide⟩, by simp⟩
  have k2 : GoodLabel file2 ∧ file2 ∈ u.strs ++ [file1, file2] := ⟨⟨by decide, by decide⟩, by simp⟩
  obtain ⟨g2, T2, j, b1, b2, b3, b4⟩ := a2.text hA h1
  have hlen : ∀ k : Str, [k].length = g1.nd := fun k => by rw [a3]; rfl
  have hsz : ∀ d : Dbl, [d].length = g1.dataSize := fun d => by rw [a4]; rfl
  obtain ⟨g3, u3, y, c1, c2, c3, c4, c5⟩ := b2.row hA (key := [file1]) (vals := [intDbl j]) (by simpa using k1) (hlen _) (by rw [a3]; decide) (hsz _)
  obtain ⟨g4, T4, i, d1, d2, d3, d4⟩ := c2.text hA h2
  obtain ⟨g5, u5, w, f1, f2, f3, f4, f5⟩ := d2.row hA (key := [file2]) (vals := [intDbl i]) (by simpa using k2) (hlen _) (by rw [a3]; decide) (hsz _)
  have hrows : List.Forall₂ (FileRow u5.strs T4) [(file1, in1), (file2, in2)] [y, w] := by
    refine .cons ⟨c4.imp fun _ _ h => h.mono f3, j, c5, ?_⟩ (.cons ⟨f4, i, f5, d4⟩ .nil)
    obtain ⟨q, rfl⟩ := d3
    rw [List.getElem?_append_left (List.getElem?_eq_some_iff.mp b4).1]
    exact b4
  have hits : ([] ++ [y] ++ [w] : List Given) = [y, w] := rfl
  obtain ⟨g6, ys, p1, p2, p3, p4, p5, p6, p7⟩ := finish_ok hz ho hA hh a1 f2 (b3.trans d3) (by show (2 : Int) ≤ intMax; decide) (by
    rw [hits]
    cases hrows with
    | cons r1 r2 =>
      cases r2 with
      | cons r2 _ =>
        refine List.nodup_cons.mpr ⟨?_, by simp⟩
        intro hc
        have hc : y.1 = w.1 := by simpa using hc
        have l1 := r1.key
        rw [hc] at l1
        have := labels_inj l1 r2.key
        cases this with
        | cons h _ =>
          have h : SameNoCase file1 file2 := h
          revert h
          unfold SameNoCase
          decide)
  refine ⟨g6, u5, T4, n, [y, w], ys, ?_, p3, c3.trans f3, b3.trans d3, p2, p4, hrows, by rw [← hits]; exact p5, p6, p7⟩
  unfold finishTo
  rw [n1]
  simp only [Res.bind_ok]
  rw [show dataWriteStrStart g (nameTry n) [] 1 (dtSet : Int) 0 = .ok (g1, true) from a1]
  simp only [Res.bind_ok, b1]
  rw [writeRec_eq (by rw [b2.nd]; exact hlen _) (by simp) (by rw [b2.size]; exact hsz _), c1]
  simp only [stateOf, Res.pure_eq, Res.bind_ok, d1]
  rw [writeRec_eq (by rw [d2.nd]; exact hlen _) (by simp) (by rw [d2.size]; exact hsz _), f1]
  simp only [stateOf, Res.bind_ok, p1, Res.pure_eq]

end Gdx.Diff
