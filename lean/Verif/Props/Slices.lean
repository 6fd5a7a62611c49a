import Verif.Proofs.YieldsAs
import Verif.Props.DomElems

/-!
C27: slices.
-/

namespace Gdx.Props

open Gdx Spec

/-! ### spec -/

/-- `L` lists the elements in position `i` of the records, ascending -/
structure ElemsAt (outs : List (RecOut Int)) (i : Nat) (L : List Int) : Prop where
  asc : L.Pairwise (· < ·)
  mem : ∀ e, e ∈ L ↔ ∃ o ∈ outs, o.key[i]? = some e

/-- the slice indices of the free positions: the places of the elements in the lists of their positions -/
def freeKey : List Str → List (List Int) → List Int → List Int
  | s :: ss, L :: Ls, e :: es => if s = [] then (L.idxOf e : Int) :: freeKey ss Ls es else freeKey ss Ls es
  | _, _, _ => []

/-- The strings for slice indices: a fixed position has its string, a free one the string of the element the index stands for. -/
inductive SliceStrs (g : Gx) : List Str → List (List Int) → List Int → List Str → Prop
  | nil (ks : List Int) : SliceStrs g [] [] ks []
  | fixed {s : Str} {ss : List Str} {L : List Int} {Ls : List (List Int)} {ks : List Int} {r : List Str} (hs : s ≠ [])
      (h : SliceStrs g ss Ls ks r) : SliceStrs g (s :: ss) (L :: Ls) ks (s :: r)
  | free {ss : List Str} {L : List Int} {Ls : List (List Int)} {k : Nat} {ks : List Int} {e : Int} {t : Str} {n : Int} {r : List Str}
      (hk : L[k]? = some e) (ht : umUelGet g e = .ok (true, t, n)) (h : SliceStrs g ss Ls ks r) :
      SliceStrs g ([] :: ss) (L :: Ls) ((k : Int) :: ks) (t :: r)
  | bad {ss : List Str} {L : List Int} {Ls : List (List Int)} {k : Int} {ks : List Int} {r : List Str}
      (hk : k < 0 ∨ (L.length : Int) ≤ k) (h : SliceStrs g ss Ls ks r) : SliceStrs g ([] :: ss) (L :: Ls) (k :: ks) ([63] :: r)

/-- the maps of one position say what the list says -/
structure SliceMaps (L : List Int) (ix rev : IntMap) : Prop where
  at_ : ∀ (k : Nat) e, L[k]? = some e → ix.get e = k ∧ rev.get k = e
  out : ∀ k : Int, k < 0 ∨ (L.length : Int) ≤ k → rev.get k = -1

/-- an object with slices of a symbol with records `outs`; `Ls` are the elements of the positions -/
structure Sliced (z : Cz) (g : Gx) (dim : Int) (outs : List (RecOut Int)) (Ls : List (List Int)) : Prop where
  mode : g.mode = .rSlice
  data : YieldsAs z g g.sliceSy dim outs
  cdim : g.curDim = dim
  len : Ls.length = dim.toNat
  elems : ∀ (i : Nat) L, Ls[i]? = some L → ElemsAt outs i L
  maps : ∀ (i : Nat) L, Ls[i]? = some L → ∃ ix rev, g.sliceIdx[i]? = some ix ∧ g.sliceRev[i]? = some rev ∧ SliceMaps L ix rev

/-! ### marking -/

/-- marked elements, with a bound for the loop over them -/
structure MarksB (m : IntMap) (S : Int → Prop) : Prop where
  mk_ : Marks m S
  lo : 0 ≤ m.highest
  hi : m.highest < maxCapacity
  pos : ∀ e, S e → 0 ≤ e

theorem MarksB.empty : MarksB IntMap.empty fun _ => False := ⟨Marks.empty, by decide, by decide, fun _ h => h.elim⟩

theorem MarksB.congr {m : IntMap} {S T : Int → Prop} (h : MarksB m S) (e : ∀ i, S i ↔ T i) : MarksB m T := by
  have : S = T := funext fun i => propext (e i)
  exact this ▸ h

theorem MarksB.set {m : IntMap} {S : Int → Prop} (h : MarksB m S) (e : Int) (he : 0 ≤ e ∧ e < maxCapacity) :
    ∃ m', m.set e 1 = .ok m' ∧ MarksB m' fun i => S i ∨ i = e := by
  obtain ⟨m1, h1, h2⟩ := h.mk_.set e he
  obtain ⟨m2, h3, _, h4⟩ := IntMap.set_spec m e 1 he
  rw [h1] at h3
  cases h3
  have := h.lo
  have := h.hi
  refine ⟨m1, h1, h2, by omega, by omega, ?_⟩
  rintro x (hx | rfl)
  · exact h.pos x hx
  · exact he.1

/-- the marks of all positions -/
def MarksAll (keys : List (List Int)) (ms : List IntMap) : Prop :=
  ∀ (i : Nat) m, ms[i]? = some m → MarksB m fun e => ∃ k ∈ keys, k[i]? = some e

theorem markAll_ok : ∀ (ms : List IntMap) (es : List Int) (P : Nat → Int → Prop), es.length = ms.length → (∀ e ∈ es, 0 ≤ e ∧ e < maxCapacity) →
    (∀ (i : Nat) m, ms[i]? = some m → MarksB m (P i)) →
    ∃ ms', markAll ms es = .ok ms' ∧ ms'.length = ms.length ∧ ∀ (i : Nat) m, ms'[i]? = some m → MarksB m fun e => P i e ∨ es[i]? = some e
  | [], [], P, _, _, _ => ⟨[], rfl, rfl, by simp⟩
  | [], _ :: _, P, h, _, _ => by simp at h
  | _ :: _, [], P, h, _, _ => by simp at h
  | m :: ms, e :: es, P, hl, he, hm => by
    obtain ⟨m', h1, h2⟩ := (hm 0 m rfl).set e (he e List.mem_cons_self)
    obtain ⟨ms', h3, h4, h5⟩ := markAll_ok ms es (fun i => P (i + 1)) (by simpa using hl) (fun x hx => he x (List.mem_cons_of_mem _ hx))
      (fun i x hx => hm (i + 1) x (by simpa using hx))
    refine ⟨m' :: ms', ?_, by simp [h4], ?_⟩
    · unfold markAll
      rw [h1]
      simp only [Res.bind_ok]
      rw [h3]
      rfl
    · intro i x hx
      cases i with
      | zero =>
        cases hx
        refine h2.congr ?_
        intro y
        simp [eq_comm]
      | succ i =>
        refine (h5 i x (by simpa using hx)).congr ?_
        intro y
        simp

theorem sliceLoop_yields {d : Nat} {g g' : Gx} {outs : List (RecOut Int)} (h : Yields g outs g') : g.nd = d →
    (∀ o ∈ outs, o.key.length = d ∧ ∀ e ∈ o.key, 0 ≤ e ∧ e < maxCapacity) →
    ∀ (fuel : Nat) (keys : List (List Int)) (ms : List IntMap), outs.length < fuel → ms.length = d → MarksAll keys ms →
      ∃ ms', sliceLoop fuel g ms = .ok (g', ms') ∧ ms'.length = d ∧ MarksAll (keys ++ outs.map RecOut.key) ms' := by
  induction h with
  | @done g g' h =>
    intro _ hk fuel keys ms hf hl hm
    obtain ⟨n, rfl⟩ : ∃ n, fuel = n + 1 := ⟨fuel - 1, by omega⟩
    refine ⟨ms, ?_, hl, by simpa using hm⟩
    unfold sliceLoop
    rw [h]
    rfl
  | @next g g1 g' fd vals rs h _ ih =>
    intro hd hk fuel keys ms hf hl hm
    obtain ⟨n, rfl⟩ : ∃ n, fuel = n + 1 := ⟨fuel - 1, by simp at hf; omega⟩
    have hst : RdStep g g1 := ((doRead_step g).of_ok h).1
    obtain ⟨hk1, hk2⟩ := hk _ List.mem_cons_self
    obtain ⟨ms1, e1, e2, e3⟩ := markAll_ok ms (recOf g1 vals fd).key _ (by rw [hk1, hl]) hk2 hm
    obtain ⟨ms', e4, e5, e6⟩ := ih (hst.nd.trans hd) (fun o ho => hk o (List.mem_cons_of_mem _ ho)) n (keys ++ [(recOf g1 vals fd).key]) ms1
      (by simp at hf; omega) (by omega) (by
        intro i m hi
        refine (e3 i m hi).congr ?_
        intro e
        constructor
        · rintro (⟨k, hk, he⟩ | he)
          · exact ⟨k, List.mem_append_left _ hk, he⟩
          · exact ⟨_, List.mem_append_right _ (List.mem_singleton.mpr rfl), he⟩
        · rintro ⟨k, hk, he⟩
          rcases List.mem_append.mp hk with hk | hk
          · exact Or.inl ⟨k, hk, he⟩
          · rw [List.mem_singleton.mp hk] at he
            exact Or.inr he)
    refine ⟨ms', ?_, e5, by simpa using e6⟩
    rw [sliceLoop, h]
    simp only [Res.bind_ok]
    rw [show g1.last.take g1.nd = (recOf g1 vals fd).key from rfl, e1]
    exact e4

/-! ### numbering -/

theorem numberMarks_ok : ∀ (k : Nat) (n cnt : Int) (ix rev : IntMap), 0 ≤ n → 0 ≤ cnt → cnt ≤ n → n + k ≤ maxCapacity →
    ∃ ix' rev' L, numberMarks k n cnt ix rev = .ok (ix', rev', cnt + ((L : List Int).length : Int)) ∧ L.Pairwise (· < ·) ∧
      (∀ e, e ∈ L ↔ n ≤ e ∧ e < n + k ∧ ix.get e ≥ 0) ∧ (∀ (j : Nat) e, L[j]? = some e → ix'.get e = cnt + j ∧ rev'.get (cnt + j) = e) ∧
      (∀ i, i ∉ L → ix'.get i = ix.get i) ∧ (∀ j, j < cnt ∨ cnt + (L.length : Int) ≤ j → rev'.get j = rev.get j)
  | 0, n, cnt, ix, rev, h1, h2, h3, h4 => by
    refine ⟨ix, rev, [], by unfold numberMarks; simp, List.Pairwise.nil, ?_, by simp, fun _ _ => rfl, fun _ _ => rfl⟩
    intro e
    simp
    omega
  | k + 1, n, cnt, ix, rev, h1, h2, h3, h4 => by
    push_cast at h4
    unfold numberMarks
    by_cases hg : ix.get n ≥ 0
    · rw [if_pos hg]
      obtain ⟨ix1, a1, a2, _⟩ := IntMap.set_spec ix n cnt ⟨h1, by omega⟩
      obtain ⟨rev1, b1, b2, _⟩ := IntMap.set_spec rev cnt n ⟨h2, by omega⟩
      obtain ⟨ix', rev', L, e1, e2, e3, e4, e5, e6⟩ := numberMarks_ok k (n + 1) (cnt + 1) ix1 rev1 (by omega) (by omega) (by omega) (by omega)
      have hnot : n ∉ L := by
        intro hn
        have := ((e3 n).mp hn).1
        omega
      refine ⟨ix', rev', n :: L, ?_, ?_, ?_, ?_, ?_, ?_⟩
      · rw [a1]
        simp only [Res.bind_ok]
        rw [b1]
        simp only [Res.bind_ok]
        rw [e1]
        rw [show cnt + ((n :: L).length : Int) = cnt + 1 + (L.length : Int) by simp only [List.length_cons]; push_cast; ring]
      · refine List.pairwise_cons.mpr ⟨?_, e2⟩
        intro x hx
        have := ((e3 x).mp hx).1
        omega
      · intro e
        rw [List.mem_cons, e3, a2]
        push_cast
        by_cases hen : e = n
        · subst hen
          simp only [true_or, true_iff]
          omega
        · rw [if_neg hen]
          simp only [hen, false_or]
          omega
      · intro j e hj
        cases j with
        | zero =>
          cases hj
          constructor
          · rw [e5 n hnot, a2, if_pos rfl]
            simp
          · rw [e6 _ (by left; simp), b2, if_pos (by simp)]
        | succ j =>
          obtain ⟨f1, f2⟩ := e4 j e (by simpa using hj)
          push_cast
          constructor
          · rw [f1]; ring
          · rw [show cnt + ((j : Int) + 1) = cnt + 1 + j by ring]; exact f2
      · intro i hi
        rw [List.mem_cons, not_or] at hi
        rw [e5 i hi.2, a2, if_neg hi.1]
      · intro j hj
        simp only [List.length_cons] at hj
        push_cast at hj
        rw [e6 j (by omega), b2, if_neg (by omega)]
    · rw [if_neg hg]
      obtain ⟨ix', rev', L, e1, e2, e3, e4, e5, e6⟩ := numberMarks_ok k (n + 1) cnt ix rev (by omega) (by omega) (by omega) (by omega)
      refine ⟨ix', rev', L, e1, e2, ?_, e4, e5, e6⟩
      intro e
      rw [e3]
      push_cast
      by_cases hen : e = n
      · subst hen
        constructor
        · intro h; omega
        · intro h; exact absurd h.2.2 hg
      · omega

theorem numberMarks_slice {m : IntMap} {S : Int → Prop} (h : MarksB m S) :
    ∃ ix rev L, numberMarks (m.highest.toNat + 1) 0 0 m IntMap.empty = .ok (ix, rev, ((L : List Int).length : Int)) ∧
      L.Pairwise (· < ·) ∧ (∀ e, e ∈ L ↔ S e) ∧ SliceMaps L ix rev := by
  have h1 := h.lo
  have h2 := h.hi
  obtain ⟨ix, rev, L, e1, e2, e3, e4, e5, e6⟩ := numberMarks_ok (m.highest.toNat + 1) 0 0 m IntMap.empty (by omega) (by omega) (by omega)
    (by push_cast; omega)
  refine ⟨ix, rev, L, by rw [e1]; simp, e2, ?_, ?_, ?_⟩
  · intro e
    rw [e3]
    constructor
    · rintro ⟨_, _, h3⟩
      by_contra hs
      rw [h.mk_.other e hs] at h3
      omega
    · intro hs
      have := h.pos e hs
      have := h.mk_.hi e hs
      have := (h.mk_.one e).mpr hs
      push_cast
      omega
  · intro k e hk
    have := e4 k e hk
    simpa using this
  · intro k hk
    rw [e6 k (by simpa using hk)]
    exact IntMap.empty_get k

theorem numberMarksAll_ok : ∀ (ms : List IntMap) (P : Nat → Int → Prop), (∀ (i : Nat) m, ms[i]? = some m → MarksB m (P i)) →
    ∃ a b Ls, numberMarksAll ms = .ok (a, b, (Ls : List (List Int)).map fun L => (L.length : Int)) ∧ Ls.length = ms.length ∧
      a.length = ms.length ∧ b.length = ms.length ∧
      ∀ (i : Nat) L, Ls[i]? = some L → L.Pairwise (· < ·) ∧ (∀ e, e ∈ L ↔ P i e) ∧ ∃ ix rev, a[i]? = some ix ∧ b[i]? = some rev ∧ SliceMaps L ix rev
  | [], P, _ => ⟨[], [], [], rfl, rfl, rfl, rfl, by simp⟩
  | m :: ms, P, h => by
    obtain ⟨ix, rev, L, e1, e2, e3, e4⟩ := numberMarks_slice (h 0 m rfl)
    obtain ⟨a, b, Ls, f1, f2, f3, f4, f5⟩ := numberMarksAll_ok ms (fun i => P (i + 1)) (fun i x hx => h (i + 1) x (by simpa using hx))
    refine ⟨ix :: a, rev :: b, L :: Ls, ?_, by simp [f2], by simp [f3], by simp [f4], ?_⟩
    · unfold numberMarksAll
      rw [e1]
      simp only [Res.bind_ok]
      rw [f1]
      rfl
    · intro i L' hL
      cases i with
      | zero =>
        cases hL
        exact ⟨e2, e3, ix, rev, rfl, rfl, e4⟩
      | succ i => simpa using f5 i L' (by simpa using hL)

/-! ### the three functions -/

/-- the slice part of the state -/
def SameSlices (g g' : Gx) : Prop :=
  g'.sliceSy = g.sliceSy ∧ g'.sliceIdx = g.sliceIdx ∧ g'.sliceRev = g.sliceRev ∧ g'.sliceElems = g.sliceElems

theorem prepareRaw_slices {z : Cz} {g : Gx} (hm : g.mode = .rInit) (nr : Int) (acts : List Int) {nm : Mode} (hnm : nm ≠ .rMap) :
    (prepareRead z g nr acts nm).All fun x => SameSlices g x.1 := by
  unfold prepareRead
  refine Res.All.bind' ?_
  intro x hx
  have h0 : SameSlices g x.1 := by
    unfold prepareStart finishRead at hx
    rw [if_neg (by rw [hm]; simp)] at hx
    simp only [Res.bind_ok] at hx
    unfold Gx.chk at hx
    split at hx
    · simp only [Bool.true_eq_false, if_false] at hx
      cases hx; exact ⟨rfl, rfl, rfl, rfl⟩
    · simp only [if_true] at hx
      cases hx; exact ⟨rfl, rfl, rfl, rfl⟩
  dsimp only
  split
  · exact h0
  refine Res.All.bind' ?_
  intro fl _
  refine Res.All.bind' ?_
  intro syms hs
  split
  · exact h0
  refine Res.All.bind' ?_
  intro t ht
  split
  · split
    · trivial
    split
    · exact h0
    · exact h0
  · refine Res.All.bind' ?_
    intro s hat
    split
    · trivial
    split
    · trivial
    split
    · exact h0
    · unfold prepareData
      dsimp only
      split
      · exact h0
      refine Res.All.bind' ?_
      intro x _
      split
      · exact h0
      refine Res.All.bind' ?_
      intro y _
      split
      · exact h0
      refine Res.All.bind' ?_
      intro w _
      exact h0

theorem _root_.Gdx.RdStep.slices {g g' : Gx} (h : RdStep g g') : SameSlices g g' := by
  rw [h]
  exact ⟨rfl, rfl, rfl, rfl⟩

/-- C27, start: for every position the count is the number of distinct elements there, and the slice indices are the places of the
    elements in their ascending list. -/
theorem C27_start (z : Cz) (g : Gx) (nr dim : Int) (outs : List (RecOut Int)) (h : YieldsAs z g nr dim outs) (hm : g.mode = .rInit)
    (hk : ∀ o ∈ outs, o.key.length = dim.toNat ∧ ∀ e ∈ o.key, 0 ≤ e ∧ e ≤ intMax) :
    ∃ g2 Ls, dataReadSliceStart z g nr = .ok (g2, (Ls : List (List Int)).map fun L => (L.length : Int)) ∧ Sliced z g2 dim outs Ls ∧
      g2.sliceSy = nr ∧ RdSame g g2 := by
  have h0 : RdSame g { g with sliceSy := nr } :=
    ⟨rfl, rfl, rfl, rfl, rfl, rfl, rfl, rfl, rfl, rfl, rfl, rfl, rfl, rfl, rfl, rfl, rfl, rfl, rfl⟩
  obtain ⟨g1, g2, n, e1, e2, e3, e4, e5, e6⟩ := h { g with sliceSy := nr } h0 hm .rRaw (by decide)
  have hr := (prepareRaw_ready nr _ (m := .rRaw) (by decide)).of_ok e1
  have hs1 := (prepareRaw_slices (z := z) (g := { g with sliceSy := nr }) hm nr _ (nm := .rRaw) (by decide)).of_ok e1
  obtain ⟨hm1, hn1, _⟩ := hr.resolve_left (by simp only; omega)
  have hst := e3.step
  have hs2 := hst.slices
  have hk' : ∀ o ∈ outs, o.key.length = g1.nd ∧ ∀ e ∈ o.key, 0 ≤ e ∧ e < maxCapacity := by
    intro o ho
    obtain ⟨a, b⟩ := hk o ho
    refine ⟨by rw [a]; show _ = g1.curDim.toNat; rw [e4], ?_⟩
    intro e he
    have := b e he
    unfold maxCapacity
    unfold intMax at this
    omega
  obtain ⟨ms, f1, f2, f3⟩ := sliceLoop_yields e3 rfl hk' g1.fuel [] (List.replicate g1.nd IntMap.empty)
    (Nat.lt_of_le_of_lt e3.len (left_lt_fuel g1)) (by simp) (by
      intro i m hi
      have := List.mem_of_getElem? hi
      rw [(List.mem_replicate.mp this).2]
      exact MarksB.empty.congr (by simp))
  obtain ⟨a, b, Ls, q1, q2, q3, q4, q5⟩ := numberMarksAll_ok ms _ f3
  have hnd : g2.nd = ms.length := by rw [f2]; exact hst.nd
  refine ⟨{ g2 with sort := none, cur := .none, sliceIdx := a ++ g2.sliceIdx.drop g2.nd, sliceRev := b ++ g2.sliceRev.drop g2.nd, mode := .rSlice }, Ls, ?_,
    ⟨rfl, ?_, ?_, ?_, ?_, ?_⟩, ?_, ?_⟩
  · unfold dataReadSliceStart prepareRawUnchecked
    rw [e1]
    simp only [Res.bind_ok]
    rw [if_neg (by omega)]
    simp only [Res.pure_eq, Res.bind_ok]
    rw [f1]
    simp only [Res.bind_ok]
    rw [readDone_ok (hst.mode.trans hm1) (hst.nrMapped.trans hn1)]
    simp only [Res.bind_ok]
    rw [q1]
    rfl
  · show YieldsAs z _ g2.sliceSy dim outs
    rw [show g2.sliceSy = nr from hs2.1.trans hs1.1]
    refine h.congr ((h0.trans e6).trans ?_)
    exact ⟨rfl, rfl, rfl, rfl, rfl, rfl, rfl, rfl, rfl, rfl, rfl, rfl, rfl, rfl, rfl, rfl, rfl, rfl, rfl⟩
  · exact hst.curDim.trans e4
  · rw [q2, f2]
    show g1.curDim.toNat = _
    rw [e4]
  · intro i L hL
    obtain ⟨p1, p2, _⟩ := q5 i L hL
    refine ⟨p1, ?_⟩
    intro e
    rw [p2]
    simp
  · intro i L hL
    obtain ⟨_, _, ix, rev, p3, p4, p5⟩ := q5 i L hL
    have hi := (List.getElem?_eq_some_iff.mp hL).1
    refine ⟨ix, rev, ?_, ?_, p5⟩
    · show (a ++ _)[i]? = _
      rw [List.getElem?_append_left (by omega)]
      exact p3
    · show (b ++ _)[i]? = _
      rw [List.getElem?_append_left (by omega)]
      exact p4
  · exact hs2.1.trans hs1.1
  · exact (h0.trans e6).trans ⟨rfl, rfl, rfl, rfl, rfl, rfl, rfl, rfl, rfl, rfl, rfl, rfl, rfl, rfl, rfl, rfl, rfl, rfl, rfl⟩

/-! ### reading a slice -/

theorem sliceMatch_iff {g : Gx} (hg : GoodElems g) {u : Uel} (hu : g.uel = some u) : ∀ (filt : List Str) (key : List Int),
    filt.length = key.length → (∀ s ∈ filt, s ≠ [] → 0 ≤ u.indexOf s) → (sliceMatch (sliceElemNrs u filt) key = true ↔ Matches g filt key)
  | [], [], _, _ => by
    simp [sliceMatch, sliceElemNrs, Matches]
  | [], _ :: _, h, _ => by simp at h
  | _ :: _, [], h, _ => by simp at h
  | s :: ss, e :: es, h, hk => by
    have ih := sliceMatch_iff hg hu ss es (by simpa using h) (fun x hx => hk x (List.mem_cons_of_mem _ hx))
    have hM : Matches g (s :: ss) (e :: es) ↔ (s ≠ [] → IsElem g e s) ∧ Matches g ss es := by
      unfold Matches
      constructor
      · intro hm
        refine ⟨fun hs => ?_, fun i t hi ht => ?_⟩
        · obtain ⟨e', h1, h2⟩ := hm 0 s rfl hs
          cases h1
          exact h2
        · exact hm (i + 1) t (by simpa using hi) ht
      · rintro ⟨h1, h2⟩ i t hi ht
        cases i with
        | zero =>
          cases hi
          exact ⟨e, rfl, h1 ht⟩
        | succ i => exact h2 i t (by simpa using hi) ht
    rw [hM, ← ih]
    show ((_ == -1 || _ == e) && sliceMatch (sliceElemNrs u ss) es) = true ↔ _
    rw [Bool.and_eq_true]
    refine and_congr_left' ?_
    by_cases hs : s = []
    · simp [hs]
    · have h0 := hk s List.mem_cons_self hs
      beta_reduce
      rw [if_neg hs, ← indexOf_is hg hu s e]
      rcases indexOf_range u s with hr | hr
      · omega
      · simp only [Bool.or_eq_true, beq_iff_eq, hs, ne_eq, not_false_eq_true, true_implies]
        omega

theorem sliceKey_eq {u : Uel} {outs : List (RecOut Int)} : ∀ (filt : List Str) (Ls : List (List Int)) (ms : List IntMap) (key : List Int),
    filt.length = Ls.length → filt.length ≤ key.length → (∀ s ∈ filt, s ≠ [] → 0 ≤ u.indexOf s) →
    (∀ (i : Nat) L, Ls[i]? = some L → L.Nodup ∧ (∀ e, key[i]? = some e → e ∈ L) ∧ ∃ ix rev, ms[i]? = some ix ∧ SliceMaps L ix rev) →
    sliceKey (sliceElemNrs u filt) ms key = freeKey filt Ls key
  | [], Ls, ms, key, _, _, _, _ => by simp [sliceKey, sliceElemNrs, freeKey]
  | s :: ss, [], ms, key, h, _, _, _ => by simp at h
  | s :: ss, L :: Ls, ms, [], _, h, _, _ => by simp at h
  | s :: ss, L :: Ls, ms, e :: es, h1, h2, hk, h3 => by
    obtain ⟨hnd, hmem, ix, rev, hi, hm⟩ := h3 0 L rfl
    obtain ⟨ix', ms', rfl⟩ : ∃ a b, ms = a :: b := by
      cases ms with
      | nil => simp at hi
      | cons a b => exact ⟨a, b, rfl⟩
    simp only [List.getElem?_cons_zero, Option.some.injEq] at hi
    subst hi
    have ih := sliceKey_eq (u := u) (outs := outs) ss Ls ms' es (by simpa using h1) (by simpa using h2) (fun x hx => hk x (List.mem_cons_of_mem _ hx))
      (fun i L' hL => by simpa using h3 (i + 1) L' (by simpa using hL))
    show sliceKey ((if s = [] then (-1 : Int) else u.indexOf s) :: sliceElemNrs u ss) (ix' :: ms') (e :: es) = _
    unfold sliceKey freeKey
    by_cases hs : s = []
    · rw [if_pos (by rw [if_pos hs]), if_pos hs, ih]
      have hel : e ∈ L := hmem e rfl
      have := (hm.at_ (L.idxOf e) e (by rw [List.getElem?_eq_getElem (List.idxOf_lt_length_of_mem hel), List.getElem_idxOf])).1
      rw [this]
    · have h0 := hk s List.mem_cons_self hs
      rw [if_neg (by rw [if_neg hs]; omega), if_neg hs, ih]

theorem sliceKey_take : ∀ (ns : List Int) (ms : List IntMap) (es : List Int) (d : Nat), ns.length ≤ d → sliceKey ns ms (es.take d) = sliceKey ns ms es
  | [], ms, es, d, _ => by simp [sliceKey]
  | n :: ns, [], es, d, _ => by simp [sliceKey]
  | n :: ns, m :: ms, [], d, _ => by simp [sliceKey]
  | n :: ns, m :: ms, e :: es, 0, h => by simp at h
  | n :: ns, m :: ms, e :: es, d + 1, h => by
    have ih := sliceKey_take ns ms es d (by simpa using h)
    simp only [List.take_succ_cons, sliceKey]
    rw [ih]

theorem sliceRead_yields (ns : List Int) (ms : List IntMap) {d : Nat} {g g' : Gx} {outs : List (RecOut Int)} (h : Yields g outs g') :
    g.nd = d → ns.length ≤ d → ∀ fuel : Nat, outs.length < fuel →
      sliceRead ns ms fuel g = .ok (g', (outs.filter fun o => sliceMatch ns o.key).map fun o => (sliceKey ns ms o.key, o.vals)) := by
  induction h with
  | @done g g' h =>
    intro _ _ fuel hf
    obtain ⟨n, rfl⟩ : ∃ n, fuel = n + 1 := ⟨fuel - 1, by omega⟩
    unfold sliceRead
    rw [h]
    rfl
  | @next g g1 g' fd vals rs h _ ih =>
    intro hd hl fuel hf
    obtain ⟨n, rfl⟩ : ∃ n, fuel = n + 1 := ⟨fuel - 1, by simp at hf; omega⟩
    have hst : RdStep g g1 := ((doRead_step g).of_ok h).1
    have ih := ih (hst.nd.trans hd) hl n (by simp at hf; omega)
    rw [sliceRead, h]
    simp only [Res.bind_ok]
    rw [ih]
    simp only [Res.bind_ok]
    have hkey : (recOf g1 vals fd).key = g1.last.take g1.nd := rfl
    rw [List.filter_cons, hkey]
    by_cases hc : sliceMatch ns (g1.last.take g1.nd) = true
    · rw [if_pos hc, if_pos hc, List.map_cons, hkey, sliceKey_take _ _ _ _ (by rw [hst.nd, hd]; exact hl)]
      rfl
    · rw [if_neg hc, if_neg hc]
      rfl

open Classical in
/-- C27, reading a slice: if the fixed strings are elements then the callback gets exactly the matching records, each with the slice
    indices of its free positions, and Dimen is the number of these; otherwise there is no record. `Matches` is that of C36. -/
theorem C27_slice (z : Cz) (g : Gx) (hg : GoodElems g) (hu : g.uel ≠ none) (dim : Int) (outs : List (RecOut Int)) (Ls : List (List Int))
    (h : Sliced z g dim outs Ls) (hk : ∀ o ∈ outs, o.key.length = dim.toNat) (filt : List Str) (hf : filt.length = dim.toNat) :
    ((∀ s ∈ filt, s ≠ [] → ∃ e, IsElem g e s) → ∃ g2, dataReadSlice z g filt = .ok (g2, (true, ((filt.filter (· == [])).length : Int),
        (outs.filter fun o => decide (Matches g filt o.key)).map fun o => (freeKey filt Ls o.key, o.vals))) ∧
      Sliced z g2 dim outs Ls ∧ g2.sliceElems.take dim.toNat = filt ∧ RdSame g g2) ∧
    ((∃ s ∈ filt, s ≠ [] ∧ ¬ ∃ e, IsElem g e s) → ∃ g2, dataReadSlice z g filt = .ok (g2, (false, ((filt.filter (· == [])).length : Int), [])) ∧
      g2.mode = .rInit ∧ RdSame g g2) := by
  obtain ⟨u, hu⟩ := Option.ne_none_iff_exists'.mp hu
  have hnd : g.nd = dim.toNat := by show g.curDim.toNat = _; rw [h.cdim]
  have hknown : ∀ s, ¬ u.indexOf s < 0 ↔ ∃ e, IsElem g e s := by
    intro s
    constructor
    · intro hlt
      rcases indexOf_range u s with h7 | h7
      · omega
      · exact ⟨_, (indexOf_is hg hu s _).mp ⟨rfl, h7.1⟩⟩
    · rintro ⟨e, he⟩
      obtain ⟨h7, h8⟩ := (indexOf_is hg hu s e).mpr he
      omega
  have hc : g.chk [.rSlice] = (g, true) := by
    unfold Gx.chk
    rw [if_pos (by rw [h.mode]; simp)]
  have hany : (List.zip filt (sliceElemNrs u filt)).any (fun p => p.1 != [] && decide (p.2 < 0)) = true ↔
      ∃ s ∈ filt, s ≠ [] ∧ ¬ ∃ e, IsElem g e s := by
    have hz : ∀ l : List Str, (List.zip l (sliceElemNrs u l)).any (fun p => p.1 != [] && decide (p.2 < 0)) = true ↔
        ∃ s ∈ l, s ≠ [] ∧ u.indexOf s < 0 := by
      intro l
      induction l with
      | nil => simp [sliceElemNrs]
      | cons s l ih =>
        show ((s != [] && decide ((if s = [] then (-1 : Int) else u.indexOf s) < 0)) ||
          (List.zip l (sliceElemNrs u l)).any (fun p => p.1 != [] && decide (p.2 < 0))) = true ↔ _
        rw [Bool.or_eq_true, ih]
        by_cases hs : s = []
        · simp [hs]
        · simp [hs]
    rw [hz]
    constructor
    · rintro ⟨s, a, b, c⟩
      exact ⟨s, a, b, fun hx => (hknown s).mpr hx c⟩
    · rintro ⟨s, a, b, c⟩
      refine ⟨s, a, b, ?_⟩
      by_contra hx
      exact c ((hknown s).mp hx)
  constructor
  · intro hall
    have hnn : ∀ s ∈ filt, s ≠ [] → 0 ≤ u.indexOf s := by
      intro s hs hne
      have := (hknown s).mpr (hall s hs hne)
      omega
    have hnot : ¬ (List.zip filt (sliceElemNrs u filt)).any (fun p => p.1 != [] && decide (p.2 < 0)) = true := by
      rw [hany]
      rintro ⟨s, a, b, c⟩
      exact c (hall s a b)
    have h0 : RdSame g { g with sliceElems := filt ++ g.sliceElems.drop g.nd, mode := .rInit } :=
      ⟨rfl, rfl, rfl, rfl, rfl, rfl, rfl, rfl, rfl, rfl, rfl, rfl, rfl, rfl, rfl, rfl, rfl, rfl, rfl⟩
    obtain ⟨g1, g2, n, e1, e2, e3, e4, e5, e6⟩ := h.data _ h0 rfl .rSlice (by decide)
    have hr := (prepareRaw_ready (z := z) g.sliceSy _ (m := .rSlice) (by decide)).of_ok e1
    have hs1 := (prepareRaw_slices (z := z) (g := { g with sliceElems := filt ++ g.sliceElems.drop g.nd, mode := .rInit }) rfl g.sliceSy _
      (nm := .rSlice) (by decide)).of_ok e1
    obtain ⟨hm1, hn1, _⟩ := hr.resolve_left (by simp only; omega)
    have hst := e3.step
    have hs2 := hst.slices
    have hnd1 : g1.nd = dim.toNat := by show g1.curDim.toNat = _; rw [e4]
    refine ⟨g2, ?_, ?_, ?_, h0.trans e6⟩
    · unfold dataReadSlice
      rw [hc]
      simp only [Bool.true_eq_false, if_false]
      rw [if_neg (by rw [hf, hnd]; simp), show need g.uel = .ok u by rw [hu]; rfl]
      simp only [Res.bind_ok]
      rw [if_neg hnot]
      show (prepareRead z _ g.sliceSy _ _ >>= _) = _
      rw [e1]
      simp only [Res.bind_ok]
      rw [if_neg (by omega), sliceRead_yields _ _ e3 rfl (by unfold sliceElemNrs; simp; omega) g1.fuel (Nat.lt_of_le_of_lt e3.len (left_lt_fuel g1))]
      simp only [Res.bind_ok]
      have hfil : (outs.filter fun o => sliceMatch (sliceElemNrs u filt) o.key) = outs.filter fun o => decide (Matches g filt o.key) := by
        refine List.filter_congr ?_
        intro o ho
        have := sliceMatch_iff hg hu filt o.key (by rw [hf, hk o ho]) hnn
        rw [Bool.eq_iff_iff, this, decide_eq_true_iff]
      rw [hfil]
      have hmap : ((outs.filter fun o => decide (Matches g filt o.key)).map fun o => (sliceKey (sliceElemNrs u filt) g1.sliceIdx o.key, o.vals)) =
          (outs.filter fun o => decide (Matches g filt o.key)).map fun o => (freeKey filt Ls o.key, o.vals) := by
        refine List.map_congr_left ?_
        intro o ho
        have ho := (List.mem_filter.mp ho).1
        rw [sliceKey_eq (u := u) (outs := outs) filt Ls g1.sliceIdx o.key (by rw [hf, h.len]) (by rw [hf, hk o ho]) hnn]
        intro i L hL
        obtain ⟨ix, rev, p1, _, p3⟩ := h.maps i L hL
        have he := h.elems i L hL
        refine ⟨he.asc.imp (fun h => by omega), fun e hx => (he.mem e).mpr ⟨o, ho, hx⟩, ix, rev, ?_, p3⟩
        rw [hs1.2.1]
        exact p1
      rw [hmap]
      rfl
    · refine ⟨hst.mode.trans hm1, ?_, hst.curDim.trans e4, h.len, h.elems, ?_⟩
      · rw [show g2.sliceSy = g.sliceSy from hs2.1.trans hs1.1]
        exact h.data.congr (h0.trans e6)
      · intro i L hL
        obtain ⟨ix, rev, p1, p2, p3⟩ := h.maps i L hL
        exact ⟨ix, rev, by rw [hs2.2.1, hs1.2.1]; exact p1, by rw [hs2.2.2.1, hs1.2.2.1]; exact p2, p3⟩
    · rw [hs2.2.2.2, hs1.2.2.2]
      show (filt ++ _).take _ = _
      rw [← hf, List.take_left']
      rfl
  · intro hex
    refine ⟨{ g with sliceElems := filt ++ g.sliceElems.drop g.nd, mode := .rInit }, ?_, rfl,
      ⟨rfl, rfl, rfl, rfl, rfl, rfl, rfl, rfl, rfl, rfl, rfl, rfl, rfl, rfl, rfl, rfl, rfl, rfl, rfl⟩⟩
    unfold dataReadSlice
    rw [hc]
    simp only [Bool.true_eq_false, if_false]
    rw [if_neg (by rw [hf, hnd]; simp), show need g.uel = .ok u by rw [hu]; rfl]
    simp only [Res.bind_ok]
    rw [if_pos (hany.mpr hex)]
    rfl

/-! ### from slice indices to strings -/

theorem sliceStrs_ok {g : Gx} (hg : GoodElems g) {u : Uel} (hu : g.uel = some u) : ∀ (filt : List Str) (Ls : List (List Int))
    (ms : List IntMap) (ks : List Int), filt.length = Ls.length → (filt.filter (· == [])).length ≤ ks.length → (∀ s ∈ filt, s.length < 64) →
    (∀ (i : Nat) L, Ls[i]? = some L → (∀ e ∈ L, 1 ≤ e ∧ e ≤ u.size) ∧ ∃ ix rev, ms[i]? = some rev ∧ SliceMaps L ix rev) →
    ∃ r, sliceStrs u filt ms ks = .ok r ∧ SliceStrs g filt Ls ks r
  | [], [], ms, ks, _, _, _, _ => ⟨[], by unfold sliceStrs; rfl, .nil ks⟩
  | [], _ :: _, _, _, h, _, _, _ => by simp at h
  | _ :: _, [], _, _, h, _, _, _ => by simp at h
  | s :: ss, L :: Ls, ms, ks, h1, h2, h3, h4 => by
    obtain ⟨hr, ix, rev, hi, hm⟩ := h4 0 L rfl
    obtain ⟨m', ms', rfl⟩ : ∃ a b, ms = a :: b := by
      cases ms with
      | nil => simp at hi
      | cons a b => exact ⟨a, b, rfl⟩
    simp only [List.getElem?_cons_zero, Option.some.injEq] at hi
    subst hi
    have ih := fun ks' hk => sliceStrs_ok hg hu ss Ls ms' ks' (by simpa using h1) hk (fun x hx => h3 x (List.mem_cons_of_mem _ hx))
      (fun i L' hL => by simpa using h4 (i + 1) L' (by simpa using hL))
    by_cases hs : s = []
    · subst hs
      obtain ⟨k, ks, rfl⟩ : ∃ a b, ks = a :: b := by
        cases ks with
        | nil => simp at h2
        | cons a b => exact ⟨a, b, rfl⟩
      obtain ⟨r, e1, e2⟩ := ih ks (by simpa using h2)
      by_cases hb : k < 0 ∨ (L.length : Int) ≤ k
      · refine ⟨[63] :: r, ?_, .bad hb e2⟩
        unfold sliceStrs
        rw [if_neg (by simp)]
        dsimp only
        rw [if_pos (by rw [hm.out k hb]; decide)]
        simp only [Res.pure_eq, Res.bind_ok]
        rw [e1]
        rfl
      · obtain ⟨j, rfl⟩ : ∃ j : Nat, k = j := ⟨k.toNat, by omega⟩
        have hj : j < L.length := by omega
        have hget := List.getElem?_eq_getElem hj
        have hrev := (hm.at_ j _ hget).2
        obtain ⟨b1, b2⟩ := hr _ (List.getElem_mem hj)
        obtain ⟨⟨t, n⟩, hx⟩ := at1_total (l := u.ents) b1 b2
        obtain ⟨_, _, hx3⟩ := at1_ok hx
        have hum := umUelGet_in hg hu hx3
        rw [show (((L[j] - 1).toNat : Nat) : Int) + 1 = L[j] by omega] at hum
        refine ⟨t :: r, ?_, .free hget hum e2⟩
        unfold sliceStrs
        rw [if_neg (by simp)]
        dsimp only
        rw [if_neg (by rw [hrev]; omega), hrev]
        have hlen : t.length < 64 := by
          refine goodUEL_length ((hg u hu).good t ?_).1
          exact List.mem_map.mpr ⟨(t, n), List.mem_of_getElem? hx3, rfl⟩
        unfold Uel.str
        rw [hx]
        simp only [Res.pure_eq, Res.bind_ok]
        rw [fits_of hlen, e1]
        rfl
    · have hf : (List.filter (· == []) (s :: ss)) = List.filter (· == []) ss := by
        rw [List.filter_cons, if_neg (by simpa using hs)]
      obtain ⟨r, e1, e2⟩ := ih ks (by rw [hf] at h2; exact h2)
      refine ⟨s :: r, ?_, .fixed hs e2⟩
      unfold sliceStrs
      rw [if_pos hs, fits_of (h3 s List.mem_cons_self), e1]
      rfl

/-- C27, gdxDataSliceUELS: a fixed position gives its string, a slice index in 0..count-1 the string of the element it stands for,
    and any other index a question mark. -/
theorem C27_uels (z : Cz) (g : Gx) (hg : GoodElems g) (hu : g.uel ≠ none) (dim : Int) (outs : List (RecOut Int)) (Ls : List (List Int))
    (h : Sliced z g dim outs Ls) (hk : ∀ o ∈ outs, ∀ e ∈ o.key, 1 ≤ e ∧ e ≤ (systemInfo g).2) (filt : List Str)
    (hf : g.sliceElems.take dim.toNat = filt) (hl : filt.length = dim.toNat) (hs : ∀ s ∈ filt, s.length < 64) (keys : List Int)
    (hn : (filt.filter (· == [])).length ≤ keys.length) : ∃ r, dataSliceUELS g keys = .ok (g, some r) ∧ SliceStrs g filt Ls keys r := by
  obtain ⟨u, hu⟩ := Option.ne_none_iff_exists'.mp hu
  have hnd : g.nd = dim.toNat := by show g.curDim.toNat = _; rw [h.cdim]
  have hsz : (systemInfo g).2 = u.size := by unfold systemInfo; rw [hu]; rfl
  have hc : g.chk [.rSlice] = (g, true) := by
    unfold Gx.chk
    rw [if_pos (by rw [h.mode]; simp)]
  obtain ⟨r, e1, e2⟩ := sliceStrs_ok hg hu filt Ls g.sliceRev keys (by rw [hl, h.len]) hn hs (by
    intro i L hL
    obtain ⟨ix, rev, _, p2, p3⟩ := h.maps i L hL
    refine ⟨?_, ix, rev, p2, p3⟩
    intro e he
    obtain ⟨o, ho, hx⟩ := ((h.elems i L hL).mem e).mp he
    rw [← hsz]
    exact hk o ho e (List.mem_of_getElem? hx))
  refine ⟨r, ?_, e2⟩
  unfold dataSliceUELS
  rw [hc]
  simp only [Bool.true_eq_false, if_false]
  rw [show need g.uel = .ok u by rw [hu]; rfl, hnd, hf]
  simp only [Res.bind_ok]
  rw [e1]
  rfl

/-- the strings of a record delivered by a slice are its fixed strings and the strings of its elements -/
theorem C27_back (g : Gx) : ∀ (filt : List Str) (Ls : List (List Int)) (key : List Int) (r : List Str),
    SliceStrs g filt Ls (freeKey filt Ls key) r → filt.length = key.length →
    (∀ (i : Nat) L e, Ls[i]? = some L → key[i]? = some e → e ∈ L) → r.length = filt.length ∧
    ∀ (i : Nat) s e t, filt[i]? = some s → key[i]? = some e → r[i]? = some t → if s = [] then ∃ n, umUelGet g e = .ok (true, t, n) else t = s
  | [], Ls, key, r, h, _, _ => by
    cases h
    simp
  | s :: ss, [], key, r, h, _, _ => by cases h
  | s :: ss, L :: Ls, [], r, h, hl, _ => by simp at hl
  | s :: ss, L :: Ls, e :: es, r, h, hl, hm => by
    have hrec := fun r' (h' : SliceStrs g ss Ls (freeKey ss Ls es) r') => C27_back g ss Ls es r' h' (by simpa using hl)
      (fun i L' e' h1 h2 => hm (i + 1) L' e' (by simpa using h1) (by simpa using h2))
    by_cases hs : s = []
    · subst hs
      have hel : e ∈ L := hm 0 L e rfl rfl
      have hget : L[L.idxOf e]? = some e := by
        rw [List.getElem?_eq_getElem (List.idxOf_lt_length_of_mem hel), List.getElem_idxOf]
      unfold freeKey at h
      rw [if_pos rfl] at h
      generalize hkk : ((L.idxOf e : Nat) : Int) = kk at h
      cases h with
      | fixed hs _ => exact absurd rfl hs
      | @free _ _ _ k ks e' t n r' hk ht h' =>
        have : k = L.idxOf e := by omega
        subst this
        rw [hget] at hk
        cases hk
        obtain ⟨a, b⟩ := hrec _ h'
        refine ⟨by simp [a], ?_⟩
        intro i s' e' t' h1 h2 h3
        cases i with
        | zero =>
          cases h1; cases h2; cases h3
          rw [if_pos rfl]
          exact ⟨n, ht⟩
        | succ i => exact b i s' e' t' (by simpa using h1) (by simpa using h2) (by simpa using h3)
      | bad hk _ =>
        have := List.idxOf_lt_length_of_mem hel
        omega
    · unfold freeKey at h
      rw [if_neg hs] at h
      generalize hkk : freeKey ss Ls es = kk at h
      cases h with
      | fixed _ h' =>
        rw [← hkk] at h'
        obtain ⟨a, b⟩ := hrec _ h'
        refine ⟨by simp [a], ?_⟩
        intro i s' e' t' h1 h2 h3
        cases i with
        | zero =>
          cases h1; cases h2; cases h3
          rw [if_neg hs]
        | succ i => exact b i s' e' t' (by simpa using h1) (by simpa using h2) (by simpa using h3)
      | free _ _ _ => exact absurd rfl hs
      | bad _ _ => exact absurd rfl hs

/-- C27 for a symbol that holds the records `xs`: the slices are about just these records. -/
theorem C27_loaded (z : Cz) (hz : z.Good) (g : Gx) (m : Nat) (d : SymDesc) (xs : List RawEntry) (h : Loaded z g m d xs)
    (nr : Int) (ht : Targets g nr m) (hx : ∀ x ∈ xs, ∀ e ∈ x.key, 0 ≤ e ∧ e ≤ intMax) : ∃ outs g2 Ls, Delivered g.rsv (acrOf g) d xs outs ∧
      dataReadSliceStart z g nr = .ok (g2, (Ls : List (List Int)).map fun L => (L.length : Int)) ∧ Sliced z g2 d.dim outs Ls ∧
      (∀ o ∈ outs, o.key.length = d.dim.toNat) ∧ RdSame g g2 := by
  obtain ⟨hm, h2, ⟨s, h3, _, h5⟩, _⟩ := h
  have hd := rawAll_delivered h2 h3 h5
  have hy := h5.yieldsAs hz ht
  rw [show s.dim = d.dim from h3.dim] at hy
  have hk : ∀ o ∈ rawAll g.loads s (xs.map fun x => stored x.sv x.key x.vals), o.key.length = d.dim.toNat ∧ ∀ e ∈ o.key, 0 ≤ e ∧ e ≤ intMax := by
    have hd' := hd
    unfold Delivered at hd'
    intro o ho
    split at hd'
    · rename_i hc
      rw [hd'] at ho
      rw [List.mem_singleton.mp ho, hc.1]
      exact ⟨rfl, by simp⟩
    · refine ⟨hd'.len o ho, ?_⟩
      have hmem : o.key ∈ xs.map fun x => x.key := by rw [← sameRec_keys hd'.recs]; exact List.mem_map_of_mem ho
      obtain ⟨x, hx1, hx2⟩ := List.mem_map.mp hmem
      rw [← hx2]
      exact hx x hx1
  obtain ⟨g2, Ls, e1, e2, e3, e4⟩ := C27_start z g nr d.dim _ hy hm hk
  exact ⟨_, g2, Ls, hd, e1, e2, fun o ho => (hk o ho).1, e4⟩

/-! ### examples -/

/-- {a.b, a.c, b.c}: the second position has the elements b, c with slice indices 0, 1 -/
def exSliceCalls : List Call :=
  [.openWrite false 0 [65] 0, .strStart [105] [] 2 0 0, .writeStr [[97], [98]] [0], .writeStr [[97], [99]] [0],
    .writeStr [[98], [99]] [0], .writeDone, .close]

example : exCb exSliceCalls (fun g => do let r ← dataReadSliceStart Cz.id g 1; pure r.2) = .ok [2, 2] := by decide +kernel

example : exCb exSliceCalls (fun g => do
    let r ← dataReadSliceStart Cz.id g 1
    let q ← dataReadSlice Cz.id r.1 [[97], []]
    pure (q.2.1, q.2.2.1, q.2.2.2.map Prod.fst)) = .ok (true, 1, [[0], [1]]) := by decide +kernel

example : exCb exSliceCalls (fun g => do
    let r ← dataReadSliceStart Cz.id g 1
    let q ← dataReadSlice Cz.id r.1 [[97], []]
    let s ← dataSliceUELS q.1 [1]
    pure s.2) = .ok (some [[97], [99]]) := by decide +kernel

#print axioms C27_start
#print axioms C27_slice
#print axioms C27_uels
#print axioms C27_back
#print axioms C27_loaded

end Gdx.Props
