import Verif.Proofs.Trace
import Verif.Props.RawSession
import Verif.Props.Elements

/-!
C36: the readers with callbacks deliver what the record loop delivers.
-/

namespace Gdx.Props

open Gdx Spec

/-! ### what must be delivered -/

/-- `ds` is what a callback gets out of the sequence `outs` of records: all of it, or the part up to and including the first
    record on which the callback asks to stop. The answer of the callback may depend on everything it has seen. -/
def Stops (cont : List (RecOut Int) → Bool) (outs ds : List (RecOut Int)) : Prop :=
  ∃ k, k ≤ outs.length ∧ ds = outs.take k ∧ (∀ j, 0 < j → j < k → cont (outs.take j) = true) ∧
    (k = outs.length ∨ (0 < k ∧ cont (outs.take k) = false))

/-- element number `e` has the string `s`, up to case -/
def IsElem (g : Gx) (e : Int) (s : Str) : Prop := ∃ t m, umUelGet g e = .ok (true, t, m) ∧ SameNoCase t s

/-- the key has at every fixed position (`filt` not empty) the element with the given string -/
def Matches (g : Gx) (filt : List Str) (key : List Int) : Prop :=
  ∀ (i : Nat) (s : Str), filt[i]? = some s → s ≠ [] → ∃ e, key[i]? = some e ∧ IsElem g e s

/-! ### the loops -/

theorem Stops.nil (cont : List (RecOut Int) → Bool) : Stops cont [] [] := ⟨0, le_refl _, rfl, fun j h1 h2 => by omega, Or.inl rfl⟩

theorem Stops.cons {cont : List (RecOut Int) → Bool} {r : RecOut Int} {outs ds : List (RecOut Int)} (hc : cont [r] = true)
    (h : Stops (fun x => cont (r :: x)) outs ds) : Stops cont (r :: outs) (r :: ds) := by
  obtain ⟨k, h1, rfl, h3, h4⟩ := h
  refine ⟨k + 1, by simp [h1], by simp, ?_, ?_⟩
  · intro j j1 j2
    cases j with
    | zero => omega
    | succ j =>
      rw [List.take_succ_cons]
      cases j with
      | zero => exact hc
      | succ j => exact h3 (j + 1) (by omega) (by omega)
  · rcases h4 with h4 | ⟨h4, h5⟩
    · exact Or.inl (by simp [h4])
    · exact Or.inr ⟨by omega, by rw [List.take_succ_cons]; exact h5⟩

theorem Stops.one {cont : List (RecOut Int) → Bool} {r : RecOut Int} {outs : List (RecOut Int)} (hc : cont [r] = false) :
    Stops cont (r :: outs) [r] :=
  ⟨1, by simp, by simp, fun j h1 h2 => by omega, Or.inr ⟨by omega, by simpa using hc⟩⟩

/-- a callback that never stops gets everything -/
theorem Stops.all {outs ds : List (RecOut Int)} (h : Stops (fun _ => true) outs ds) : ds = outs := by
  obtain ⟨k, _, rfl, _, h4⟩ := h
  rcases h4 with rfl | ⟨_, h4⟩
  · exact List.take_length
  · cases h4

theorem readLoop_yields {g g' : Gx} {outs : List (RecOut Int)} (h : Yields g outs g') :
    ∀ (cont : List (RecOut Int) → Bool) (fuel : Nat) (acc : List (RecOut Int)), outs.length < fuel →
      ∃ g'' ds, readLoop cont fuel g acc = .ok (g'', acc ++ ds) ∧ Stops (fun x => cont (acc ++ x)) outs ds ∧ RdStep g g'' ∧
        ((∀ x, cont x = true) → g'' = g') := by
  induction h with
  | @done g g' h =>
    intro cont fuel acc hf
    obtain ⟨n, rfl⟩ : ∃ n, fuel = n + 1 := ⟨fuel - 1, by omega⟩
    refine ⟨g', [], ?_, Stops.nil _, ((doRead_step g).of_ok h).1, fun _ => rfl⟩
    unfold readLoop
    rw [h]
    simp
  | @next g g1 g' fd vals rs h _ ih =>
    intro cont fuel acc hf
    obtain ⟨n, rfl⟩ : ∃ n, fuel = n + 1 := ⟨fuel - 1, by simp at hf; omega⟩
    have hst := ((doRead_step g).of_ok h).1
    by_cases hc : cont (acc ++ [recOf g1 vals fd]) = true
    · obtain ⟨g'', ds, e1, e2, e3, e4⟩ := ih cont n (acc ++ [recOf g1 vals fd]) (by simp at hf; omega)
      refine ⟨g'', recOf g1 vals fd :: ds, ?_, ?_, hst.trans e3, e4⟩
      · unfold readLoop
        rw [h]
        simp only [Res.bind_ok]
        rw [if_pos hc, e1]
        simp
      · refine Stops.cons hc ?_
        simpa using e2
    · refine ⟨g1, [recOf g1 vals fd], ?_, Stops.one (by simpa using hc), hst, fun h => absurd (h _) hc⟩
      unfold readLoop
      rw [h]
      simp only [Res.bind_ok]
      rw [if_neg hc]
      rfl

theorem prepareRaw_ready {z : Cz} {g : Gx} (nr : Int) (acts : List Int) {m : Mode} (h1 : m ≠ .rMap) :
    (prepareRead z g nr acts m).All fun x => x.2 = -1 ∨ (x.1.mode = m ∧ x.1.nrMapped = 0 ∧ x.1.opened = x.1.opened) := by
  unfold prepareRead
  refine Res.All.bind' ?_
  intro x hx
  have h0 : x.1.nrMapped = 0 := by
    unfold prepareStart at hx
    obtain ⟨g0, _, hx⟩ := Res.bind_eq_ok.mp hx
    dsimp only at hx
    unfold Gx.chk at hx
    split at hx
    · simp only [Bool.true_eq_false, if_false] at hx
      cases hx; rfl
    · simp only [if_true] at hx
      cases hx; rfl
  dsimp only
  split
  · exact Or.inl rfl
  refine Res.All.bind' ?_
  intro fl _
  refine Res.All.bind' ?_
  intro syms _
  split
  · exact Or.inl rfl
  refine Res.All.bind' ?_
  intro t _
  split
  · split
    · trivial
    split
    · exact Or.inl rfl
    · exact Or.inr ⟨rfl, h0, rfl⟩
  · refine Res.All.bind' ?_
    intro s _
    split
    · trivial
    split
    · trivial
    split
    · exact Or.inl rfl
    · unfold prepareData
      dsimp only
      split
      · exact Or.inl rfl
      refine Res.All.bind' ?_
      intro x _
      split
      · exact Or.inl rfl
      refine Res.All.bind' ?_
      intro y _
      split
      · exact Or.inr ⟨rfl, h0, rfl⟩
      refine Res.All.bind' ?_
      intro w _
      exact Or.inr ⟨rfl, h0, rfl⟩

/-- a successful start of a raw read -/
theorem rawStart_prep {z : Cz} {g g1 : Gx} {nr n : Int} (h : dataReadRawStart z g nr = .ok (g1, (true, n))) :
    prepareRead z g nr (List.replicate 20 domcUnmapped) .rRaw = .ok (g1, n) ∧ 0 ≤ n ∧ g1.mode = .rRaw ∧ g1.nrMapped = 0 := by
  unfold dataReadRawStart at h
  obtain ⟨⟨g2, k⟩, h1, h2⟩ := Res.bind_eq_ok.mp h
  simp only [Res.pure_eq, Res.ok.injEq, Prod.mk.injEq] at h2
  obtain ⟨rfl, h3, rfl⟩ := h2
  have hk : 0 ≤ k := by simpa using h3
  rcases (prepareRaw_ready nr _ (by decide)).of_ok h1 with h4 | ⟨h4, h5, _⟩
  · simp only at h4
    omega
  · exact ⟨h1, hk, h4, h5⟩

theorem readDone_ok {g : Gx} (hm : g.mode = .rRaw) (hn : g.nrMapped = 0) :
    dataReadDone g = .ok ({ g with sort := none, cur := .none, mode := .rInit }, true) :=
  dataReadDone_plain (by rw [hm]; simp) hn

/-! ### C36 -/

/-- C36: gdxDataReadRawFastEx, with a callback that may stop at any record. Whatever gdxDataReadRawStart and repeated
    gdxDataReadRaw deliver, the callback gets the same records in the same order, up to the one where it stops. -/
theorem C36_fastEx (z : Cz) (g g1 g2 : Gx) (nr n : Int) (outs : List (RecOut Int)) (cont : List (RecOut Int) → Bool)
    (h : dataReadRawStart z g nr = .ok (g1, (true, n))) (hr : DeliversRaw g1 outs g2) :
    ∃ g3 ds, dataReadRawFastEx z g nr cont = .ok (g3, (true, n, ds)) ∧ Stops cont outs ds ∧ g3.mode = .rInit ∧
      ((∀ x, cont x = true) → g3 = g2) := by
  obtain ⟨h1, h2, h3, h4⟩ := rawStart_prep h
  obtain ⟨g', h5, h6⟩ := hr.yields h3
  obtain ⟨g'', ds, e1, e2, e3, e4⟩ := readLoop_yields h5 cont g1.fuel [] (Nat.lt_of_le_of_lt h5.len (left_lt_fuel g1))
  have hd := readDone_ok (g := g'') (e3.mode.trans h3) (e3.nrMapped.trans h4)
  refine ⟨{ g'' with sort := none, cur := .none, mode := .rInit }, ds, ?_, by simpa using e2, rfl, ?_⟩
  · unfold dataReadRawFastEx prepareRawUnchecked
    rw [h1]
    simp only [Res.bind_ok]
    rw [if_neg (by omega)]
    simp only [Res.pure_eq, Res.bind_ok]
    rw [e1]
    simp only [Res.bind_ok, List.nil_append]
    rw [hd]
    rfl
  · intro hc
    obtain rfl := e4 hc
    rw [hd] at h6
    cases h6
    rfl

/-- C36: gdxDataReadRawFast delivers the whole sequence and leaves the object as the record loop does -/
theorem C36_fast (z : Cz) (g g1 g2 : Gx) (nr n : Int) (outs : List (RecOut Int))
    (h : dataReadRawStart z g nr = .ok (g1, (true, n))) (hr : DeliversRaw g1 outs g2) :
    dataReadRawFast z g nr = .ok (g2, (true, n, outs)) := by
  obtain ⟨g3, ds, h1, h2, _, h4⟩ := C36_fastEx z g g1 g2 nr n outs (fun _ => true) h hr
  obtain rfl := h2.all
  obtain rfl := h4 fun _ => rfl
  exact h1

/-! ### fixed positions -/

theorem indexOf_is {g : Gx} (hg : GoodElems g) {u : Uel} (hu : g.uel = some u) (s : Str) (e : Int) :
    (u.indexOf s = e ∧ 1 ≤ e) ↔ IsElem g e s := by
  constructor
  · rintro ⟨h1, h2⟩
    unfold Uel.indexOf at h1
    rcases indexOf1_cases false s u.strs with ⟨_, h3⟩ | ⟨j, h3, h4⟩
    · omega
    · obtain ⟨x, hx, hs⟩ := lookup_some h3
      unfold Uel.strs at hx
      rw [List.getElem?_map] at hx
      obtain ⟨⟨x', m⟩, hy, hxe⟩ := Option.map_eq_some_iff.mp hx
      cases hxe
      have := umUelGet_in hg hu hy
      rw [← h4, h1] at this
      exact ⟨_, _, this, hs⟩
  · rintro ⟨t, m, h1, h2⟩
    unfold umUelGet at h1
    rw [hu] at h1
    simp only at h1
    split at h1
    · rename_i hn
      obtain ⟨⟨x, d⟩, hx⟩ := at1_total (l := u.ents) hn.1 hn.2
      obtain ⟨h3, h4, h5⟩ := at1_ok hx
      unfold Uel.str Uel.userMap at h1
      rw [hx] at h1
      simp only [Res.bind_ok, Res.pure_eq] at h1
      have hxs : x ∈ u.strs := List.mem_map.mpr ⟨(x, d), List.mem_of_getElem? h5, rfl⟩
      rw [fits_of (goodUEL_length ((hg u hu).good x hxs).1)] at h1
      cases h1
      have hl : lookup false s u.strs = some (e - 1).toNat := by
        refine (hg u hu).distinct.lookup (x := t) ?_ h2
        unfold Uel.strs
        rw [List.getElem?_map, h5]
        rfl
      unfold Uel.indexOf indexOf1
      rw [hl]
      simp only
      omega
    · cases h1

/-- the fixed positions that gdxDataReadRawFastFilt works out -/
theorem fixedOf_none {u : Uel} : ∀ (filt : List Str) (d : Nat), fixedOf u d filt = none ↔ ∃ s ∈ filt, s ≠ [] ∧ u.indexOf s < 0
  | [], d => by simp [fixedOf]
  | s :: ss, d => by
    unfold fixedOf
    by_cases h0 : s = []
    · rw [if_pos h0, fixedOf_none ss]
      constructor
      · rintro ⟨t, h1, h2⟩
        exact ⟨t, List.mem_cons_of_mem _ h1, h2⟩
      · rintro ⟨t, h1, h2, h3⟩
        rcases List.mem_cons.mp h1 with rfl | h1
        · exact absurd h0 h2
        · exact ⟨t, h1, h2, h3⟩
    · rw [if_neg h0]
      by_cases hi : u.indexOf s < 0
      · rw [if_pos hi]
        exact ⟨fun _ => ⟨s, List.mem_cons_self, h0, hi⟩, fun _ => rfl⟩
      · rw [if_neg hi, Option.map_eq_none_iff, fixedOf_none ss]
        constructor
        · rintro ⟨t, h1, h2⟩
          exact ⟨t, List.mem_cons_of_mem _ h1, h2⟩
        · rintro ⟨t, h1, h2, h3⟩
          rcases List.mem_cons.mp h1 with rfl | h1
          · exact absurd h3 hi
          · exact ⟨t, h1, h2, h3⟩

theorem fixedOf_some {u : Uel} : ∀ (filt : List Str) (d : Nat) (fx : List (Nat × Int)), fixedOf u d filt = some fx →
    (∀ p, p ∈ fx ↔ ∃ i s, filt[i]? = some s ∧ s ≠ [] ∧ p = (d + i, u.indexOf s)) ∧
      fx.length = (filt.filter (· ≠ [])).length
  | [], d, fx, h => by
    cases h
    simp
  | s :: ss, d, fx, h => by
    unfold fixedOf at h
    by_cases h0 : s = []
    · rw [if_pos h0] at h
      obtain ⟨h1, h2⟩ := fixedOf_some ss (d + 1) fx h
      refine ⟨?_, by simp [h0, h2]⟩
      intro p
      rw [h1]
      constructor
      · rintro ⟨i, t, a, b, c⟩
        exact ⟨i + 1, t, by simpa using a, b, by rw [c]; congr 1; omega⟩
      · rintro ⟨i, t, a, b, c⟩
        cases i with
        | zero => cases a; exact absurd h0 b
        | succ i => exact ⟨i, t, by simpa using a, b, by rw [c]; congr 1; omega⟩
    · rw [if_neg h0] at h
      split at h
      · cases h
      · obtain ⟨fx', h3, h4⟩ := Option.map_eq_some_iff.mp h
        subst h4
        obtain ⟨h1, h2⟩ := fixedOf_some ss (d + 1) fx' h3
        refine ⟨?_, by simp [h0, h2]⟩
        intro p
        rw [List.mem_cons, h1]
        constructor
        · rintro (rfl | ⟨i, t, a, b, c⟩)
          · exact ⟨0, s, rfl, h0, rfl⟩
          · exact ⟨i + 1, t, by simpa using a, b, by rw [c]; congr 1; omega⟩
        · rintro ⟨i, t, a, b, c⟩
          cases i with
          | zero => cases a; exact Or.inl c
          | succ i => exact Or.inr ⟨i, t, by simpa using a, b, by rw [c]; congr 1; omega⟩

theorem matchFixed_iff {g : Gx} (hg : GoodElems g) {u : Uel} (hu : g.uel = some u) {filt : List Str} {fx : List (Nat × Int)}
    (h : fixedOf u 0 filt = some fx) (key : List Int) : matchFixed fx key = true ↔ Matches g filt key := by
  obtain ⟨h1, _⟩ := fixedOf_some filt 0 fx h
  have h2 : ¬ ∃ s ∈ filt, s ≠ [] ∧ u.indexOf s < 0 := by
    rw [← fixedOf_none filt 0, h]
    simp
  unfold matchFixed Matches
  rw [List.all_eq_true]
  constructor
  · intro hx i s hs h0
    have := hx (0 + i, u.indexOf s) ((h1 _).mpr ⟨i, s, hs, h0, rfl⟩)
    simp only [Nat.zero_add, beq_iff_eq] at this
    refine ⟨_, this, (indexOf_is hg hu s _).mp ⟨rfl, ?_⟩⟩
    have h3 : ¬ u.indexOf s < 0 := fun hlt => h2 ⟨s, List.mem_of_getElem? hs, h0, hlt⟩
    rcases indexOf_range u s with h4 | h4
    · omega
    · exact h4.1
  · intro hx p hp
    obtain ⟨i, s, a, b, rfl⟩ := (h1 p).mp hp
    obtain ⟨e, he, hi⟩ := hx i s a b
    obtain ⟨h3, _⟩ := (indexOf_is hg hu s e).mpr hi
    simp [he, h3]

/-- the fixed positions are positions of the symbol, so only the first `nd` entries of LastElem matter -/
theorem matchFixed_take {u : Uel} {filt : List Str} {fx : List (Nat × Int)} (h : fixedOf u 0 filt = some fx) (key : List Int) :
    matchFixed fx (key.take filt.length) = matchFixed fx key := by
  obtain ⟨h1, _⟩ := fixedOf_some filt 0 fx h
  unfold matchFixed
  rw [Bool.eq_iff_iff, List.all_eq_true, List.all_eq_true]
  refine forall_congr' fun p => forall_congr' fun hp => ?_
  obtain ⟨i, s, a, b, rfl⟩ := (h1 p).mp hp
  have := (List.getElem?_eq_some_iff.mp a).1
  rw [List.getElem?_take, if_pos (by simpa using this)]

theorem filtLoop_yields {fx : List (Nat × Int)} {g g' : Gx} {outs : List (RecOut Int)} (h : Yields g outs g')
    (hfx : fx.length < maxDim) : (∀ key : List Int, matchFixed fx (key.take g.nd) = matchFixed fx key) →
    ∀ (cont : List (RecOut Int) → Bool) (fuel : Nat) (acc : List (RecOut Int)), outs.length < fuel →
      ∃ g'' ds, filtLoop fx cont fuel g acc = .ok (g'', acc ++ ds) ∧
        Stops (fun x => cont (acc ++ x)) (outs.filter fun o => matchFixed fx o.key) ds ∧ RdStep g g'' := by
  induction h with
  | @done g g' h =>
    intro _ cont fuel acc hf
    obtain ⟨n, rfl⟩ : ∃ n, fuel = n + 1 := ⟨fuel - 1, by omega⟩
    refine ⟨g', [], ?_, Stops.nil _, ((doRead_step g).of_ok h).1⟩
    unfold filtLoop
    rw [h]
    simp
  | @next g g1 g' fd vals rs h _ ih =>
    intro htk cont fuel acc hf
    obtain ⟨n, rfl⟩ : ∃ n, fuel = n + 1 := ⟨fuel - 1, by simp at hf; omega⟩
    have hst := ((doRead_step g).of_ok h).1
    have hst' : RdStep g g1 := hst
    have hkey : matchFixed fx (recOf g1 vals fd).key = matchFixed fx g1.last := by
      show matchFixed fx (g1.last.take g1.nd) = _
      rw [hst'.nd, htk]
    have htk1 : ∀ key : List Int, matchFixed fx (key.take g1.nd) = matchFixed fx key := by
      rw [hst'.nd]; exact htk
    have hun : filtLoop fx cont (n + 1) g acc = (if matchFixed fx g1.last then
        if cont (acc ++ [recOf g1 vals fd]) then filtLoop fx cont n g1 (acc ++ [recOf g1 vals fd]) else pure (g1, acc ++ [recOf g1 vals fd])
        else filtLoop fx cont n g1 acc) := by
      rw [filtLoop, h]
      simp only [Res.bind_ok]
      rw [if_neg (by omega)]
    rw [hun, List.filter_cons, hkey]
    by_cases hmt : matchFixed fx g1.last = true
    · rw [if_pos hmt, if_pos hmt]
      by_cases hc : cont (acc ++ [recOf g1 vals fd]) = true
      · obtain ⟨g'', ds, e1, e2, e3⟩ := ih htk1 cont n (acc ++ [recOf g1 vals fd]) (by simp at hf; omega)
        refine ⟨g'', recOf g1 vals fd :: ds, ?_, ?_, hst.trans e3⟩
        · rw [if_pos hc, e1]
          simp
        · refine Stops.cons hc ?_
          simpa using e2
      · refine ⟨g1, [recOf g1 vals fd], ?_, Stops.one (by simpa using hc), hst⟩
        rw [if_neg hc]
        rfl
    · rw [if_neg hmt, if_neg hmt]
      obtain ⟨g'', ds, e1, e2, e3⟩ := ih htk1 cont n acc (by simp at hf; omega)
      exact ⟨g'', ds, e1, e2, hst.trans e3⟩

open Classical in
/-- C36: gdxDataReadRawFastFilt. `filt` has one string per position, the empty string for a free one. If every given string
    is an element, the callback gets exactly the records that match, up to the one where it stops. Missing for the full
    claim: twenty fixed positions (`C36_filt_counterexample`). -/
theorem C36_filt_partial (z : Cz) (g g1 g2 : Gx) (nr n : Int) (outs : List (RecOut Int)) (cont : List (RecOut Int) → Bool) (filt : List Str)
    (h : dataReadRawStart z g nr = .ok (g1, (true, n))) (hr : DeliversRaw g1 outs g2) (hg : GoodElems g1) (hu : g1.uel ≠ none)
    (hl : filt.length = g1.nd) (hn : (filt.filter (· ≠ [])).length < 20) :
    ∃ g3 ds, g3.mode = .rInit ∧
      ((∀ s ∈ filt, s ≠ [] → ∃ e, IsElem g1 e s) → dataReadRawFastFilt z g nr filt cont = .ok (g3, (true, ds)) ∧
        Stops cont (outs.filter fun o => decide (Matches g1 filt o.key)) ds) ∧
      ((∃ s ∈ filt, s ≠ [] ∧ ¬ ∃ e, IsElem g1 e s) → dataReadRawFastFilt z g nr filt cont = .ok (g3, (false, []))) := by
  obtain ⟨h1, h2, h3, h4⟩ := rawStart_prep h
  obtain ⟨g', h5, h6⟩ := hr.yields h3
  obtain ⟨u, hu⟩ := Option.ne_none_iff_exists'.mp hu
  have hknown : ∀ s, ¬ u.indexOf s < 0 ↔ ∃ e, IsElem g1 e s := by
    intro s
    constructor
    · intro hlt
      rcases indexOf_range u s with h7 | h7
      · omega
      · exact ⟨_, (indexOf_is hg hu s _).mp ⟨rfl, h7.1⟩⟩
    · rintro ⟨e, he⟩
      obtain ⟨h7, h8⟩ := (indexOf_is hg hu s e).mpr he
      omega
  have hbody : dataReadRawFastFilt z g nr filt cont =
      ((match fixedOf u 0 filt with
        | none => (pure (g1, (false, [])) : Res (Gx × (Bool × List (RecOut Int))))
        | some fx => filtLoop fx cont g1.fuel g1 [] >>= fun y => pure (y.1, (true, y.2))) >>= fun x =>
        dataReadDone x.1 >>= fun y => pure (y.1, x.2)) := by
    unfold dataReadRawFastFilt
    rw [h1]
    simp only [Res.bind_ok]
    unfold filtBody
    rw [if_neg (by omega), if_neg (by omega), hu]
    rfl
  cases hfx : fixedOf u 0 filt with
  | none =>
    obtain ⟨s, hs1, hs2, hs3⟩ := (fixedOf_none filt 0).mp hfx
    refine ⟨{ g1 with sort := none, cur := .none, mode := .rInit }, [], rfl, ?_, ?_⟩
    · intro hall
      exact absurd hs3 ((hknown s).mpr (hall s hs1 hs2))
    · intro _
      rw [hbody, hfx]
      simp only [Res.pure_eq, Res.bind_ok]
      rw [readDone_ok h3 h4]
      rfl
  | some fx =>
    obtain ⟨_, hlen⟩ := fixedOf_some filt 0 fx hfx
    obtain ⟨g'', ds, e1, e2, e3⟩ := filtLoop_yields (fx := fx) h5 (by rw [hlen]; exact hn) (by
      intro key
      rw [← hl]
      exact matchFixed_take hfx key) cont g1.fuel [] (Nat.lt_of_le_of_lt h5.len (left_lt_fuel g1))
    refine ⟨{ g'' with sort := none, cur := .none, mode := .rInit }, ds, rfl, ?_, ?_⟩
    · intro _
      constructor
      · rw [hbody, hfx]
        simp only
        rw [e1]
        simp only [Res.bind_ok, List.nil_append, Res.pure_eq]
        rw [readDone_ok (e3.mode.trans h3) (e3.nrMapped.trans h4)]
        rfl
      · have hfilt : (outs.filter fun o => matchFixed fx o.key) = outs.filter fun o => decide (Matches g1 filt o.key) := by
          refine List.filter_congr fun o _ => ?_
          rw [Bool.eq_iff_iff, matchFixed_iff hg hu hfx]
          simp
        rw [← hfilt]
        simpa using e2
    · rintro ⟨s, hs1, hs2, hs3⟩
      exfalso
      have hx : ¬ ∃ s ∈ filt, s ≠ [] ∧ u.indexOf s < 0 := by
        rw [← fixedOf_none filt 0, hfx]
        simp
      exact hs3 ((hknown s).mp fun hlt => hx ⟨s, hs1, hs2, hlt⟩)

/-- C36 for a symbol that holds the records `xs`: the callback gets these records -/
theorem C36_loaded (z : Cz) (hz : z.Good) (g : Gx) (m : Nat) (d : SymDesc) (xs : List RawEntry) (h : Loaded z g m d xs) (nr : Int)
    (ht : Targets g nr m) : ∃ g2 outs, Delivered g.rsv (acrOf g) d xs outs ∧ dataReadRawFast z g nr = .ok (g2, (true, outs.length, outs)) ∧
      g2.mode = .rInit ∧ RdSame g g2 := by
  obtain ⟨outs, h1, ⟨g1, g2, h2, h3, h4, h5⟩, _⟩ := h.reads hz ht
  exact ⟨g2, outs, h1, C36_fast z g g1 g2 nr _ outs h2 h3, h4, h5⟩

/-! ### examples -/

/-- a file with the set i = {a.a, a.b, b.b} -/
def exCbCalls : List Call :=
  [.openWrite false 0 [65] 0, .strStart [105] [] 2 0 0, .writeStr [[97], [97]] [0], .writeStr [[97], [98]] [0],
    .writeStr [[98], [98]] [0], .writeDone, .close]

def exCb {α : Type} (cs : List Call) (f : Gx → Res α) : Res α := after cs fun g => do
  let r ← openRead Cz.id Gx.new (.content g.file)
  f r.1

example : exCb exCbCalls (fun g => do let r ← dataReadRawFast Cz.id g 1; pure (r.2.2.2.map RecOut.key)) = .ok [[1, 1], [1, 2], [2, 2]] := by
  decide +kernel

/-- the callback stops after two records -/
example : exCb exCbCalls (fun g => do let r ← dataReadRawFastEx Cz.id g 1 (fun l => l.length < 2); pure (r.2.2.2.map RecOut.key)) =
    .ok [[1, 1], [1, 2]] := by decide +kernel

/-- the second position fixed at "B" -/
example : exCb exCbCalls (fun g => do let r ← dataReadRawFastFilt Cz.id g 1 [[], [66]] (fun _ => true); pure (r.2.1, r.2.2.map RecOut.key)) =
    .ok (true, [[1, 2], [2, 2]]) := by decide +kernel

/-- an unknown element -/
example : exCb exCbCalls (fun g => do let r ← dataReadRawFastFilt Cz.id g 1 [[], [67]] (fun _ => true); pure (r.2.1, r.2.2.map RecOut.key)) =
    .ok (false, []) := by decide +kernel

/-- a file with one record of a symbol with twenty positions -/
def exCb20 : List Call :=
  [.openWrite false 0 [65] 0, .strStart [105] [] 20 0 0, .writeStr (List.replicate 20 [97]) [0], .writeDone, .close]

/-- with all twenty positions fixed gdxDataReadRawFastFilt violates its assertion `FiltDim < GMS_MAX_INDEX_DIM`, although the
    record loop delivers the record; nineteen are no problem -/
theorem C36_filt_counterexample :
    exCb exCb20 (fun g => do let r ← dataReadRawFast Cz.id g 1; pure (r.2.2.2.map RecOut.key)) = .ok [List.replicate 20 1] ∧
      exCb exCb20 (fun g => do
        let r ← dataReadRawFastFilt Cz.id g 1 (List.replicate 20 [97]) (fun _ => true)
        pure (r.2.2.map RecOut.key)) = .ub ∧
      exCb exCb20 (fun g => do
        let r ← dataReadRawFastFilt Cz.id g 1 ([] :: List.replicate 19 [97]) (fun _ => true)
        pure (r.2.2.map RecOut.key)) = .ok [List.replicate 20 1] := by
  decide +kernel

#print axioms C36_fastEx
#print axioms C36_filt_partial

end Gdx.Props
