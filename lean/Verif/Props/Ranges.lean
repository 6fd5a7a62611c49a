import Verif.Props.Elements
import Verif.Proofs.Own
import Verif.Proofs.UsrInv

/-!
C42: numbers outside the tables are refused.

The bounds are what the counting functions of the API report: gdxSystemInfo (symbols, elements), gdxUMUelInfo (highest user
number), gdxAcronymCount, gdxDataErrorCount. The theorems about refused numbers hold in every state; those about accepted
numbers in every state with the invariants that hold over all histories.
-/

namespace Gdx.Props

open Gdx

/-! ### symbols -/

theorem symAt_out {g : Gx} {n : Int} (h : n < 1 ∨ (systemInfo g).1 < n) : g.symAt n = none := by
  unfold systemInfo at h
  unfold Gx.symAt
  cases hl : g.names with
  | none => rfl
  | some l =>
    rw [hl] at h
    simp only [Option.map_some, Option.getD_some] at h
    simp only
    rw [if_neg (by omega)]

theorem symAt_in {g : Gx} {n : Int} (h1 : 1 ≤ n) (h2 : n ≤ (systemInfo g).1) :
    ∃ l s, g.names = some l ∧ l[(n - 1).toNat]? = some s ∧ g.symAt n = some s := by
  unfold systemInfo at h2
  unfold Gx.symAt
  cases hl : g.names with
  | none =>
    rw [hl] at h2
    simp only [Option.map_none, Option.getD_none] at h2
    omega
  | some l =>
    rw [hl] at h2
    simp only [Option.map_some, Option.getD_some] at h2
    have : (n - 1).toNat < l.length := by omega
    refine ⟨l, l[(n - 1).toNat], rfl, List.getElem?_eq_getElem this, ?_⟩
    simp only
    rw [if_pos ⟨h1, h2⟩, List.getElem?_eq_getElem this]

/-- C42 for symbols: a number below zero or above the count makes the queries fail with the documented outputs -/
theorem C42_symbols (g : Gx) (n : Int) (h : n < 0 ∨ (systemInfo g).1 < n) :
    symbolInfo g n = ⟨false, [], -1, dtSet⟩ ∧ symbolDim g n = -1 ∧ symbolInfoX g n = ⟨false, 0, 0, []⟩ ∧
      setHasText g n = false ∧ ∀ k, symbolGetComment g n k = .ok (false, []) := by
  have hz : 0 ≤ (systemInfo g).1 := by
    unfold systemInfo
    cases g.names with
    | none => exact le_refl _
    | some l => simp
  have hn : n ≠ 0 := by omega
  have hs : g.symAt n = none := symAt_out (by omega)
  refine ⟨?_, ?_, ?_, ?_, ?_⟩
  · unfold symbolInfo; rw [if_neg hn, hs]
  · unfold symbolDim; rw [if_neg hn, hs]
  · unfold symbolInfoX; rw [if_neg hn, hs]
  · unfold setHasText; rw [hs]
  · intro k; unfold symbolGetComment; rw [hs]

/-- C42 for symbols: all other numbers are answered (0 is the universe) -/
theorem C42_symbols_in (g : Gx) (n : Int) (h0 : 0 ≤ n) (h1 : n ≤ (systemInfo g).1) :
    (symbolInfo g n).ok = true ∧ symbolDim g n = (symbolInfo g n).dim ∧ (symbolInfoX g n).ok = true := by
  by_cases hn : n = 0
  · subst hn
    exact ⟨rfl, rfl, rfl⟩
  · obtain ⟨l, s, _, _, hs⟩ := symAt_in (g := g) (n := n) (by omega) h1
    unfold symbolInfo symbolDim symbolInfoX
    rw [if_neg hn, if_neg hn, if_neg hn, hs]
    exact ⟨rfl, rfl, rfl⟩

/-- C42 for the domain queries of an open file: a number that is not of a symbol (0 included) gives the documented failure
    and the error ERR_BADSYMBOLINDEX, nothing else changes -/
theorem C42_domains (g : Gx) (n : Int) (hg : g.names ≠ none) (h : n < 1 ∨ (systemInfo g).1 < n) :
    symbolGetDomain g n = .ok (g.raise Err.badSymbolIndex, none) ∧
      symbolGetDomainX g n = .ok (g.raise Err.badSymbolIndex, (0, [])) := by
  have hs := symAt_out h
  cases hl : g.names with
  | none => exact absurd hl hg
  | some l =>
    unfold symbolGetDomain symbolGetDomainX need
    rw [hl]
    simp only [Res.bind_ok]
    rw [hs]
    exact ⟨rfl, rfl⟩

theorem namesAt_ok {l : List Str} (hl : ∀ s ∈ l, s.length < ssSize) : ∀ (ns : List Int), (∀ d ∈ ns, 0 ≤ d ∧ d ≤ l.length) →
    ∃ r, namesAt l ns = .ok r ∧ r.length = ns.length
  | [], _ => ⟨[], rfl, rfl⟩
  | n :: ns, h => by
    obtain ⟨r, hr, hlen⟩ := namesAt_ok hl ns fun d hd => h d (List.mem_cons_of_mem _ hd)
    have hn := h n List.mem_cons_self
    unfold namesAt
    by_cases h0 : n = 0
    · rw [if_pos h0, hr]
      exact ⟨_, rfl, by simp [hlen]⟩
    · rw [if_neg h0]
      obtain ⟨s, hs⟩ := at1_total (l := l) (n := n) (by omega) hn.2
      have hm : s ∈ l := List.mem_of_getElem? (at1_ok hs).2.2
      rw [hs]
      simp only [Res.bind_ok]
      rw [fits_of (hl s hm), hr]
      exact ⟨_, rfl, by simp [hlen]⟩

theorem isGoodIdent_len {s : Str} (h : isGoodIdent s = true) : s.length < ssSize :=
  Nat.lt_trans (isGoodIdent_zfree h).2 (by decide)

/-- C42 for the domain queries: a number of a symbol is answered with as many entries as the symbol has dimensions, without
    an access outside a table -/
theorem C42_domains_in (g : Gx) (hi : Inv g) (n : Int) (h1 : 1 ≤ n) (h2 : n ≤ (systemInfo g).1) (hd : g.domStrs ≠ none) :
    (∃ ds, symbolGetDomain g n = .ok (g, some ds) ∧ ds.length = (symbolDim g n).toNat ∧ ∀ d ∈ ds, 0 ≤ d ∧ d ≤ (systemInfo g).1) ∧
      ∃ k r, symbolGetDomainX g n = .ok (g, (k, r)) ∧ 1 ≤ k ∧ k ≤ 3 ∧ r.length = (symbolDim g n).toNat := by
  obtain ⟨l, s, hl, hx, hs⟩ := symAt_in h1 h2
  have hok := (hi.tab.syms l hl).each _ s hx
  have hdim : symbolDim g n = s.dim := by
    unfold symbolDim
    rw [if_neg (by omega), hs]
  have hcnt : (systemInfo g).1 = l.length := by
    unfold systemInfo
    rw [hl]
    rfl
  rw [hdim, hcnt]
  constructor
  · unfold symbolGetDomain need
    rw [hl]
    simp only [Res.bind_ok]
    rw [hs]
    refine ⟨_, rfl, ?_⟩
    cases hsy : s.domSyms with
    | none =>
      simp only [Option.getD_none, List.length_replicate, true_and]
      intro d hd
      have := List.eq_of_mem_replicate hd
      omega
    | some ds => exact hok.dsy ds hsy
  · unfold symbolGetDomainX need
    rw [hl]
    simp only [Res.bind_ok]
    rw [hs]
    simp only
    cases hst : s.domStrs with
    | some ds =>
      cases hdl : g.domStrs with
      | none => exact absurd hdl hd
      | some dl =>
        obtain ⟨h3, h4⟩ := hok.dst ds hst
        obtain ⟨r, hr, hlen⟩ := namesAt_ok (l := dl) (fun x hx => isGoodIdent_len (hi.dom dl hdl x hx)) ds (by
          unfold Gx.nDom at h4
          rw [hdl] at h4
          exact h4)
        simp only [Res.bind_ok]
        rw [hr]
        exact ⟨2, r, rfl, by omega, by omega, by omega⟩
    | none =>
      cases hsy : s.domSyms with
      | none => exact ⟨1, _, rfl, by omega, by omega, by simp⟩
      | some ds =>
        obtain ⟨h3, h4⟩ := hok.dsy ds hsy
        obtain ⟨r, hr, hlen⟩ := namesAt_ok (l := l.map Sym.name) (by
          intro x hx
          obtain ⟨t, ht, rfl⟩ := List.mem_map.mp hx
          obtain ⟨m, hm⟩ := List.getElem?_of_mem ht
          exact isGoodIdent_len ((hi.tab.syms l hl).each m t hm).good) ds (by simpa using h4)
        simp only
        rw [hr]
        exact ⟨3, r, rfl, by omega, by omega, by omega⟩

/-- C42 for comments: only the numbers 1 .. number of comments are answered -/
theorem C42_comments (g : Gx) (n k : Int) (s : Sym) (hs : g.symAt n = some s) (hk : k < 1 ∨ s.comments.length < k) :
    symbolGetComment g n k = .ok (false, []) := by
  unfold symbolGetComment
  rw [hs]
  simp only
  rw [if_neg (by omega)]

/-! ### elements and texts -/

/-- C42 for elements: a number outside 1 .. count gives failure and the text `?L__` with the number -/
theorem C42_elements (g : Gx) (n : Int) (h : n < 1 ∨ (systemInfo g).2 < n) :
    umUelGet g n = .ok (false, badUelPrefix ++ intToStr n, -1) := by
  unfold systemInfo at h
  unfold umUelGet
  cases hu : g.uel with
  | none => rfl
  | some u =>
    rw [hu] at h
    simp only [Option.map_some, Option.getD_some] at h
    simp only
    rw [if_neg (by omega)]

/-- C42 for user numbers: no number leads outside the table, a negative one is refused -/
theorem C42_user (g : Gx) (hg : GoodElems g) (hu : UsrRange g) (k : Int) :
    ∃ b s, getUEL g k = .ok (b, s) ∧ (k < 0 → b = false) ∧ (b = false → g.uel ≠ none → s = badUelPrefix ++ intToStr k) := by
  unfold getUEL
  cases hu' : g.uel with
  | none => exact ⟨_, _, rfl, fun _ => rfl, fun _ h => absurd rfl h⟩
  | some u =>
    simp only
    rcases hu u hu' k with h | ⟨h1, h2⟩
    · rw [if_neg (by omega)]
      exact ⟨_, _, rfl, fun _ => rfl, fun _ _ => rfl⟩
    · rw [if_pos (by omega)]
      obtain ⟨x, hx⟩ := at1_total (l := u.ents) h1 h2
      have hm : x.1 ∈ u.strs := List.mem_map.mpr ⟨x, List.mem_of_getElem? (at1_ok hx).2.2, rfl⟩
      unfold Uel.str
      rw [hx]
      simp only [Res.bind_ok, Res.pure_eq]
      rw [fits_of (goodUEL_length ((hg u hu').good _ hm).1)]
      refine ⟨true, x.1, rfl, ?_, fun h => by cases h⟩
      intro hk
      rw [IntMap.get_neg _ _ hk] at h1
      omega

/-- C42 for user numbers: above the highest user number there is none -/
theorem C42_user_high (g : Gx) (hu : UsrCons g) (k hi n : Int) (h : umUelInfo g = .ok (true, n, hi)) (hk : hi < k) :
    getUEL g k = .ok (false, badUelPrefix ++ intToStr k) := by
  unfold umUelInfo at h
  split at h
  · cases h
  · cases hu' : g.uel with
    | none => rw [hu'] at h; cases h
    | some u =>
      rw [hu'] at h
      cases h
      unfold getUEL
      rw [hu']
      simp only
      by_cases hm : u.usr.get k = -1
      · rw [if_neg (by omega)]
      · have := (hu u hu').hi k hm
        omega

/-- C42 for set texts: a number outside 0 .. count-1 gives failure and, with a file open, the text `?Str__` with the number -/
theorem C42_texts (g : Gx) (n : Int) (l : List (Str × Int)) (hl : g.texts = some l) :
    (n < 0 ∨ (l.length : Int) ≤ n → getElemText g n = (false, badStrPrefix ++ intToStr n, 0)) ∧
      (0 ≤ n ∧ n < l.length → ∃ s nd, getElemText g n = (true, s, nd)) := by
  unfold getElemText
  rw [hl]
  simp only
  constructor
  · rintro (h | h)
    · rw [if_neg (by omega)]
    · by_cases h0 : 0 ≤ n
      · rw [if_pos h0, List.getElem?_eq_none (by omega)]
      · rw [if_neg h0]
  · rintro ⟨h1, h2⟩
    have : n.toNat < l.length := by omega
    rw [if_pos h1, List.getElem?_eq_getElem this]
    exact ⟨_, _, rfl⟩

/-! ### acronyms and error records -/

/-- C42 for gdxAcronymGetInfo on an open file: a number outside 1 .. gdxAcronymCount is refused -/
theorem C42_acronyms (g : Gx) (n : Int) (hg : g.acros ≠ none) (h : n < 1 ∨ acronymCount g < n) : acronymGetInfo g n = .ok none := by
  unfold acronymCount at h
  cases hl : g.acros with
  | none => exact absurd hl hg
  | some l =>
    rw [hl] at h
    simp only [Option.map_some, Option.getD_some] at h
    unfold acronymGetInfo need
    rw [hl]
    simp only [Res.bind_ok]
    rw [if_pos (by omega)]
    rfl

/-- C42 for the error records: a number outside 1 .. gdxDataErrorCount gives nothing; when there are error records and the mode
    is right it raises ERR_BADERRORRECORD -/
theorem C42_errors (g : Gx) (n : Int) (h : n < 1 ∨ dataErrorCount g < n) :
    (dataErrorRecordX g n).2 = none ∧ (dataErrorRecord g n).2 = none ∧
      (g.errList ≠ none → g.mode ∈ [.rInit, .wInit, .rMap, .rMapR, .wRaw, .wMap, .wStr] →
        (dataErrorRecordX g n).1 = g.raise Err.badErrorRecord) := by
  unfold dataErrorCount at h
  have key : (dataErrorRecordX g n).2 = none ∧
      (g.errList ≠ none → g.mode ∈ [.rInit, .wInit, .rMap, .rMapR, .wRaw, .wMap, .wStr] →
        (dataErrorRecordX g n).1 = g.raise Err.badErrorRecord) := by
    unfold dataErrorRecordX Gx.chk
    by_cases hm : g.mode ∈ [Mode.rInit, .wInit, .rMap, .rMapR, .wRaw, .wMap, .wStr]
    · rw [if_pos hm]
      simp only [Bool.true_eq_false, if_false]
      cases hl : g.errList with
      | none => exact ⟨rfl, fun h => absurd rfl h⟩
      | some l =>
        rw [hl] at h
        simp only [Option.map_some, Option.getD_some] at h
        simp only
        rw [if_neg (by omega)]
        exact ⟨rfl, fun _ _ => rfl⟩
    · rw [if_neg hm]
      exact ⟨rfl, fun _ h => absurd h hm⟩
  refine ⟨key.1, ?_, key.2⟩
  unfold dataErrorRecord
  simp only
  rw [key.1]
  rfl

/-- C42 for the error records: the others are given when the mode is right -/
theorem C42_errors_in (g : Gx) (n : Int) (h1 : 1 ≤ n) (h2 : n ≤ dataErrorCount g)
    (hm : g.mode ∈ [.rInit, .wInit, .rMap, .rMapR, .wRaw, .wMap, .wStr]) :
    ∃ r, dataErrorRecordX g n = (g, some r) := by
  unfold dataErrorCount at h2
  unfold dataErrorRecordX Gx.chk
  rw [if_pos hm]
  simp only [Bool.true_eq_false, if_false]
  cases hl : g.errList with
  | none =>
    rw [hl] at h2
    simp only [Option.map_none, Option.getD_none] at h2
    omega
  | some l =>
    rw [hl] at h2
    simp only [Option.map_some, Option.getD_some] at h2
    have : (n - 1).toNat < l.length := by omega
    simp only
    rw [if_pos ⟨h1, h2⟩, List.getElem?_eq_getElem this]
    exact ⟨_, rfl⟩

/-! ### over all histories -/

/-- C42 over all histories (files opened for reading or appending are files that this library wrote): a symbol, element or user
    number, in or out of range, never leads outside the tables, and the answer says which numbers are legal. Missing for the
    full claim: gdxAcronymSetInfo and gdxAcronymGetMapping have no effective range check (`C42_acronym_counterexample`), the
    domain queries and the acronym queries use a null table when nothing is open (`C42_closed_counterexample`), an acronym name
    of 64 bytes does not fit the buffer of gdxAcronymGetInfo (`C42_acronym_name_counterexample`), the callback readers do not
    check the symbol number (`C42_reader_counterexample`). -/
theorem C42_partial (e : Env) (z : Cz) (hz : z.Good) (cs : List Call) (g : Gx) (hc : ∀ c ∈ cs, c.WF) (ho : OpensOwn z cs)
    (h : run e z Gx.new cs = .ok g) (n : Int) :
    ((symbolInfo g n).ok = true ↔ 0 ≤ n ∧ n ≤ (systemInfo g).1) ∧
      (∃ b s m, umUelGet g n = .ok (b, s, m) ∧ (b = true ↔ 1 ≤ n ∧ n ≤ (systemInfo g).2)) ∧
      (∃ b s, getUEL g n = .ok (b, s)) ∧
      (g.names ≠ none → g.domStrs ≠ none → ∃ r x, symbolGetDomain g n = .ok r ∧ symbolGetDomainX g n = .ok x ∧
        (r.2 ≠ none ↔ 1 ≤ n ∧ n ≤ (systemInfo g).1) ∧ (x.2.1 ≠ 0 ↔ 1 ≤ n ∧ n ≤ (systemInfo g).1)) := by
  have hi := ((Inv.run e z cs Gx.new hc aft_new Inv.new (opensOk_own hz e cs Gx.new hc aft_new Inv.new ho)).of_ok h).2
  have hu := ((UsrRange.run e z cs Gx.new hc aft_new UsrRange.new).of_ok h)
  refine ⟨⟨fun hb => ?_, fun hn => (C42_symbols_in g n hn.1 hn.2).1⟩, C11_numbers g hi.els n, ?_, ?_⟩
  · by_contra hcon
    rw [(C42_symbols g n (by omega)).1] at hb
    cases hb
  · obtain ⟨b, s, hx, _⟩ := C42_user g hi.els hu n
    exact ⟨b, s, hx⟩
  · intro h1 h2
    by_cases hn : 1 ≤ n ∧ n ≤ (systemInfo g).1
    · obtain ⟨⟨ds, q1, _⟩, k, r, q2, q3, _⟩ := C42_domains_in g hi n hn.1 hn.2 h2
      refine ⟨_, _, q1, q2, ?_, ?_⟩
      · simp [hn]
      · simp only [ne_eq]
        constructor
        · intro _; exact hn
        · intro _ hk; omega
    · obtain ⟨q1, q2⟩ := C42_domains g n h1 (by omega)
      exact ⟨_, _, q1, q2, by simp [hn], by simp [hn]⟩

/-! ### where the code goes outside a table -/

/-- one acronym -/
def exAcrCalls : List Call := [.openWrite false 0 [65] 0, .acronymAdd [97] [] 5]

/-- the checks `N >= 1 || N <= size` accept every number: gdxAcronymSetInfo and gdxAcronymGetMapping with number 0 or 2 of a
    table with one entry use memory outside the table -/
theorem C42_acronym_counterexample :
    after exAcrCalls (fun g => .ok (acronymCount g)) = .ok 1 ∧
      after exAcrCalls (fun g => acronymGetMapping g 0) = .ub ∧ after exAcrCalls (fun g => acronymGetMapping g 2) = .ub ∧
      after exAcrCalls (fun g => acronymSetInfo g 0 [98] [] 5) = .ub ∧
      after exAcrCalls (fun g => acronymSetInfo g 2 [98] [] 5) = .ub := by
  decide +kernel

/-- in general: every number outside 1 .. gdxAcronymCount -/
theorem C42_acronym_unchecked (g : Gx) (n : Int) (h : n < 1 ∨ acronymCount g < n) :
    acronymGetMapping g n = .ub ∧ ∀ s t i, acronymSetInfo g n s t i = .ub := by
  unfold acronymCount at h
  unfold acronymGetMapping acronymSetInfo
  cases hl : g.acros with
  | none => exact ⟨rfl, fun _ _ _ => rfl⟩
  | some l =>
    rw [hl] at h
    simp only [Option.map_some, Option.getD_some] at h
    have : at1 l n = .ub := by
      unfold at1
      split
      · rename_i hn
        rw [List.getElem?_eq_none (by omega)]
      · rfl
    simp only [need, Res.bind_ok, this, Res.bind_ub]
    exact ⟨trivial, fun _ _ _ => trivial⟩

/-- with no file open the domain queries and gdxAcronymGetInfo use a null pointer -/
theorem C42_closed_counterexample (n : Int) :
    symbolGetDomain Gx.new n = .ub ∧ symbolGetDomainX Gx.new n = .ub ∧ acronymGetInfo Gx.new n = .ub ∧
      acronymGetMapping Gx.new n = .ub := ⟨rfl, rfl, rfl, rfl⟩

/-- gdxAcronymAdd accepts a name of 64 bytes, which gdxAcronymGetInfo copies into a buffer of 64 bytes -/
theorem C42_acronym_name_counterexample :
    after [.openWrite false 0 [65] 0, .acronymAdd (List.replicate 64 97) [] 5] (fun g => .ok (acronymCount g)) = .ok 1 ∧
      after [.openWrite false 0 [65] 0, .acronymAdd (List.replicate 64 97) [] 5] (fun g => acronymGetInfo g 1) = .ub := by
  decide +kernel

/-- a file with one symbol, opened for reading -/
def exRangeCalls : List Call :=
  [.openWrite false 0 [65] 0, .strStart [105] [] 1 0 0, .writeStr [[97]] [0], .writeDone, .addComment 1 [99], .close]

def reading {α : Type} (f : Gx → Res α) : Res α := after exRangeCalls fun g => do
  let r ← openRead Cz.id Gx.new (.content g.file)
  f r.1

/-- gdxDataReadRawFast, gdxDataReadRawFastEx and gdxDataReadSliceStart do not look at the result of the preparation: with a
    symbol number that does not exist they use a null pointer; gdxDataReadRawStart and gdxDataReadRawFastFilt refuse it -/
theorem C42_reader_counterexample :
    reading (fun g => do let r ← dataReadRawFast Cz.id g 7; pure r.2.1) = .ub ∧
      reading (fun g => do let r ← dataReadRawFastEx Cz.id g 7 (fun _ => true); pure r.2.1) = .ub ∧
      reading (fun g => do let r ← dataReadSliceStart Cz.id g 7; pure r.2) = .ub ∧
      reading (fun g => do let r ← dataReadRawStart Cz.id g 7; pure r.2.1) = .ok false ∧
      reading (fun g => do let r ← dataReadRawFastFilt Cz.id g 7 [] (fun _ => true); pure r.2.1) = .ok false := by
  decide +kernel

example : reading (fun g => .ok ([symbolInfo g (-1), symbolInfo g 0, symbolInfo g 1, symbolInfo g 2].map fun i => (i.ok, i.dim))) =
    .ok [(false, -1), (true, 1), (true, 1), (false, -1)] := by decide +kernel

example : reading (fun g => do
    let a ← umUelGet g 0
    let b ← umUelGet g 1
    let c ← umUelGet g 2
    let d ← symbolGetComment g 1 1
    let e ← symbolGetComment g 1 2
    let x ← symbolGetDomainX g 1
    let y ← symbolGetDomainX g 2
    pure ([a.1, b.1, c.1, d.1, e.1], [a.2.1, b.2.1, c.2.1], [x.2.1, y.2.1])) =
    .ok ([false, true, false, true, false], [[63, 76, 95, 95, 48], [97], [63, 76, 95, 95, 50]], [1, 0]) := by decide +kernel

#print axioms C42_partial
#print axioms C42_errors

end Gdx.Props
