import Verif.Proofs.RawInv
import Verif.Props.RecordsGiven

/-!
C88 in raw mode.
-/

namespace Gdx.Props
open Gdx Gdx.Spec

/-- Every number of the key is in the set that was given as domain of its position, if there is one. -/
def InDomains (g : Gx) (key : List Int) : Prop :=
  ∀ (d t : Nat) (x : Int) (syms : List Sym) (s : Sym) (b : BitArr), g.wrBits[d]? = some (some t) → key[d]? = some x → g.names = some syms →
    syms[t - 1]? = some s → s.bitmap = some b → b.get x = true

theorem domBad_iff {syms : List Sym} : ∀ (ws : List (Option Nat)) (key : List Int) (bad : List Bool), domBad syms ws key = .ok bad →
    (bad.any id = false ↔ ∀ (d t : Nat) (x : Int) (s : Sym) (b : BitArr), ws[d]? = some (some t) → key[d]? = some x → syms[t - 1]? = some s →
      s.bitmap = some b → b.get x = true)
  | ws, [], bad, h => by
    have : bad = [] := by
      unfold domBad at h
      cases ws with
      | nil => cases h; rfl
      | cons w ws => cases w <;> (cases h; rfl)
    subst this
    simp
  | [], k :: ks, bad, h => by
    rw [domBad] at h
    obtain ⟨r, h1, h⟩ := Res.bind_eq_ok.mp h
    cases h
    have := domBad_iff [] ks r h1
    simpa using this
  | none :: ws, k :: ks, bad, h => by
    rw [domBad] at h
    obtain ⟨r, h1, h⟩ := Res.bind_eq_ok.mp h
    cases h
    have ih := domBad_iff ws ks r h1
    rw [List.any_cons, id, Bool.false_or, ih]
    constructor
    · intro hx d t x s b h2 h3
      cases d with
      | zero => cases h2
      | succ d => exact hx d t x s b (by simpa using h2) (by simpa using h3)
    · intro hx d t x s b h2 h3
      exact hx (d + 1) t x s b (by simpa using h2) (by simpa using h3)
  | some m :: ws, k :: ks, bad, h => by
    rw [domBad] at h
    obtain ⟨s0, h0, h⟩ := Res.bind_eq_ok.mp h
    obtain ⟨b0, hb, h⟩ := Res.bind_eq_ok.mp h
    obtain ⟨r, h1, h⟩ := Res.bind_eq_ok.mp h
    cases h
    have hb := need_ok hb
    have hs : syms[m - 1]? = some s0 := by
      have h2 := (at1_ok h0).2.2
      rwa [show ((m : Int) - 1).toNat = m - 1 by omega] at h2
    have ih := domBad_iff ws ks r h1
    rw [List.any_cons, id, Bool.or_eq_false_iff, ih]
    constructor
    · rintro ⟨hk, hx⟩ d t x s b h2 h3 h4 h5
      cases d with
      | zero =>
        have h2 : some m = some t := by simpa using h2
        have h3 : k = x := by simpa using h3
        cases h2
        subst h3
        rw [hs] at h4
        cases h4
        rw [hb] at h5
        cases h5
        simpa using hk
      | succ d => exact hx d t x s b (by simpa using h2) (by simpa using h3) h4 h5
    · intro hx
      refine ⟨by simpa using hx 0 m k s0 b0 rfl rfl hs hb, ?_⟩
      intro d t x s b h2 h3
      exact hx (d + 1) t x s b (by simpa using h2) (by simpa using h3)

theorem lastSeen_iff {dim : Nat} {l : List Int} {c : Nat} {o : Option (List Int)} (h : LastSeen dim l c o) (key : List Int) :
    (∀ k, o = some k → k < key) ↔ (c = 0 ∨ l < key) := by
  cases h with
  | init => simp
  | seen _ _ hc =>
    constructor
    · intro h
      exact Or.inr (h _ rfl)
    · rintro (h | h)
      · omega
      · rintro k ⟨⟩
        exact h

/-- After every history of calls in which the keys given to gdxDataWriteRaw had numbers from 0 to 2^31 - 257 only, that left the object in raw mode with
    a current symbol: gdxDataWriteRaw is defined for every key with as many numbers as the symbol has dimensions, all of them in that range and within
    the bounds given at the start. It is accepted exactly if its numbers are in the domains of the symbol and it comes after the last record. If the record is accepted, there is one more record and no error is noted; otherwise the number of records stays,
    and exactly one error is noted: outside of the domain, given before, or not in order. -/
theorem C88_raw_partial {e : Env} {z : Cz} (hz : z.Good) {g : Gx} {cs : List Call} (hw : ∀ c ∈ cs, c.WF) (ho : OpensOwn z cs)
    (hr : run e z Gx.new cs = .ok g) (hks : ∀ k v, Call.writeRaw k v ∈ cs → ∀ x ∈ k, 0 ≤ x ∧ x ≤ 2147483391)
    (hm : g.mode = .wRaw ∨ g.mode = .wDomRaw) (hc : g.cur ≠ .none) (hn : g.dataCount < 2147483647) {key : List Int} {vals : List Dbl}
    (hk : key.length = g.nd) (hk1 : ∀ x ∈ key, 0 ≤ x ∧ x ≤ 2147483391)
    (hk2 : ∀ (i : Nat) (b : Int × Int) (x : Int), g.bounds[i]? = some b → key[i]? = some x → b.1 ≤ x ∧ x ≤ b.2 ∧ x - b.1 ≤ 2147483647) (hv : vals.length = g.dataSize) :
    ∃ g' b, dataWriteRaw g key vals = .ok (g', b) ∧ g'.dataCount = g.dataCount + (if b then 1 else 0) ∧
      (b = true ↔ InDomains g key ∧ (g.nd = 0 ∨ g.dataCount = 0 ∨ g.last < key)) ∧ (b = true → g'.raised = g.raised) ∧
      (b = false → ∃ k, (k = Err.domainViolation ∨ k = Err.dataDuplicate ∨ k = Err.rawNotSorted) ∧ g'.raised = g.raised ++ [k]) := by
  have ha : After e z g := ⟨cs, hw, ho, hr⟩
  have f := ha.fine hz
  have hi : RawInv g := RawInv.run hz Fine.new hw ho (fun c hc => by
    cases c with
    | writeRaw k v => exact hks k v hc
    | _ => trivial) (.not (by rw [rawMode_fam]; decide)) hr
  rcases hi hm with h0 | ⟨m, d, rs, l, h1, h2, h3⟩
  · exact absurd h0.1 hc
  have hst : g.stat = .write := f.ph.stat (Or.inr (RawMode.writing hm))
  have hkf : KeyFits g.bounds key := by
    refine ⟨?_, hk1⟩
    rw [List.forall₂_iff_get]
    refine ⟨h1.blk.bl.trans hk.symm, fun i hi hj => ?_⟩
    have h4 := hk2 i _ _ (List.getElem?_eq_getElem hi) (List.getElem?_eq_getElem hj)
    refine ⟨h4.1, h4.2.1, ?_⟩
    constructor
    · have := h4.1
      simp only [List.get_eq_getElem]
      omega
    · have := h4.2.2
      simp only [List.get_eq_getElem]
      omega
  have hcnt : (rs.length : Int) < intMax := by
    rw [← h1.blk.cnt]
    exact hn
  obtain ⟨⟨g', b⟩, h5⟩ := h1.writeTotal hm hk hkf hv h3 (fun syms hs => h2.total hs key) (f.inv.head hst).tabs.acros hcnt
  obtain ⟨syms, bad, y2, y3, _, y4, y1, _⟩ := h1.writeRaw hm (fun x hx => (hk1 x hx).1) h5
  refine ⟨g', b, h5, ?_, ?_, ?_⟩
  · rw [y1.blk.cnt, h1.blk.cnt]
    cases b <;> simp
  · have h6 : (rs.length = 0) ↔ g.dataCount = 0 := by rw [h1.blk.cnt]; omega
    rw [y4, fate_put, domBad_iff _ _ _ y3, lastSeen_iff h1.blk.last, h6]
    refine and_congr_left fun _ => ⟨fun h d t x sy s b' e1 e2 e3 => ?_, fun h d t x s b' e1 e2 => h d t x syms s b' e1 e2 y2⟩
    rw [y2] at e3
    cases e3
    exact h d t x s b' e1 e2
  rw [dataWriteRaw_raw hm] at h5
  obtain ⟨_, _, _, syms, bad, _, _, hh⟩ := doWrite_cases h5
  rcases hh with ⟨_, rfl, rfl⟩ | ⟨_, o, _, ⟨_, rfl, rfl⟩ | ⟨_, rfl, rfl⟩ | ⟨bs, l, _, ha⟩⟩
  · refine ⟨fun h => (nomatch h), fun _ => ⟨_, Or.inl rfl, ?_⟩⟩
    obtain ⟨l, hl⟩ := addErrDom_same (Gx.raise { g with mode := .wRaw } Err.domainViolation)
      (List.zipWith (fun b k => if b then -k else k) bad key) vals
    rw [hl]
    rfl
  · refine ⟨fun h => (nomatch h), fun _ => ⟨_, Or.inr (Or.inl rfl), ?_⟩⟩
    obtain ⟨l, hl⟩ := addErr_same (Gx.raise { g with mode := .wRaw } Err.dataDuplicate) key vals
    rw [hl]
    rfl
  · refine ⟨fun h => (nomatch h), fun _ => ⟨_, Or.inr (Or.inr rfl), ?_⟩⟩
    obtain ⟨l, hl⟩ := addErr_same (Gx.raise { g with mode := .wRaw } Err.rawNotSorted) key vals
    rw [hl]
    rfl
  · obtain ⟨rfl, _, acros, acros', n, syms, s, s', e1, e2, e3, e4, e5, e6, rfl⟩ := acceptRec_cases ha
    exact ⟨fun _ => rfl, fun h => (nomatch h)⟩

/-- After a refused Start function no record is accepted in raw mode. -/
theorem C88_raw_refused {g : Gx} (hm : g.mode = .wRaw ∨ g.mode = .wDomRaw) (hc : g.cur = .none) (key : List Int) (vals : List Dbl) (g' : Gx) :
    dataWriteRaw g key vals ≠ .ok (g', true) := by
  intro h
  rw [dataWriteRaw_raw hm] at h
  obtain ⟨_, _, _, syms, bad, _, _, hh⟩ := doWrite_cases h
  rcases hh with ⟨_, hx, _⟩ | ⟨_, o, _, ⟨_, hx, _⟩ | ⟨_, hx, _⟩ | ⟨bs, l, _, ha⟩⟩
  · cases hx
  · cases hx
  · cases hx
  · obtain ⟨_, _, acros, acros', n, syms, s, s', e1, e2, e3, e4, e5, e6, _⟩ := acceptRec_cases ha
    have e3 : g.cur = .sym (n + 1) := e3
    rw [hc] at e3
    cases e3

def raw88 (cs : List Call) (key : List Int) : Option (Bool × Int × List Int) :=
  match run ⟨[]⟩ Cz.id Gx.new cs >>= fun g => dataWriteRaw g key [Dbl.zero] with
  | .ok (g, b) => some (b, g.dataCount, g.raised)
  | .ub => none

/-- The property is violated in raw mode too: after a Start function that is refused the next record is undefined. -/
theorem C88_raw_start :
    raw88 [.openWrite false 0 [65] 0, .rawStart [112] [] 1 1 0, .writeRaw [1] [Dbl.zero], .rawStart [113] [] 1 1 0] [2] = none := by
  decide +kernel

/-- a record in order, one given before, one out of order -/
example :
    raw88 [.openWrite false 0 [65] 0, .rawStart [112] [] 1 1 0, .writeRaw [3] [Dbl.zero], .addComment 1 [97]] [4] = some (true, 2, []) ∧
    raw88 [.openWrite false 0 [65] 0, .rawStart [112] [] 1 1 0, .writeRaw [3] [Dbl.zero]] [3] = some (false, 1, [Err.dataDuplicate]) ∧
    raw88 [.openWrite false 0 [65] 0, .rawStart [112] [] 1 1 0, .writeRaw [3] [Dbl.zero]] [2] = some (false, 1, [Err.rawNotSorted]) := by
  refine ⟨?_, ?_, ?_⟩ <;> decide +kernel

/-- a key within the domain of the symbol, and one outside of it -/
example :
    raw88 [.openWrite false 0 [65] 0, .rawStart [105] [] 1 0 0, .writeRaw [1] [Dbl.zero], .writeDone, .rawStart [112] [] 1 1 0, .setDomain [[105]]] [1] =
      some (true, 1, []) ∧
    raw88 [.openWrite false 0 [65] 0, .rawStart [105] [] 1 0 0, .writeRaw [1] [Dbl.zero], .writeDone, .rawStart [112] [] 1 1 0, .setDomain [[105]]] [2] =
      some (false, 0, [Err.domainViolation]) := by
  refine ⟨?_, ?_⟩ <;> decide +kernel

#print axioms C88_raw_partial
#print axioms C88_raw_refused
#print axioms C88_raw_start

end Gdx.Props
