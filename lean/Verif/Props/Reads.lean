import Verif.Proofs.Fine
import Verif.Proofs.ModeFree
import Verif.Spec.Reading
import Verif.Props.Values
import Verif.Props.AcronymValue

/-!
Reading a symbol whose records are known, with the raw and the string reader: C24, C37, C43, C49, C50, C54.
-/

namespace Gdx.Props

open Gdx Spec

/-! ### what must be delivered -/

/-- A record `o` delivered by a reader is the record `x` that was written. -/
structure SameRec (r : SVTab) (acr : Dbl → Dbl) (x : RawEntry) (o : RecOut Int) : Prop where
  key : o.key = x.key
  vals : List.Forall₂ (ReadsAs x.sv r acr) x.vals o.vals

/-- keys and first changed positions -/
abbrev keysOf (outs : List (RecOut Int)) : List (List Int × Nat) := outs.map fun o => (o.key, o.frst)

/-- What the readers must deliver for a symbol of which the records `xs` were accepted. -/
structure AsWritten (r : SVTab) (acr : Dbl → Dbl) (dim : Int) (xs : List RawEntry) (outs : List (RecOut Int)) : Prop where
  recs : List.Forall₂ (SameRec r acr) xs outs
  frst : FirstsOk dim.toNat (keysOf outs)
  sorted : dim ≠ 0 → (outs.map RecOut.key).Pairwise (· < ·)
  len : ∀ o ∈ outs, o.key.length = dim.toNat

/-- The records delivered for a symbol: a scalar for which no record was written has its default record. -/
def Delivered (r : SVTab) (acr : Dbl → Dbl) (d : SymDesc) (xs : List RawEntry) (outs : List (RecOut Int)) : Prop :=
  if d.dim = 0 ∧ xs = [] then outs = [⟨[], defaults r d.typ d.ui, 0⟩] else AsWritten r acr d.dim xs outs

/-! ### first changed positions -/

theorem findIdx_first (p k : List Int) (hl : p.length = k.length) (hne : p ≠ k) : FirstDiff p k (firstChange p k) := by
  unfold firstChange FirstDiff
  induction p generalizing k with
  | nil =>
    cases k with
    | nil => exact absurd rfl hne
    | cons => cases hl
  | cons a p ih =>
    cases k with
    | nil => cases hl
    | cons b k =>
      by_cases hab : a = b
      · subst hab
        have h1 : p ≠ k := fun h => hne (by rw [h])
        obtain ⟨_, h3, h4⟩ := ih k (by simpa using hl) h1
        have hx : (List.zipWith (fun a b => decide (a ≠ b)) (a :: p) (a :: k)).findIdx id =
            (List.zipWith (fun a b => decide (a ≠ b)) p k).findIdx id + 1 := by
          rw [List.zipWith_cons_cons, List.findIdx_cons]
          simp
        rw [hx]
        generalize (List.zipWith (fun a b => decide (a ≠ b)) p k).findIdx id = n at *
        refine ⟨by omega, by simpa using h3, ?_⟩
        intro j h5 h6
        cases j with
        | zero => omega
        | succ j =>
          cases j with
          | zero => rfl
          | succ j => simpa using h4 (j + 1) (by omega) (by omega)
      · have hx : (List.zipWith (fun a b => decide (a ≠ b)) (a :: p) (b :: k)).findIdx id = 0 := by
          rw [List.zipWith_cons_cons, List.findIdx_cons]
          simp [hab]
        rw [hx]
        exact ⟨le_refl _, ⟨a, b, rfl, rfl, hab⟩, fun j _ _ => by omega⟩

theorem FirstDiff.unique {p k : List Int} {i j : Nat} (h1 : FirstDiff p k i) (h2 : FirstDiff p k j) : i = j := by
  obtain ⟨a1, ⟨x, y, a2, a3, a4⟩, a5⟩ := h1
  obtain ⟨b1, ⟨u, v, b2, b3, b4⟩, b5⟩ := h2
  rcases Nat.lt_trichotomy i j with h | h | h
  · have := b5 i a1 h
    rw [a2, a3] at this
    cases this
    exact absurd rfl a4
  · exact h
  · have := a5 j b1 h
    rw [b2, b3] at this
    cases this
    exact absurd rfl b4

theorem rawOuts_keys (l : Loads) (d : Nat) (p : Option (List Int)) (rs : List Rec) : (rawOuts l d p rs).map RecOut.key = rs.map Rec.key := by
  induction rs generalizing p with
  | nil => rfl
  | cons r rs ih => simp [rawOuts, ih]

theorem rawOuts_firsts (l : Loads) {d : Nat} : ∀ (rs : List Rec) (p : Option (List Int)), (∀ r ∈ rs, r.key.length = d) →
    (d ≠ 0 → (rs.map Rec.key).Pairwise (· < ·)) → (∀ q, p = some q → q.length = d ∧ (d ≠ 0 → ∀ r ∈ rs, q < r.key)) →
    ∀ i k f, (keysOf (rawOuts l d p rs))[i]? = some (k, f) →
    if d = 0 then f = 0
    else match i, p with
      | 0, none => f = 1
      | 0, some q => FirstDiff q k f
      | j + 1, _ => ∃ q, (keysOf (rawOuts l d p rs))[j]? = some q ∧ FirstDiff q.1 k f
  | [], p, _, _, _, i, k, f, hi => by simp [rawOuts] at hi
  | r :: rs, p, hlen, hs, hp, i, k, f, hi => by
    by_cases hd : d = 0
    · rw [if_pos hd]
      have : ∀ (rs : List Rec) (p : Option (List Int)), ∀ o ∈ rawOuts l d p rs, o.frst = 0 := by
        intro rs
        induction rs with
        | nil => intro p o ho; cases ho
        | cons r rs ih =>
          intro p o ho
          rcases List.mem_cons.mp ho with rfl | ho
          · show dimFrst d p r.key = 0
            unfold dimFrst
            cases p <;> simp [hd]
          · exact ih _ o ho
      obtain ⟨o, ho, he⟩ := List.mem_map.mp (List.mem_of_getElem? hi)
      cases he
      exact this _ _ o ho
    · rw [if_neg hd]
      have hr := hlen r (by simp)
      cases i with
      | zero =>
        have he : (r.key, dimFrst d p r.key) = (k, f) := by simpa [rawOuts] using hi
        cases he
        cases p with
        | none => exact if_neg hd
        | some q =>
          obtain ⟨h1, h2⟩ := hp q rfl
          show FirstDiff q r.key (dimFrst d (some q) r.key)
          rw [show dimFrst d (some q) r.key = firstChange q r.key from if_neg hd]
          exact findIdx_first q r.key (h1.trans hr.symm) (fun he => absurd (h2 hd r (by simp)) (by rw [he]; exact List.lt_irrefl _))
      | succ j =>
        have hs1 := hs hd
        rw [List.map_cons, List.pairwise_cons] at hs1
        have h0 := rawOuts_firsts l rs (some r.key) (fun x hx => hlen x (by simp [hx])) (fun _ => hs1.2)
          (fun q hq => by cases hq; exact ⟨hr, fun _ x hx => hs1.1 _ (List.mem_map_of_mem hx)⟩) j k f (by simpa [rawOuts] using hi)
        rw [if_neg hd] at h0
        cases j with
        | zero => exact ⟨_, rfl, h0⟩
        | succ j =>
          obtain ⟨q, h1, h2⟩ := h0
          exact ⟨q, by simpa [rawOuts] using h1, h2⟩

/-! ### records -/

theorem rawOuts_same {l : Loads} {d : Nat} : ∀ (p : Option (List Int)) (xs : List RawEntry), (∀ x ∈ xs, Spec.Distinct x.sv) →
    List.Forall₂ (SameRec l.rsv l.remap) xs (rawOuts l d p (xs.map fun x => stored x.sv x.key x.vals))
  | _, [], _ => .nil
  | p, x :: xs, h => by
    refine .cons ⟨rfl, ?_⟩ (rawOuts_same (some x.key) xs fun y hy => h y (by simp [hy]))
    show List.Forall₂ _ x.vals ((x.vals.map (storeVal x.sv)).map l.val)
    rw [List.map_map]
    have hd := h x (by simp)
    generalize x.vals = vs
    induction vs with
    | nil => exact .nil
    | cons v vs ih => exact .cons (C04_all _ _ hd _ v) ih

theorem default_values (r : SVTab) (s : Sym) : defaultRecord r s = defaults r s.typ s.userInfo := by
  unfold defaultRecord defaults
  by_cases h2 : s.typ = dtVar
  · rw [if_pos h2, h2]
    simp only [dtVar]
    unfold defVar boundsOf
    by_cases hn : 0 ≤ s.userInfo
    · rw [if_pos hn]
      obtain ⟨n, hn⟩ := Int.eq_ofNat_of_zero_le hn
      rw [hn]
      by_cases hb : n < 10
      · interval_cases n <;> rfl
      · rw [List.getElem?_eq_none (by simp [varBounds]; omega)]
        have : ∀ k : Nat, k < 10 → ¬ ((n : Int) = k) := fun k hk h => by omega
        have h1 := this 1; have h2 := this 2; have h3 := this 3; have h4 := this 4; have h5 := this 5; have h6 := this 6
        have h7 := this 7; have h8 := this 8; have h9 := this 9
        simp only [Nat.cast_ofNat, Nat.cast_one] at h1 h2 h3 h4 h5 h6 h7 h8 h9
        rw [if_neg (h1 (by omega)), if_neg (by omega), if_neg (by omega), if_neg (by omega), if_neg (by omega)]
        rfl
    · rw [if_neg hn, if_neg (by omega), if_neg (by omega), if_neg (by omega), if_neg (by omega), if_neg (by omega)]
      rfl
  · rw [if_neg h2]
    by_cases h3 : s.typ = dtEqu
    · rw [if_pos h3, h3]
      simp only [dtEqu]
      unfold defEqu boundsOf
      by_cases hn : 0 ≤ s.userInfo - 53
      · rw [if_pos hn]
        obtain ⟨n, hn⟩ := Int.eq_ofNat_of_zero_le hn
        have hu : s.userInfo = 53 + n := by omega
        rw [hn, hu]
        by_cases hb : n < 7
        · interval_cases n <;> rfl
        · rw [List.getElem?_eq_none (by simp [equBounds]; omega)]
          rw [if_neg (by omega), if_neg (by omega), if_neg (by omega)]
          rfl
      · rw [if_neg hn, if_neg (by omega), if_neg (by omega), if_neg (by omega)]
        rfl
    · rw [if_neg h3]
      split
      · exact absurd (by assumption) h2
      · exact absurd (by assumption) h3
      · rfl

/-! ### a symbol with known records -/

/-- A file is open for reading in `g`; its symbol number `m + 1` is described by `d` and holds exactly the records `xs`. -/
structure Loaded (z : Cz) (g : Gx) (m : Nat) (d : SymDesc) (xs : List RawEntry) : Prop where
  mode : g.mode = .rInit
  sv : ∀ x ∈ xs, Spec.Distinct x.sv
  data : ∃ s, d.Of s ∧ SymLog s (xs.map fun x => (x.key, x.vals)) ∧ HasData z g m s (xs.map fun x => stored x.sv x.key x.vals)
  els : ∃ u, g.uel = some u ∧ ∀ x ∈ u.ents, x.1.length < 64

theorem _root_.Gdx.HasData.readSV {z : Cz} {g : Gx} {m : Nat} {s : Sym} {rs : List Rec} (h : HasData z g m s rs) (r : SVTab) :
    HasData z (setReadSpecialValues g r) m s rs := ⟨h.names, h.data, h.typ, h.opn, h.ver, h.filt, h.acros, h.auto, h.text⟩

theorem Loaded.readSV {z : Cz} {g : Gx} {m : Nat} {d : SymDesc} {xs : List RawEntry} (h : Loaded z g m d xs) (r : SVTab) :
    Loaded z (setReadSpecialValues g r) m d xs := by
  obtain ⟨h1, h2, ⟨s, h3, h4, h5⟩, h6⟩ := h
  exact ⟨h1, h2, ⟨s, h3, h4, h5.readSV r⟩, h6⟩

theorem Loaded.congr {z : Cz} {g g' : Gx} {m : Nat} {d : SymDesc} {xs : List RawEntry} (h : Loaded z g m d xs) (hs : RdSame g g')
    (hm : g'.mode = .rInit) : Loaded z g' m d xs := by
  obtain ⟨h1, h2, ⟨s, h3, h4, h5⟩, h6⟩ := h
  exact ⟨hm, h2, ⟨s, h3, h4, h5.congr hs⟩, by rw [hs.uel]; exact h6⟩

/-- the values the reader of `g` delivers for acronyms -/
abbrev acrOf (g : Gx) : Dbl → Dbl := plainRemap g

theorem rawAll_delivered {z : Cz} {g : Gx} {m : Nat} {d : SymDesc} {xs : List RawEntry} {s : Sym} (h2 : ∀ x ∈ xs, Spec.Distinct x.sv)
    (hd : d.Of s) (hh : HasData z g m s (xs.map fun x => stored x.sv x.key x.vals)) :
    Delivered g.rsv (acrOf g) d xs (rawAll g.loads s (xs.map fun x => stored x.sv x.key x.vals)) := by
  unfold Delivered rawAll
  by_cases hc : d.dim = 0 ∧ xs = []
  · rw [if_pos hc, if_pos ⟨by rw [hd.dim]; exact hc.1, by rw [hc.2]; rfl⟩, default_values, hd.typ, hd.ui]
    rfl
  · have hne : ¬ (s.dim = 0 ∧ xs.map (fun x => stored x.sv x.key x.vals) = []) := by
      rintro ⟨b1, b2⟩
      exact hc ⟨by rw [← hd.dim]; exact b1, List.map_eq_nil_iff.mp b2⟩
    rw [if_neg hc, if_neg hne, hd.dim]
    obtain ⟨lo, hi, hst⟩ := hh.data
    obtain ⟨bytes, t, _, _, nr, bs, out, _, _, _, _, he⟩ := hst.data
    rw [hd.dim] at he
    have hlen := fun r hr => (he.fits r hr).1
    have hsort : d.dim.toNat ≠ 0 → _ := fun h0 => (he.sorted h0).1
    refine ⟨rawOuts_same (l := g.loads) none xs h2, ?_, ?_, ?_⟩
    · intro i k f hi
      have := rawOuts_firsts g.loads (d := d.dim.toNat) _ none hlen hsort (fun q hq => by cases hq) i k f hi
      cases i <;> exact this
    · intro h0
      rw [rawOuts_keys]
      have := hst.dim
      rw [hd.dim] at this
      exact hsort (by omega)
    · intro o ho
      have : o.key ∈ (rawOuts g.loads d.dim.toNat none (xs.map fun x => stored x.sv x.key x.vals)).map RecOut.key :=
        List.mem_map_of_mem ho
      rw [rawOuts_keys] at this
      obtain ⟨r, hr, h5⟩ := List.mem_map.mp this
      rw [← h5]
      exact hlen r hr

/-- Everything the two readers deliver. -/
theorem Loaded.reads {z : Cz} (hz : z.Good) {g : Gx} {m : Nat} {d : SymDesc} {xs : List RawEntry} (h : Loaded z g m d xs) {nr : Int}
    (ht : Targets g nr m) : ∃ outs, Delivered g.rsv (acrOf g) d xs outs ∧
      (∃ g1 g2, dataReadRawStart z g nr = .ok (g1, (true, outs.length)) ∧ DeliversRaw g1 outs g2 ∧ g2.mode = .rInit ∧ RdSame g g2) ∧
      (∃ u g1 g2, g.uel = some u ∧ dataReadStrStart z g nr = .ok (g1, (true, outs.length)) ∧ DeliversStr g1 (outs.map (RecOut.toStr u)) g2 ∧
        g2.mode = .rInit ∧ RdSame g g2) := by
  obtain ⟨h1, h2, ⟨s, h3, h4, h5⟩, u, h6, h7⟩ := h
  exact ⟨_, rawAll_delivered h2 h3 h5, h5.raw hz h1 ht, u, by
    obtain ⟨g1, g2, e⟩ := h5.str hz h1 ht h6 h7
    exact ⟨g1, g2, h6, e⟩⟩

/-! ### C50: strings -/

/-- the string record is the raw record with the strings that gdxUMUelGet gives for its numbers -/
structure Translates (g : Gx) (o : RecOut Int) (s : RecOut Str) : Prop where
  key : List.Forall₂ (fun e t => ∃ b n, umUelGet g e = .ok (b, t, n)) o.key s.key
  vals : s.vals = o.vals
  frst : s.frst = o.frst

theorem elemStr_get {g : Gx} {e : Int} {t : Str} (h : elemStr g.uel e = .ok t) : ∃ b n, umUelGet g e = .ok (b, t, n) := by
  unfold elemStr at h
  unfold umUelGet
  cases hu : g.uel with
  | none =>
    rw [hu] at h
    cases h
    exact ⟨_, _, rfl⟩
  | some u =>
    rw [hu] at h
    simp only at h ⊢
    split at h
    · rename_i hr
      obtain ⟨s, hs, h⟩ := Res.bind_eq_ok.mp h
      split at h
      · cases h
      · cases h
        rename_i hl
        rw [if_pos hr]
        have hs' := hs
        unfold Uel.str at hs'
        obtain ⟨x, hx, _⟩ := Res.bind_eq_ok.mp hs'
        have hm : u.userMap e = .ok x.2 := by
          unfold Uel.userMap
          rw [hx]
          rfl
        have hf : fits 64 t = .ok t := by
          unfold fits
          rw [if_pos (by omega)]
        simp only [hs, Res.bind_ok, hf, hm]
        exact ⟨_, _, rfl⟩
    · rename_i hr
      cases h
      rw [if_neg hr]
      exact ⟨_, _, rfl⟩

theorem elemStrs_get {g : Gx} : ∀ {es : List Int} {ts : List Str}, elemStrs g.uel es = .ok ts →
    List.Forall₂ (fun e t => ∃ b n, umUelGet g e = .ok (b, t, n)) es ts
  | [], ts, h => by cases h; exact .nil
  | e :: es, ts, h => by
    unfold elemStrs at h
    obtain ⟨t, ht, h⟩ := Res.bind_eq_ok.mp h
    obtain ⟨r, hr, h⟩ := Res.bind_eq_ok.mp h
    cases h
    exact .cons (elemStr_get ht) (elemStrs_get hr)

theorem readDone_mode {g : Gx} {m1 m2 : Mode} (h1 : m1 ∈ [Mode.rInit, .rRaw, .rMap, .rMapR, .rStr, .rSlice])
    (h2 : m2 ∈ [Mode.rInit, .rRaw, .rMap, .rMapR, .rStr, .rSlice]) :
    dataReadDone { g with mode := m1 } = dataReadDone { g with mode := m2 } := by
  unfold dataReadDone
  dsimp only
  rcases chk_cases ({ g with mode := m1, sort := none, cur := .none } : Gx) [.rInit, .rRaw, .rMap, .rMapR, .rStr, .rSlice] with ⟨_, hc⟩ | ⟨hc, _⟩
  · rcases chk_cases ({ g with mode := m2, sort := none, cur := .none } : Gx) [.rInit, .rRaw, .rMap, .rMapR, .rStr, .rSlice] with ⟨_, hd⟩ | ⟨hd, _⟩
    · rw [hc, hd]
    · exact absurd h2 hd
  · exact absurd h1 hc

/-- one record -/
theorem readStr_step {g g1 : Gx} {o : Option (RecOut Str)} (hm : g.mode = .rStr) (h : dataReadStr g = .ok (g1, o)) :
    match o with
    | none => dataReadRaw { g with mode := .rRaw } = .ok (g1, none)
    | some s => g1.mode = .rStr ∧ g1.uel = g.uel ∧ ∃ r, dataReadRaw { g with mode := .rRaw } = .ok ({ g1 with mode := .rRaw }, some r) ∧
        Translates g r s := by
  unfold dataReadStr at h
  rcases chk_cases g [.rStr] with ⟨_, hc⟩ | ⟨hc, _⟩
  · simp only [hc, Bool.true_eq_false, if_false] at h
    obtain ⟨⟨g2, x⟩, h2, h⟩ := Res.bind_eq_ok.mp h
    have hu := (doRead_uel g).of_ok h2
    have hraw : doRead { g with mode := .rRaw } = .ok ({ g2 with mode := .rRaw }, x) := by
      rw [doRead_mode, h2]
      rfl
    unfold dataReadRaw
    rcases chk_cases ({ g with mode := .rRaw } : Gx) [.rRaw] with ⟨_, hc⟩ | ⟨hc, _⟩
    · simp only [hc, Bool.true_eq_false, if_false, hraw, Res.bind_ok]
      cases x with
      | none =>
        simp only at h ⊢
        obtain ⟨⟨g3, b⟩, h3, h⟩ := Res.bind_eq_ok.mp h
        cases h
        have hm2 : g2.mode = .rStr := hu.2.trans hm
        have : dataReadDone { g2 with mode := .rRaw } = dataReadDone g2 := by
          have := readDone_mode (g := g2) (m1 := .rRaw) (m2 := .rStr) (by decide) (by decide)
          rw [this, ← hm2]
        simp only
        rw [this, h3]
        rfl
      | some y =>
        obtain ⟨fd, vals⟩ := y
        simp only at h ⊢
        obtain ⟨ks, h3, h⟩ := Res.bind_eq_ok.mp h
        cases h
        refine ⟨hu.2.trans hm, hu.1, ⟨_, rfl, ?_, rfl, rfl⟩⟩
        have := elemStrs_get (g := g1) h3
        have hg : ∀ e, umUelGet g1 e = umUelGet g e := by
          intro e
          unfold umUelGet
          rw [hu.1]
        simp only [hg] at this
        exact this
    · exact absurd (by simp) hc
  · exact absurd (by simp [hm]) hc

theorem deliversStr_raw {g g' : Gx} {ss : List (RecOut Str)} (h : DeliversStr g ss g') : g.mode = .rStr →
    ∃ outs, DeliversRaw { g with mode := .rRaw } outs g' ∧ List.Forall₂ (Translates g) outs ss := by
  induction h with
  | done h => exact fun hm => ⟨[], .done (readStr_step hm h), .nil⟩
  | next h _ ih =>
    intro hm
    obtain ⟨h1, h2, r, h3, h4⟩ := readStr_step hm h
    obtain ⟨outs, h5, h6⟩ := ih h1
    refine ⟨r :: outs, .next h3 h5, .cons h4 ?_⟩
    refine List.Forall₂.imp ?_ h6
    intro a b hab
    refine ⟨?_, hab.vals, hab.frst⟩
    have := hab.key
    unfold umUelGet at this ⊢
    rw [h2] at this
    exact this

/-- C50: for every object that is ready to read, whatever the file contains: if gdxDataReadStrStart succeeds, gdxDataReadRawStart
    does, with the same count; if then gdxDataReadStr delivers certain records and ends, gdxDataReadRaw delivers the same number of
    records and ends in the same state, with the same values and first changed positions and the element numbers whose strings
    gdxUMUelGet gives. -/
theorem C50_strings (z : Cz) (g g1 g2 : Gx) (nr n : Int) (hm : g.mode = .rInit) (h : dataReadStrStart z g nr = .ok (g1, (true, n)))
    (ss : List (RecOut Str)) (hd : DeliversStr g1 ss g2) :
    ∃ g1' outs, dataReadRawStart z g nr = .ok (g1', (true, n)) ∧ DeliversRaw g1' outs g2 ∧ List.Forall₂ (Translates g1) outs ss := by
  unfold dataReadStrStart at h
  obtain ⟨⟨g3, k⟩, h1, h⟩ := Res.bind_eq_ok.mp h
  have h2 := prepareRead_mode (z := z) hm nr (List.replicate 20 domcUnmapped) (m1 := .rStr) (m2 := .rRaw) (by decide) (by decide) (by decide)
  rw [h1] at h2
  simp only [Res.bind_ok] at h2
  simp only [Res.pure_eq] at h
  injection h with h
  injection h with e1 h
  injection h with e2 e3
  have hk : k ≥ 0 := by simpa using e2
  have hm3 : g3.mode = .rStr := by
    rcases (prepareRead_ready (z := z) (g := g) nr (List.replicate 20 domcUnmapped) (m := .rStr) (by decide)).of_ok h1 with h | h
    · simp only at h; omega
    · exact h
  rw [if_pos hm3] at h2
  subst e1
  subst e3
  obtain ⟨outs, h4, h5⟩ := deliversStr_raw hd hm3
  refine ⟨_, outs, ?_, h4, h5⟩
  unfold dataReadRawStart
  rw [h2]
  simp only [Res.bind_ok, Res.pure_eq]
  rw [decide_eq_true hk]

/-! ### C43: the universe -/

/-- C43: an object that is ready to read delivers for symbol 0 (and for every alias of it) the elements 1, 2, .., n as a
    one-dimensional set with value 0 and nothing else, n being the number of elements the file had when it was opened. -/
theorem C43_universe (z : Cz) (g : Gx) (hm : g.mode = .rInit) (hf : g.filters.isSome = true) (ho : 0 ≤ g.uelOrig ∧ g.uelOrig < intMax)
    (nr : Int) (ht : TargetsUniverse g nr) :
    ∃ g1 outs g2, dataReadRawStart z g nr = .ok (g1, (true, g.uelOrig)) ∧ DeliversRaw g1 outs g2 ∧ g2.mode = .rInit ∧
      (outs.length : Int) = g.uelOrig ∧ ∀ (i : Nat) o, outs[i]? = some o → o = ⟨[(i : Int) + 1], [Dbl.zero], 1⟩ := by
  obtain ⟨g1, h1, h2, h3, h4⟩ := universe_prepare (z := z) hm hf ht ho (nm := .rRaw) (by decide)
  obtain ⟨g2, h5, h6, h7⟩ := h2.raw _ _ h3
  have hl : ∀ k n, (universeOuts n k).length = k := by
    intro k
    induction k with
    | zero => intro n; rfl
    | succ k ih => intro n; simp [universeOuts, ih]
  have hx : ∀ k n (i : Nat) o, (universeOuts n k)[i]? = some o → o = ⟨[((n + i : Nat) : Int) + 1], [Dbl.zero], 1⟩ := by
    intro k
    induction k with
    | zero => intro n i o h; simp [universeOuts] at h
    | succ k ih =>
      intro n i o h
      cases i with
      | zero => simp [universeOuts] at h; rw [← h]; rfl
      | succ i =>
        have := ih (n + 1) i o (by simpa [universeOuts] using h)
        rw [this]
        congr 3
        omega
  refine ⟨g1, _, g2, ?_, h5, h6, by rw [hl]; omega, ?_⟩
  · unfold dataReadRawStart
    rw [h1]
    simp only [Res.bind_ok, Res.pure_eq]
    rw [decide_eq_true ho.1]
  · intro i o h
    have := hx _ _ i o h
    simpa using this

/-! ### what is known about the symbol without reading it -/

/-- C49: the count of gdxSymbolInfoX is the number of records delivered, except for a scalar for which several records were written -/
theorem Loaded.count {z : Cz} {g : Gx} {m : Nat} {d : SymDesc} {xs : List RawEntry} (h : Loaded z g m d xs) (hd : d.dim ≠ 0 ∨ xs.length ≤ 1)
    {r : SVTab} {acr : Dbl → Dbl} {outs : List (RecOut Int)} (ho : Delivered r acr d xs outs) :
    (symbolInfoX g ((m : Int) + 1)).recs = outs.length := by
  obtain ⟨_, _, ⟨s, h3, h4, h5⟩, _⟩ := h
  obtain ⟨syms, b1, b2⟩ := h5.names
  obtain ⟨lo, hi, hst⟩ := h5.data
  have hsym : g.symAt ((m : Int) + 1) = some s := by
    unfold Gx.symAt
    rw [b1]
    have := (List.getElem?_eq_some_iff.mp b2).1
    simp only
    rw [if_pos (by omega), show ((m : Int) + 1 - 1).toNat = m by omega, b2]
  unfold symbolInfoX
  rw [if_neg (by omega), hsym]
  simp only
  rw [h3.dim, hst.cnt, List.length_map]
  unfold Delivered at ho
  by_cases hc : d.dim = 0 ∧ xs = []
  · rw [if_pos hc] at ho
    rw [if_pos hc.1, ho]
    rfl
  · rw [if_neg hc] at ho
    rw [ho.recs.length_eq.symm]
    by_cases h0 : d.dim = 0
    · rw [if_pos h0]
      have h6 := hd.resolve_left (by simp [h0])
      have : xs ≠ [] := fun e => hc ⟨h0, e⟩
      have := List.length_pos_iff.mpr this
      omega
    · rw [if_neg h0]

theorem hasText_of {g : Gx} {m : Nat} {d : SymDesc} {xs : List RawEntry} {syms : List Sym} {s : Sym} (b1 : g.names = some syms)
    (b2 : syms[m]? = some s) (h3 : d.Of s) (h4 : SymLog s (xs.map fun x => (x.key, x.vals))) :
    setHasText g ((m : Int) + 1) = true ↔ d.typ = 0 ∧ ∃ x ∈ xs, ∃ v vs, x.vals = v :: vs ∧ v ≠ Dbl.zero ∧ v ≠ Dbl.negZero := by
  have hsym : g.symAt ((m : Int) + 1) = some s := by
    unfold Gx.symAt
    rw [b1]
    have := (List.getElem?_eq_some_iff.mp b2).1
    simp only
    rw [if_pos (by omega), show ((m : Int) + 1 - 1).toNat = m by omega, b2]
  unfold setHasText
  rw [hsym]
  simp only
  rw [h4.txt, h3.typ]
  simp only [Bool.and_eq_true, decide_eq_true_eq, List.any_eq_true, List.mem_map]
  refine and_congr_right fun _ => ?_
  constructor
  · rintro ⟨_, ⟨x, hx, rfl⟩, hy⟩
    unfold Given.text at hy
    cases hv : x.vals with
    | nil => simp [hv] at hy
    | cons v vs =>
      simp only [hv] at hy
      exact ⟨x, hx, v, vs, hv, by simpa [nonZero] using hy⟩
  · rintro ⟨x, hx, v, vs, hv, hy⟩
    refine ⟨_, ⟨x, hx, rfl⟩, ?_⟩
    unfold Given.text
    simp only [hv]
    simpa [nonZero] using hy

/-- C54: gdxSetHasText says whether some record of the set has a text number that is not zero -/
theorem Loaded.hasText {z : Cz} {g : Gx} {m : Nat} {d : SymDesc} {xs : List RawEntry} (h : Loaded z g m d xs) :
    setHasText g ((m : Int) + 1) = true ↔ d.typ = 0 ∧ ∃ x ∈ xs, ∃ v vs, x.vals = v :: vs ∧ v ≠ Dbl.zero ∧ v ≠ Dbl.negZero := by
  obtain ⟨_, _, ⟨s, h3, h4, h5⟩, _⟩ := h
  obtain ⟨syms, b1, b2⟩ := h5.names
  exact hasText_of b1 b2 h3 h4

/-! ### uniqueness -/

theorem forall₂_unique {α β : Type} {R : α → β → Prop} : ∀ {xs : List α} {ys ys' : List β}, (∀ x ∈ xs, ∀ y y', R x y → R x y' → y = y') →
    List.Forall₂ R xs ys → List.Forall₂ R xs ys' → ys = ys'
  | [], _, _, _, .nil, .nil => rfl
  | x :: xs, _, _, hu, .cons h1 h2, .cons h3 h4 => by
    rw [hu x (by simp) _ _ h1 h3, forall₂_unique (fun y hy => hu y (by simp [hy])) h2 h4]

/-- what must be delivered is determined by what was written -/
theorem Delivered.unique {r : SVTab} {acr : Dbl → Dbl} {d : SymDesc} {xs : List RawEntry} {outs outs' : List (RecOut Int)}
    (hx : ∀ x ∈ xs, Spec.Distinct x.sv) (h : Delivered r acr d xs outs) (h' : Delivered r acr d xs outs') : outs = outs' := by
  unfold Delivered at h h'
  by_cases hc : d.dim = 0 ∧ xs = []
  · rw [if_pos hc] at h h'
    rw [h, h']
  · rw [if_neg hc] at h h'
    have h1 : outs.map (fun o => (o.key, o.vals)) = outs'.map fun o => (o.key, o.vals) := by
      have e : ∀ {outs : List (RecOut Int)}, List.Forall₂ (SameRec r acr) xs outs →
          List.Forall₂ (fun x (p : List Int × List Dbl) => p.1 = x.key ∧ List.Forall₂ (ReadsAs x.sv r acr) x.vals p.2) xs
            (outs.map fun o => (o.key, o.vals)) := by
        intro outs h
        rw [List.forall₂_map_right_iff]
        exact h.imp fun a b hab => ⟨hab.key, hab.vals⟩
      refine forall₂_unique ?_ (e h.recs) (e h'.recs)
      rintro x hx1 ⟨k, v⟩ ⟨k', v'⟩ ⟨e1, e2⟩ ⟨e3, e4⟩
      simp only at e1 e2 e3 e4
      rw [e1, e3, forall₂_unique (fun y _ a b => C04_unique _ _ (hx x hx1) _ y a b) e2 e4]
    have hlen : outs.length = outs'.length := by simpa using congrArg List.length h1
    have hkey : ∀ (i : Nat) (o o' : RecOut Int), outs[i]? = some o → outs'[i]? = some o' → o.key = o'.key ∧ o.vals = o'.vals := by
      intro i o o' hi hi'
      have := congrArg (·[i]?) h1
      simp only [List.getElem?_map, hi, hi', Option.map_some] at this
      injection this with this
      injection this with a b
      exact ⟨a, b⟩
    apply List.ext_getElem?
    intro i
    cases hi : outs[i]? with
    | none =>
      rw [List.getElem?_eq_none_iff] at hi
      rw [eq_comm, List.getElem?_eq_none_iff]
      omega
    | some o =>
      have hlt := (List.getElem?_eq_some_iff.mp hi).1
      have hi' : outs'[i]? = some outs'[i] := List.getElem?_eq_getElem (by omega)
      rw [hi']
      generalize outs'[i] = o' at hi'
      obtain ⟨e1, e2⟩ := hkey i o o' hi hi'
      have f1 := h.frst i o.key o.frst (by rw [List.getElem?_map, hi]; rfl)
      have f2 := h'.frst i o'.key o'.frst (by rw [List.getElem?_map, hi']; rfl)
      have e3 : o.frst = o'.frst := by
        by_cases h0 : d.dim.toNat = 0
        · rw [if_pos h0] at f1 f2
          rw [f1, f2]
        · rw [if_neg h0] at f1 f2
          cases i with
          | zero => exact f1.trans f2.symm
          | succ j =>
            obtain ⟨p, a1, a2⟩ := f1
            obtain ⟨p', b1, b2⟩ := f2
            have c1 : outs[j]? = some outs[j] := List.getElem?_eq_getElem (by omega)
            have c2 : outs'[j]? = some outs'[j] := List.getElem?_eq_getElem (by omega)
            have c3 := (hkey j _ _ c1 c2).1
            rw [List.getElem?_map, c1] at a1
            rw [List.getElem?_map, c2] at b1
            cases a1
            cases b1
            simp only at a2 b2
            rw [← c3, ← e1] at b2
            exact FirstDiff.unique a2 b2
      cases o
      cases o'
      simp only at e1 e2 e3
      rw [e1, e2, e3]

end Gdx.Props
