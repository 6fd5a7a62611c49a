import Verif.Props.DumpGams

/-!
C71: the lists that gdxdump writes: labels, symbols, acronyms.
-/

namespace Gdx.Props
open Gdx Gdx.Dump Gdx.Diff Gdx.Gams

/-! ## entries between blanks -/

theorem skip_append {x y : Str} {c : UInt8} (hx : (skip x).head? = some c) : skip (x ++ y) = skip x ++ y := by
  induction x with
  | nil => cases hx
  | cons d x ix =>
    unfold skip at hx ix ⊢
    rw [List.cons_append]
    by_cases hb : isBlank d = true
    · rw [List.dropWhile_cons_of_pos hb] at hx ⊢
      rw [List.dropWhile_cons_of_pos hb]
      exact ix hx
    · rw [List.dropWhile_cons_of_neg hb, List.dropWhile_cons_of_neg hb]
      rfl

theorem entry_lead {n : Nat} {t : Str} {e : List Str × Str} (h : IsEntry n t e) : IsEntry n (32 :: t) e := by
  obtain ⟨h1, h2⟩ := h
  exact ⟨by rw [skip_blank]; exact h1, fun r hr => by rw [List.cons_append, skip_blank]; exact h2 r hr⟩

theorem entry_trail {n : Nat} {t : Str} {e : List Str × Str} (h : IsEntry n t e) : IsEntry n (t ++ [32]) e := by
  obtain ⟨⟨c, c1, c2⟩, h2⟩ := h
  refine ⟨⟨c, ?_, c2⟩, fun r hr => ?_⟩
  · rw [skip_append c1]
    cases hs : skip t with
    | nil => rw [hs] at c1; cases c1
    | cons d q => rw [hs] at c1; exact c1
  · have := h2 (32 :: r) ⟨Or.inr (Or.inl rfl), hr.2⟩
    rw [List.append_assoc]
    exact this

theorem sepText_cons {sep t : Str} {ts : List Str} (h : ts ≠ []) : sepText sep (t :: ts) = t ++ sep ++ sepText sep ts := by
  cases ts with
  | nil => exact absurd rfl h
  | cons t' ts => simp [sepText]

/-! ## labels -/

/-- the lines of the table, as a list of data -/
theorem uelLines_ok {a : Gx} (ha : Fresh a) {strs : List Str} (hu : a.uel = some { Uel.empty with ents := strs.map (·, -1) }) (f : Nat) :
    ∀ k, k + f = strs.length → 1 ≤ f → ∃ ts, uelLines a strs.length f ((k : Int) + 1) = .ok (sepText [44, 10] ts ++ [32, 47, 59, 10]) ∧
      List.Forall₂ (IsEntry 1) ts ((strs.drop k).map fun s => ([s], [])) ∧ ts ≠ [] := by
  induction f with
  | zero => intro k _ h; omega
  | succ f ih =>
    intro k hk _
    have hlt : k < strs.length := by omega
    have hget : umUelGet a ((k : Int) + 1) = .ok (true, strs[k], -1) := umUelGet_in ha.good hu (by simp [hlt])
    obtain ⟨s, hq⟩ := label_quote ha (e := (k : Int) + 1) ⟨by omega, by
      rw [size_strs, hu]
      simp [Uel.strs]
      omega⟩
    have hs : s = strs[k] := by
      obtain ⟨⟨u, j, m, j1, j2, j3, _⟩, _⟩ := hq
      rw [hu] at j1
      cases j1
      have : j = k := by omega
      subst this
      simp [hlt] at j3
      exact j3.1.symm
    subst hs
    have he : IsEntry 1 (writeUEL strs[k]) ([strs[k]], []) := by
      have := entry_ok (ts := [writeUEL strs[k]]) (.cons (label_uel hq.2) .nil) (by simp) body_none (by intro c hc; cases hc)
      simpa [joined] using this
    have hdrop : strs.drop k = strs[k] :: strs.drop (k + 1) := List.drop_eq_getElem_cons hlt
    unfold uelLines
    rw [hget, Res.bind_ok]
    dsimp only
    cases f with
    | zero =>
      refine ⟨[32 :: 32 :: writeUEL strs[k]], ?_, ?_, by simp⟩
      · rw [if_neg (by omega)]
        simp [uelLines, Res.bind_ok, Res.pure_eq, sepText]
      · rw [hdrop, List.drop_eq_nil_of_le (by omega)]
        exact .cons (entry_lead (entry_lead he)) .nil
    | succ f =>
      obtain ⟨ts, t1, t2, t3⟩ := ih (k + 1) (by omega) (by omega)
      refine ⟨(32 :: 32 :: writeUEL strs[k] ++ [32]) :: ts, ?_, ?_, by simp⟩
      · rw [show ((k : Int) + 1 + 1) = ((k + 1 : Nat) : Int) + 1 by push_cast; rfl, t1, if_pos (by omega), sepText_cons t3]
        simp [Res.bind_ok, Res.pure_eq]
      · rw [hdrop]
        exact .cons (entry_trail (entry_lead (entry_lead he))) t2

/-- C71: the table of the labels that gdxdump writes for `UelTable=name` is read as the list of all labels of the file, in the order of the file: after
    `Set name /` there is a list of data with one label per entry, without text. -/
theorem C71_labels {a : Gx} (ha : Fresh a) (name : Str) : ∃ strs t, a.uel.map Uel.strs = some strs ∧
    if strs = [] then writeUelTable a name = .ok ([36, 111, 110, 69, 109, 112, 116, 121, 10, 83, 101, 116, 32] ++ name ++ [40, 42, 41, 32, 47] ++ t) ∧
      dataList 1 t = some ([], [59, 10, 36, 111, 102, 102, 69, 109, 112, 116, 121, 10])
    else writeUelTable a name = .ok ([83, 101, 116, 32] ++ name ++ [32, 47] ++ t) ∧ dataList 1 t = some (strs.map fun s => ([s], []), [59, 10]) := by
  obtain ⟨strs, hu⟩ := ha.uel
  have hsz : (systemInfo a).2 = strs.length := by
    rw [size_strs, hu]
    simp [Uel.strs]
  have hst : a.uel.map Uel.strs = some strs := by
    rw [hu]
    simp [Uel.strs, Function.comp_def]
  by_cases h0 : strs = []
  · refine ⟨strs, [32, 47, 59, 10, 36, 111, 102, 102, 69, 109, 112, 116, 121, 10], hst, ?_⟩
    rw [if_pos h0]
    refine ⟨?_, rfl⟩
    unfold writeUelTable
    rw [hsz, h0]
    simp [uelLines, Res.bind_ok, Res.pure_eq]
  · have hpos : 1 ≤ strs.length := by
      cases strs with
      | nil => exact absurd rfl h0
      | cons _ _ => simp
    obtain ⟨ts, t1, t2, _⟩ := uelLines_ok ha hu strs.length 0 (by omega) hpos
    refine ⟨strs, 10 :: (sepText [44, 10] ts ++ 32 :: 47 :: [59, 10]), hst, ?_⟩
    rw [if_neg h0]
    refine ⟨?_, dataList_ok (sep := [44, 10]) ⟨[10], rfl, by decide⟩ t2 [59, 10]⟩
    unfold writeUelTable
    have hl : uelLines a strs.length strs.length 1 = .ok (sepText [44, 10] ts ++ [32, 47, 59, 10]) := t1
    rw [hsz]
    simp only [Int.toNat_natCast, hl, Res.bind_ok, Res.pure_eq]
    rw [if_pos (by omega)]
    simp

/-! ## symbols -/

/-- a label in double quotes -/
theorem label_double {s : Str} (h : 34 ∉ s) : IsLabel ([34] ++ s ++ [34]) s := by
  refine ⟨⟨34, rfl, by decide, by decide⟩, fun r _ => ?_⟩
  have := quoted_ok (q := 34) (s := s) (r := r) h
  rw [show [34] ++ s ++ [34] ++ r = 34 :: (s ++ 34 :: r) by simp]
  unfold label
  simp only
  rw [if_neg (by decide)]
  unfold token
  simp only
  rw [if_pos (Or.inr trivial), this]

/-- the names of the types -/
def typWord (typ : Nat) : Str :=
  if typ = 0 then [83, 101, 116] else if typ = 1 then [80, 97, 114] else if typ = 2 then [86, 97, 114] else if typ = 3 then [69, 113, 117] else [65, 108, 105, 97, 115]

theorem typShort_eq (typ : Nat) : typShort typ = typWord typ := by
  match typ with
  | 0 => rfl
  | 1 => rfl
  | 2 => rfl
  | 3 => rfl
  | k + 4 => rfl

theorem symItem_ok {a : Gx} {n : Int} {s : Sym} (hn : 1 ≤ n) (hs : a.symAt n = some s) (hg : isGoodIdent s.name = true) (hd : 0 ≤ s.dim) (ht : s.typ ≤ 4) (hq : Quotable s.expl) :
    IsEntry 3 (symItem a n) ([s.name, intToStr s.dim, typWord s.typ], s.expl) := by
  have hi : symbolInfo a n = ⟨true, s.name, s.dim, s.typ⟩ := by
    unfold symbolInfo
    rw [if_neg (by omega), hs]
  have hx : (symbolInfoX a n).expl = s.expl := by
    unfold symbolInfoX
    rw [if_neg (by omega), hs]
  have l1 := label_double (s := s.name) fun h => by
    have := (ident_chars hg).2 34 h
    revert this
    decide
  have l2 : IsLabel (intToStr s.dim) (intToStr s.dim) := by
    obtain ⟨k, hk⟩ := Int.eq_ofNat_of_zero_le hd
    rw [hk, Merge.intToStr_nat]
    refine label_bare ?_ ?_
    · exact Merge.digits_ne 20 k (by decide)
    · intro c hc
      have h48 := Merge.digits_of 20 k c hc
      have key : ∀ c : UInt8, 48 ≤ c ∧ c ≤ 57 → endsWord c = false ∧ c ≠ 39 ∧ c ≠ 34 := by
        intro c hc
        have h1 := UInt8.le_iff_toNat_le.mp hc.1
        have h2 := UInt8.le_iff_toNat_le.mp hc.2
        simp only [show (48 : UInt8).toNat = 48 from rfl, show (57 : UInt8).toNat = 57 from rfl] at h1 h2
        refine ⟨?_, by rintro rfl; revert h1; decide, by rintro rfl; revert h1; decide⟩
        unfold endsWord endsVal isBlank
        simp only [Bool.or_eq_false_iff, beq_eq_false_iff_ne]
        refine ⟨⟨⟨⟨⟨?_, ?_⟩, ?_⟩, ?_⟩, ?_⟩, ?_⟩ <;> (rintro rfl; revert h1 h2; decide)
      exact key c h48
  have l3 := label_double (s := typWord s.typ) (by
    have := ht
    have : s.typ = 0 ∨ s.typ = 1 ∨ s.typ = 2 ∨ s.typ = 3 ∨ s.typ = 4 := by omega
    rcases this with h | h | h | h | h <;> rw [h] <;> decide)
  have hb : ∃ b, IsBody b s.expl ∧ (∀ c, b.head? = some c → c = 32) ∧ symItem a n = joined 46 [[34] ++ s.name ++ [34], intToStr s.dim, [34] ++ typWord s.typ ++ [34]] ++ b := by
    unfold symItem
    rw [hi, hx]
    dsimp only
    rw [typShort_eq]
    by_cases h0 : s.expl = []
    · refine ⟨[], by rw [h0]; exact body_none, by simp, ?_⟩
      rw [if_pos h0]
      simp [joined]
    · have hone : (if (34 : UInt8) ∈ s.expl then (39 : UInt8) else 34) ∉ s.expl := by
        split
        · rename_i h34
          exact fun h39 => hq.2 ⟨h39, h34⟩
        · assumption
      have hqq : (if (34 : UInt8) ∈ s.expl then (39 : UInt8) else 34) = 39 ∨ (if (34 : UInt8) ∈ s.expl then (39 : UInt8) else 34) = 34 := by
        split
        · exact Or.inl rfl
        · exact Or.inr rfl
      generalize (if (34 : UInt8) ∈ s.expl then (39 : UInt8) else 34) = q at hone hqq
      refine ⟨[32, q] ++ s.expl ++ [q], ?_, by intro c hc; cases hc; rfl, ?_⟩
      · intro r _
        have hsk : skip ([32, q] ++ s.expl ++ [q] ++ r) = q :: (s.expl ++ q :: r) := by
          rw [show [32, q] ++ s.expl ++ [q] ++ r = 32 :: q :: (s.expl ++ q :: r) by simp, skip_blank]
          exact skip_of (by rcases hqq with h | h <;> rw [h] <;> decide)
        rw [hsk]
        refine ⟨by rcases hqq with h | h <;> rw [h] <;> rfl, r, ?_, rfl⟩
        unfold token
        simp only
        rw [if_pos hqq, quoted_ok hone]
      · rw [if_neg h0]
        simp [joined]
  obtain ⟨b, b1, b2, b3⟩ := hb
  rw [b3]
  exact entry_ok (.cons l1 (.cons l2 (.cons l3 .nil))) (by simp) b1 b2

theorem symItems_ok {a : Gx} {syms : List Sym} (hat : ∀ (k : Nat) (y : Sym), syms[k]? = some y → a.symAt ((k : Int) + 1) = some y)
    (hok : ∀ y ∈ syms, isGoodIdent y.name = true ∧ 0 ≤ y.dim ∧ y.typ ≤ 4 ∧ Quotable y.expl) (f : Nat) :
    ∀ k, k + f = syms.length → 1 ≤ f → ∃ ts, symItems a syms.length f ((k : Int) + 1) = sepText [44, 10] ts ++ [10] ∧
      List.Forall₂ (IsEntry 3) ts ((syms.drop k).map fun s => ([s.name, intToStr s.dim, typWord s.typ], s.expl)) ∧ ts ≠ [] := by
  induction f with
  | zero => intro k _ h; omega
  | succ f ih =>
    intro k hk _
    have hlt : k < syms.length := by omega
    obtain ⟨h1, h2, h3, h4⟩ := hok syms[k] (by simp)
    have he := symItem_ok (n := (k : Int) + 1) (by omega) (hat k syms[k] (List.getElem?_eq_getElem hlt)) h1 h2 h3 h4
    have hdrop : syms.drop k = syms[k] :: syms.drop (k + 1) := List.drop_eq_getElem_cons hlt
    unfold symItems
    cases f with
    | zero =>
      refine ⟨[symItem a ((k : Int) + 1)], ?_, ?_, by simp⟩
      · rw [if_neg (by omega)]
        simp [symItems, sepText]
      · rw [hdrop, List.drop_eq_nil_of_le (by omega)]
        exact .cons he .nil
    | succ f =>
      obtain ⟨ts, t1, t2, t3⟩ := ih (k + 1) (by omega) (by omega)
      refine ⟨symItem a ((k : Int) + 1) :: ts, ?_, ?_, by simp⟩
      · rw [show ((k : Int) + 1 + 1) = ((k + 1 : Nat) : Int) + 1 by push_cast; rfl, t1, if_pos (by omega), sepText_cons t3]
        simp
      · rw [hdrop]
        exact .cons he t2

/-- C71: the list of the symbols that gdxdump writes for `SymbolsAsSet`, from the slash on, is read as one entry per symbol of the file: name, dimension
    and type as labels, the explanatory text as text. -/
theorem C71_symbols {e : Env} {z : Cz} (hz : z.Good) {g : Gx} {syms : List Sym} {R : Nat → List RawEntry} {f : List UInt8} (h : OwnFile e z g syms R f) (h0 : syms ≠ []) :
    ∃ a t, openRead z Gx.new (.content f) = .ok (a, (true, 0)) ∧ symbolsAsSet a = 47 :: t ∧
      dataList 3 t = some (syms.map fun s => ([s.name, intToStr s.dim, typWord s.typ], s.expl), [59, 10]) := by
  obtain ⟨a, P, a1, a2, a3, a4⟩ := h.content hz
  have fi := h.hist.fine hz
  have hsyms := fi.inv.tab.syms syms h.full.names
  have hat : ∀ (k : Nat) (y : Sym), (syms.map Sym.reopened)[k]? = some y → a.symAt ((k : Int) + 1) = some y := by
    intro k y hk
    have hlt := (List.getElem?_eq_some_iff.mp hk).1
    unfold Gx.symAt
    rw [a3]
    simp only
    rw [if_pos (by omega), show ((k : Int) + 1 - 1).toNat = k by omega, hk]
  have hlen : (syms.map Sym.reopened).length = syms.length := by simp
  have hn : (systemInfo a).1 = (syms.map Sym.reopened).length := by
    unfold systemInfo
    simp [a3]
  obtain ⟨ts, t1, t2, _⟩ := symItems_ok hat (by
    intro y hy
    obtain ⟨s, hs, rfl⟩ := List.mem_map.mp hy
    obtain ⟨k, hk⟩ := List.mem_iff_getElem?.mp hs
    have hok := hsyms.each k s hk
    exact ⟨hok.good, hok.dim.1, hok.typ, hok.expl.2.2⟩) (syms.map Sym.reopened).length 0 (by omega) (by
      cases syms with
      | nil => exact absurd rfl h0
      | cons _ _ => simp)
  refine ⟨a, 10 :: (sepText [44, 10] ts ++ 10 :: 47 :: [59, 10]), a1, ?_, ?_⟩
  · unfold symbolsAsSet
    rw [hn, Int.toNat_natCast, show (1 : Int) = ((0 : Nat) : Int) + 1 from rfl, t1]
    simp
  · have := dataList_ok' (Or.inr rfl) (sep := [44, 10]) ⟨[10], rfl, by decide⟩ t2 [59, 10]
    simp only [List.drop_zero, List.map_map, Function.comp_def] at this
    exact this

/-! ## acronyms -/

/-- the line for an acronym: `Acronym name text;` -/
def acroLine (name text : Str) : Str := [65, 99, 114, 111, 110, 121, 109, 32] ++ name ++ (if text = [] then [] else writeQText text true) ++ [59, 10]

theorem acroLines_from {a : Gx} {l : List Acr} (hl : a.acros = some l) (hf : ∀ x ∈ l, x.name.length < 64 ∧ x.text.length < 256) (f : Nat) :
    ∀ k, k + f ≤ l.length → acroLines a f ((k : Int) + 1) = .ok (((l.drop k).take f).map fun x => acroLine x.name x.text).flatten := by
  induction f with
  | zero => intro k _; simp [acroLines]
  | succ f ih =>
    intro k hk
    have hlt : k < l.length := by omega
    have hg : acronymGetInfo a ((k : Int) + 1) = .ok (some ((l[k]).name, (l[k]).text, (l[k]).map)) := by
      obtain ⟨f1, f2⟩ := hf l[k] (by simp)
      unfold acronymGetInfo
      rw [hl]
      simp only [need, Res.bind_ok]
      rw [if_neg (by omega), at1_nat (List.getElem?_eq_getElem hlt)]
      simp [fits, ssSize, f1, f2, Res.bind_ok, Res.pure_eq]
    unfold acroLines
    rw [hg, Res.bind_ok]
    dsimp only
    rw [show ((k : Int) + 1 + 1) = ((k + 1 : Nat) : Int) + 1 by push_cast; rfl, ih (k + 1) (by omega), Res.bind_ok, List.drop_eq_getElem_cons hlt, List.take_succ_cons, List.map_cons, List.flatten_cons]
    unfold acroLine
    simp [Res.pure_eq]

/-- C71 fails for acronyms: gdxdump counts them from 0, the library from 1. The list begins with a declaration without a name, `Acronym ;`, and the last acronym of
    the file is missing. -/
theorem C71_acronyms {a : Gx} {l : List Acr} (hl : a.acros = some l) (h0 : l ≠ []) (hf : ∀ x ∈ l, x.name.length < 64 ∧ x.text.length < 256) :
    writeAcronyms a = .ok ([10] ++ acroLine [] [] ++ (l.dropLast.map fun x => acroLine x.name x.text).flatten) := by
  obtain ⟨n, hn⟩ : ∃ n, l.length = n + 1 := by
    cases l with
    | nil => exact absurd rfl h0
    | cons x l => exact ⟨l.length, rfl⟩
  have hc : acronymCount a = ((n + 1 : Nat) : Int) := by
    unfold acronymCount
    rw [hl, ← hn]
    rfl
  have h1 : acronymGetInfo a 0 = .ok none := by
    unfold acronymGetInfo
    rw [hl]
    simp only [need, Res.bind_ok]
    rw [if_pos (by omega)]
    rfl
  have h2 := acroLines_from hl hf n 0 (by omega)
  rw [show ((0 : Nat) : Int) + 1 = 0 + 1 from rfl] at h2
  unfold writeAcronyms
  rw [hc, if_neg (by omega), Int.toNat_natCast]
  unfold acroLines
  rw [h1]
  simp only [Res.bind_ok, h2, Res.pure_eq]
  rw [List.dropLast_eq_take, hn]
  simp [acroLine]

/-! ## examples -/

/-- the labels `a b` and `c'd`, the symbols `i`, `p`, `v`, `s`: `Set u /`, `'a b' ,`, … -/
def exLabels : Res (Str × Option (List (List Str × Str) × Str)) := do
  let f ← fileOf exGams
  let (a, _) ← openRead Cz.id Gx.new (.content f)
  let t ← writeUelTable a [117]
  pure (t.take 8, dataList 1 (t.drop 7))

instance : DecidableEq (List (List Str × Str) × Str) := inferInstance

example : exLabels =
    .ok ([83, 101, 116, 32, 117, 32, 47, 10], some ([([[97, 32, 98]], []), ([[99, 39, 100]], []), ([[120]], [])], [59, 10])) := by decide +kernel

def exSymItems : Res (Option (List (List Str × Str) × Str)) := do
  let f ← fileOf exGams
  let (a, _) ← openRead Cz.id Gx.new (.content f)
  pure (dataList 3 ((symbolsAsSet a).drop 1))

example : exSymItems =
    .ok (some ([([[105], [49], [83, 101, 116]], [116, 104, 101, 32, 115, 101, 116]), ([[112], [50], [80, 97, 114]], [53, 47, 54]), ([[118], [48], [86, 97, 114]], []),
      ([[115], [48], [80, 97, 114]], [40, 111, 110, 101, 41])], [59, 10])) := by decide +kernel

/-- the acronyms `x` and `y` -/
def exAcro : List Call := [.openWrite false 0 [65] 0, .acronymAdd [120] [] 1, .acronymAdd [121] [] 2]

/-- `Acronym ;`, `Acronym x;` -/
example : (do
    let f ← fileOf exAcro
    let (a, _) ← openRead Cz.id Gx.new (.content f)
    writeAcronyms a) = .ok [10, 65, 99, 114, 111, 110, 121, 109, 32, 59, 10, 65, 99, 114, 111, 110, 121, 109, 32, 120, 59, 10] := by decide +kernel

#print axioms C71_labels
#print axioms C71_symbols
#print axioms C71_acronyms

end Gdx.Props
