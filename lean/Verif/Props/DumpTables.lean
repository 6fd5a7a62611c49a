import Verif.Proofs.Listing
import Verif.Props.DumpLists
import Verif.Props.DumpAll

/-!
C81: the lists of gdxdump for people: Symbols, DomainInfo, SetText, SymbolsAsSetDI.
-/

namespace Gdx.Props
open Gdx Gdx.Dump Gdx.Diff Gdx.Gams Gdx.Listing

/-! ## symbols -/

/-- what is known about the symbols of an object that has opened a file -/
structure Listed (a : Gx) (syms : List Sym) : Prop where
  len : (systemInfo a).1 = syms.length
  small : (syms.length : Int) ≤ 2147483647
  info : ∀ (n : Nat) (s : Sym), syms[n]? = some s → symbolInfo a ((n : Int) + 1) = ⟨true, s.name, s.dim, s.typ⟩ ∧
    symbolInfoX a ((n : Int) + 1) = ⟨true, if s.dim = 0 then 1 else s.dataCount, s.userInfo, s.expl⟩
  nodup : (syms.map Sym.name).Nodup
  ok : ∀ s ∈ syms, isGoodIdent s.name = true ∧ s.typ ≤ 4 ∧ (0 ≤ s.dim ∧ s.dim ≤ 20) ∧ (0 ≤ s.dataCount ∧ s.dataCount ≤ 2147483647) ∧ Quotable s.expl

/-- symbols with their numbers (from 0) in the order of their names -/
def ByName (l : List (Sym × Nat)) : Prop := l.Pairwise fun x y => Before x.1.name y.1.name

theorem symMap_ok {a : Gx} {syms : List Sym} (h : Listed a syms) : ∀ (f k : Nat), k + f = syms.length → ∀ l : List (Sym × Nat), l.Perm (syms.zipIdx.take k) → ByName l →
    ∃ l' : List (Sym × Nat), symMap a f ((k : Int) + 1) (l.map keyOf) = l'.map keyOf ∧ l'.Perm syms.zipIdx ∧ ByName l' := by
  intro f
  induction f with
  | zero =>
    intro k hk l hl hs
    refine ⟨l, rfl, ?_, hs⟩
    rwa [List.take_of_length_le (by simp; omega)] at hl
  | succ f ih =>
    intro k hk l hl hs
    have hlt : k < syms.length := by omega
    have hget : syms[k]? = some syms[k] := List.getElem?_eq_getElem hlt
    have htake : syms.zipIdx.take (k + 1) = syms.zipIdx.take k ++ [(syms[k], k)] := by
      rw [List.take_succ_eq_append_getElem (by simpa using hlt)]
      simp
    obtain ⟨l', e1, e2, e3⟩ := mapIns_ok (syms[k], k) l (by
      intro y hy heq
      have hm := hl.mem_iff.mp hy
      obtain ⟨j, hj, hjy⟩ := List.getElem_of_mem hm
      rw [List.getElem_take, List.getElem_zipIdx] at hjy
      have hjk : j < k := by
        rw [List.length_take] at hj
        omega
      have hj' : j < syms.length := by omega
      have hname : syms[j].name = syms[k].name := by
        rw [← heq, ← hjy]
      have := (List.nodup_iff_injective_getElem.mp h.nodup) (a₁ := ⟨j, by simpa using hj'⟩) (a₂ := ⟨k, by simpa using hlt⟩) (by simpa using hname)
      have := congrArg Fin.val this
      simp only at this
      omega) hs
    obtain ⟨l2, i1, i2, i3⟩ := ih (k + 1) (by omega) l' (by
      rw [htake]
      exact e2.trans ((hl.cons _).trans (List.perm_append_singleton _ _).symm)) e3
    refine ⟨l2, ?_, i2, i3⟩
    unfold symMap
    rw [(h.info k _ hget).1]
    have e1' : mapIns syms[k].name ((k : Int) + 1) (l.map keyOf) = l'.map keyOf := e1
    rw [e1', ← i1]
    push_cast
    rfl

theorem maxName_ok {a : Gx} {syms : List Sym} (h : Listed a syms) : ∀ (f k w : Nat), k + f = syms.length → w ≤ 63 →
    w ≤ maxName a f ((k : Int) + 1) w ∧ maxName a f ((k : Int) + 1) w ≤ 63 ∧ ∀ (n : Nat) (s : Sym), k ≤ n → syms[n]? = some s → s.name.length ≤ maxName a f ((k : Int) + 1) w := by
  intro f
  induction f with
  | zero =>
    intro k w hk hw
    refine ⟨Nat.le_refl _, hw, ?_⟩
    intro n s hn hs
    have := (List.getElem?_eq_some_iff.mp hs).1
    omega
  | succ f ih =>
    intro k w hk hw
    have hlt : k < syms.length := by omega
    have hget : syms[k]? = some syms[k] := List.getElem?_eq_getElem hlt
    have hl : syms[k].name.length ≤ 63 := by
      have := (isGoodIdent_zfree (h.ok syms[k] (by simp)).1).2
      omega
    obtain ⟨i1, i2, i3⟩ := ih (k + 1) (max w syms[k].name.length) (by omega) (by omega)
    unfold maxName
    rw [(h.info k _ hget).1]
    dsimp only
    rw [show ((k : Int) + 1 + 1) = ((k + 1 : Nat) : Int) + 1 by push_cast; rfl]
    refine ⟨by omega, i2, ?_⟩
    intro n s hn hs
    by_cases hnk : n = k
    · subst hnk
      rw [hget] at hs
      cases hs
      omega
    · exact i3 n s (by omega) hs

/-- the number of records that a list shows: a symbol without index has one -/
def shown (s : Sym) : Int := if s.dim = 0 then 1 else s.dataCount

theorem shown_bounds {a : Gx} {syms : List Sym} (h : Listed a syms) {s : Sym} (hs : s ∈ syms) : 0 ≤ shown s ∧ shown s ≤ 2147483647 := by
  have := (h.ok s hs).2.2.2.1
  unfold shown
  split
  · omega
  · exact this

theorem maxCount_ok {a : Gx} {syms : List Sym} (h : Listed a syms) : ∀ (f k w : Nat), k + f = syms.length → w ≤ 20 →
    ∃ w', maxCount a f ((k : Int) + 1) w = .ok w' ∧ w ≤ w' ∧ w' ≤ 20 ∧ ∀ (n : Nat) (s : Sym), k ≤ n → syms[n]? = some s → (intToStr (shown s)).length ≤ w' := by
  intro f
  induction f with
  | zero =>
    intro k w hk hw
    refine ⟨w, rfl, Nat.le_refl _, hw, ?_⟩
    intro n s hn hs
    have := (List.getElem?_eq_some_iff.mp hs).1
    omega
  | succ f ih =>
    intro k w hk hw
    have hlt : k < syms.length := by omega
    have hget : syms[k]? = some syms[k] := List.getElem?_eq_getElem hlt
    have hb := shown_bounds h (s := syms[k]) (by simp)
    have hl := int_short hb.1
    obtain ⟨w', i1, i2, i3, i4⟩ := ih (k + 1) (max w (intToStr (shown syms[k])).length) (by omega) (by omega)
    refine ⟨w', ?_, by omega, i3, ?_⟩
    · unfold maxCount
      rw [(h.info k _ hget).2]
      have hw : IntText.intWidth (if syms[k].dim = 0 then 1 else syms[k].dataCount) = .ok (intToStr (shown syms[k])).length := width_eq hb.1 hb.2
      dsimp only
      rw [hw, Res.bind_ok, ← i1]
      push_cast
      rfl
    · intro n s hn hs
      by_cases hnk : n = k
      · subst hnk
        rw [hget] at hs
        cases hs
        omega
      · exact i4 n s (by omega) hs

/-- the line for the symbol at position `i` (from 0): number of the line, name, dimension, type, number of records, text -/
def InfoLine (i : Nat) (s : Sym) (row : Str) : Prop :=
  ∃ nr dim cnt, words 5 row = some ([nr, s.name, dim, typWord s.typ, cnt], [32, 32] ++ s.expl) ∧ IntText.IsIntStr nr ((i : Int) + 1) ∧ IntText.IsIntStr dim s.dim ∧
    IntText.IsIntStr cnt (if s.dim = 0 then 1 else s.dataCount)

theorem ident_word {s : Str} (h : isGoodIdent s = true) : Word s := by
  obtain ⟨h1, h2⟩ := ident_chars h
  refine ⟨h1, fun hc => ?_, fun hc => ?_⟩ <;>
  · have := h2 _ hc
    revert this
    decide

theorem typ_word {n : Nat} (h : n ≤ 4) : Word (typWord n) := by
  have : n = 0 ∨ n = 1 ∨ n = 2 ∨ n = 3 ∨ n = 4 := by omega
  rcases this with h | h | h | h | h <;> subst h <;> exact ⟨by decide, by decide, by decide⟩

theorem typ_length {n : Nat} (h : n ≤ 4) : (typWord n).length = if n = 4 then 5 else 3 := by
  have : n = 0 ∨ n = 1 ∨ n = 2 ∨ n = 3 ∨ n = 4 := by omega
  rcases this with h | h | h | h | h <;> subst h <;> rfl

theorem quotable_nonl {s : Str} (h : Quotable s) : (10 : UInt8) ∉ s := fun hc => by
  have := h.1 _ hc
  revert this
  decide

theorem word_nonl {s : Str} (h : Word s) : (10 : UInt8) ∉ s := h.2.2

/-- the row without its newline -/
def rowOf (w1 w2 w3 i : Nat) (s : Sym) : Str :=
  padLeft (intToStr ((i : Int) + 1)) w1 ++ [32] ++ padRight s.name w2 ++ [32] ++ padLeft (intToStr s.dim) 3 ++ [32] ++
    padLeft (typWord s.typ) 4 ++ [32] ++ padLeft (intToStr (shown s)) w3 ++ [32, 32] ++ s.expl

theorem head_blank {k : Nat} {c d : Str} (h : 0 < k) : (List.replicate k (32 : UInt8) ++ c ++ d).head? = some 32 := by
  obtain ⟨k, rfl⟩ : ∃ j, k = j + 1 := ⟨k - 1, by omega⟩
  rfl

theorem rowOf_ok {a : Gx} {syms : List Sym} (h : Listed a syms) {s : Sym} (hs : s ∈ syms) (w1 w2 w3 i : Nat) (hi : i < syms.length) :
    InfoLine i s (rowOf w1 w2 w3 i s) ∧ (10 : UInt8) ∉ rowOf w1 w2 w3 i s := by
  obtain ⟨h1, h2, h3, h4, h5⟩ := h.ok s hs
  have hb := shown_bounds h hs
  have hsm := h.small
  have v1 := int_word (n := (i : Int) + 1) (by omega)
  have v2 := ident_word h1
  have v3 := int_word h3.1
  have v4 := typ_word h2
  have v5 := int_word hb.1
  obtain ⟨k1, e1⟩ := padLeft_eq (intToStr ((i : Int) + 1)) w1
  obtain ⟨k2, e2⟩ := padRight_eq s.name w2
  obtain ⟨k3, e3⟩ := padLeft_eq (intToStr s.dim) 3
  obtain ⟨k4, e4⟩ := padLeft_eq (typWord s.typ) 4
  obtain ⟨k5, e5⟩ := padLeft_eq (intToStr (shown s)) w3
  have er : rowOf w1 w2 w3 i s = List.replicate k1 32 ++ intToStr ((i : Int) + 1) ++ (List.replicate 1 32 ++ s.name ++ (List.replicate (k2 + 1 + k3) 32 ++ intToStr s.dim ++
      (List.replicate (1 + k4) 32 ++ typWord s.typ ++ (List.replicate (1 + k5) 32 ++ intToStr (shown s) ++ ([32, 32] ++ s.expl))))) := by
    unfold rowOf
    rw [e1, e2, e3, e4, e5]
    simp [List.replicate_add]
  refine ⟨⟨_, _, _, ?_, int_is (n := (i : Int) + 1) (by omega) (by omega), int_is h3.1 (by omega), int_is hb.1 hb.2⟩, ?_⟩
  · rw [er]
    refine words_step k1 v1 (Or.inl (head_blank (by omega))) (words_step 1 v2 (Or.inl (head_blank (by omega))) (words_step _ v3 (Or.inl (head_blank (by omega)))
      (words_step _ v4 (Or.inl (head_blank (by omega))) (words_step _ v5 (Or.inl rfl) rfl))))
  · rw [er]
    refine nonl_append (nonl_append (nonl_blanks _) v1.2.2) (nonl_append (nonl_append (nonl_blanks _) v2.2.2) (nonl_append (nonl_append (nonl_blanks _) v3.2.2)
      (nonl_append (nonl_append (nonl_blanks _) v4.2.2) (nonl_append (nonl_append (nonl_blanks _) v5.2.2) (nonl_append (by decide) (quotable_nonl h5))))))

theorem infoRows_ok {a : Gx} {syms : List Sym} (h : Listed a syms) (w1 w2 w3 : Nat) : ∀ (l : List (Sym × Nat)) (i : Nat), (∀ x ∈ l, syms[x.2]? = some x.1) → i + l.length ≤ syms.length →
    ∃ rows, IsLines (infoRows a w1 w2 w3 i (l.map keyOf)) rows ∧ rows.length = l.length ∧
      ∀ (j : Nat) (x : Sym × Nat) (row : Str), l[j]? = some x → rows[j]? = some row → row = rowOf w1 w2 w3 (i + j) x.1 := by
  intro l
  induction l with
  | nil => intro i _ _; exact ⟨[], isLines_nil, rfl, by intro j x row hx; cases hx⟩
  | cons x l ih =>
    intro i hl hlen
    rw [List.length_cons] at hlen
    obtain ⟨rows, r1, r2, r3⟩ := ih (i + 1) (fun y hy => hl y (List.mem_cons_of_mem _ hy)) (by omega)
    have hx := hl x List.mem_cons_self
    obtain ⟨i1, i2⟩ := h.info _ _ hx
    have hrow : infoRow a w1 w2 w3 i (keyOf x).2 = rowOf w1 w2 w3 i x.1 ++ [10] := by
      unfold infoRow rowOf
      show padLeft (intToStr ((i : Int) + 1)) w1 ++ [32] ++ padRight (symbolInfo a ((x.2 : Int) + 1)).name w2 ++ [32] ++ padLeft (intToStr (symbolInfo a ((x.2 : Int) + 1)).dim) 3 ++ [32] ++
        padLeft (typShort (symbolInfo a ((x.2 : Int) + 1)).typ) 4 ++ [32] ++ padLeft (intToStr (symbolInfoX a ((x.2 : Int) + 1)).recs) w3 ++ [32, 32] ++ (symbolInfoX a ((x.2 : Int) + 1)).expl ++ [10] = _
      rw [i1, i2, typShort_eq]
      rfl
    refine ⟨rowOf w1 w2 w3 i x.1 :: rows, ?_, by simp [r2], ?_⟩
    · rw [List.map_cons]
      show IsLines (infoRow a w1 w2 w3 i (keyOf x).2 ++ infoRows a w1 w2 w3 (i + 1) (l.map keyOf)) _
      rw [hrow]
      exact isLines_cons (rowOf_ok h (List.mem_of_getElem? hx) w1 w2 w3 i (by omega)).2 r1
    · intro j y row hy hr
      cases j with
      | zero =>
        rw [List.getElem?_cons_zero] at hy hr
        rw [← Option.some.inj hy, ← Option.some.inj hr, Nat.add_zero]
      | succ j =>
        rw [List.getElem?_cons_succ] at hy hr
        rw [r3 j y row hy hr, show i + 1 + j = i + (j + 1) by omega]

/-- The list of the symbols: after the header one line per symbol in the order of the names. The explanatory texts are in the column of the header, those of aliases one further to the right. -/
theorem symbols_ok {a : Gx} {syms : List Sym} (h : Listed a syms) : ∃ t head rows, ∃ order : List (Sym × Nat), writeSymbolInfo a = .ok t ∧ IsLines t (head :: rows) ∧
    order.Perm syms.zipIdx ∧ ByName order ∧ rows.length = order.length ∧
    words 6 head = some ([DiffOpts.str "Symbol", DiffOpts.str "Dim", DiffOpts.str "Type", DiffOpts.str "Records", DiffOpts.str "Explanatory", DiffOpts.str "text"], []) ∧
    ∀ (i : Nat) (x : Sym × Nat) (row : Str), order[i]? = some x → rows[i]? = some row → InfoLine i x.1 row ∧
      row.length + 16 = head.length + x.1.expl.length + if x.1.typ = dtAlias then 1 else 0 := by
  have hsm := h.small
  obtain ⟨order, o1, o2, o3⟩ := symMap_ok h syms.length 0 (by omega) [] (by simp) List.Pairwise.nil
  have hmem : ∀ x ∈ order, syms[x.2]? = some x.1 := by
    intro x hx
    exact List.mem_zipIdx_iff_getElem?.mp (o2.mem_iff.mp hx)
  have hlen : order.length = syms.length := by rw [o2.length_eq, List.length_zipIdx]
  have hw1 : IntText.intWidth (syms.length : Int) = .ok (intToStr (syms.length : Int)).length := width_eq (by omega) hsm
  have hw1' := int_short (n := (syms.length : Int)) (by omega)
  obtain ⟨m1, m2, m3⟩ := maxName_ok h syms.length 0 6 (by omega) (by omega)
  obtain ⟨w3, c1, c2, c3, c4⟩ := maxCount_ok h syms.length 0 7 (by omega) (by omega)
  simp only [Nat.cast_zero, zero_add] at o1 m1 m2 m3 c1
  generalize hw2 : maxName a syms.length 1 6 = w2 at m1 m2 m3
  generalize hw : (intToStr (syms.length : Int)).length = w1 at hw1 hw1'
  obtain ⟨rows, r1, r2, r3⟩ := infoRows_ok h w1 w2 w3 order 0 hmem (by omega)
  have hdef : writeSymbolInfo a = .ok (padLeft [32] w1 ++ [32] ++ padRight sSymbol w2 ++ sDimType ++ padRight sRecords w3 ++ sExplText ++ infoRows a w1 w2 w3 0 (order.map keyOf)) := by
    unfold writeSymbolInfo
    rw [h.len]
    dsimp only
    rw [hw1, Res.bind_ok, Int.toNat_natCast, hw2, c1, Res.bind_ok, ← o1]
    rfl
  have w1pos : 1 ≤ w1 := by
    rw [← hw]
    have := (int_word (n := (syms.length : Int)) (by omega)).1
    rcases hc : intToStr (syms.length : Int) with _ | ⟨_, _⟩
    · exact absurd hc this
    · simp
  let head : Str := padLeft [32] w1 ++ [32] ++ padRight sSymbol w2 ++ sDimType ++ padRight sRecords w3 ++ [32, 32, 69, 120, 112, 108, 97, 110, 97, 116, 111, 114, 121, 32, 116, 101, 120, 116]
  obtain ⟨k1, e1⟩ := padLeft_eq [32] w1
  obtain ⟨k2, e2⟩ := padRight_eq sSymbol w2
  obtain ⟨k3, e3⟩ := padRight_eq sRecords w3
  have ehead : head = List.replicate (k1 + 2) 32 ++ sSymbol ++ (List.replicate (k2 + 1) 32 ++ [68, 105, 109] ++ (List.replicate 1 32 ++ [84, 121, 112, 101] ++ (List.replicate 1 32 ++ sRecords ++
      (List.replicate (k3 + 2) 32 ++ [69, 120, 112, 108, 97, 110, 97, 116, 111, 114, 121] ++ (List.replicate 1 32 ++ [116, 101, 120, 116] ++ []))))) := by
    show padLeft [32] w1 ++ [32] ++ padRight sSymbol w2 ++ sDimType ++ padRight sRecords w3 ++ [32, 32, 69, 120, 112, 108, 97, 110, 97, 116, 111, 114, 121, 32, 116, 101, 120, 116] = _
    rw [e1, e2, e3]
    simp [List.replicate_add, sDimType]
  have hheadnl : (10 : UInt8) ∉ head := by
    rw [ehead]
    refine nonl_append (nonl_append (nonl_blanks _) (by decide)) (nonl_append (nonl_append (nonl_blanks _) (by decide)) (nonl_append (nonl_append (nonl_blanks _) (by decide))
      (nonl_append (nonl_append (nonl_blanks _) (by decide)) (nonl_append (nonl_append (nonl_blanks _) (by decide)) (nonl_append (nonl_append (nonl_blanks _) (by decide)) (by decide))))))
  have hhl : head.length = w1 + w2 + w3 + 29 := by
    show (padLeft [32] w1 ++ [32] ++ padRight sSymbol w2 ++ sDimType ++ padRight sRecords w3 ++ [32, 32, 69, 120, 112, 108, 97, 110, 97, 116, 111, 114, 121, 32, 116, 101, 120, 116]).length = _
    simp only [List.length_append]
    rw [padLeft_length (by simpa using w1pos) (by omega), padRight_length (by exact m1) (by omega), padRight_length (by exact c2) (by omega)]
    simp [sDimType]
    omega
  refine ⟨_, head, rows, order, hdef, ?_, o2, o3, r2, ?_, ?_⟩
  · have := isLines_cons hheadnl r1
    rw [show padLeft [32] w1 ++ [32] ++ padRight sSymbol w2 ++ sDimType ++ padRight sRecords w3 ++ sExplText ++ infoRows a w1 w2 w3 0 (order.map keyOf) =
      head ++ [10] ++ infoRows a w1 w2 w3 0 (order.map keyOf) by
        show _ = padLeft [32] w1 ++ [32] ++ padRight sSymbol w2 ++ sDimType ++ padRight sRecords w3 ++ [32, 32, 69, 120, 112, 108, 97, 110, 97, 116, 111, 114, 121, 32, 116, 101, 120, 116] ++ [10] ++ _
        simp [sExplText]]
    exact this
  · rw [ehead]
    exact words_step _ (by exact ⟨by decide, by decide, by decide⟩) (Or.inl (head_blank (by omega))) (words_step _ ⟨by decide, by decide, by decide⟩ (Or.inl (head_blank (by omega)))
      (words_step _ ⟨by decide, by decide, by decide⟩ (Or.inl (head_blank (by omega))) (words_step _ ⟨by decide, by decide, by decide⟩ (Or.inl (head_blank (by omega)))
      (words_step _ ⟨by decide, by decide, by decide⟩ (Or.inl (head_blank (by omega))) (words_step _ ⟨by decide, by decide, by decide⟩ (Or.inr rfl) rfl)))))
  · intro i x row hx hr
    have he := r3 i x row hx hr
    rw [Nat.zero_add] at he
    subst he
    have hi : i < syms.length := by
      have := (List.getElem?_eq_some_iff.mp hx).1
      omega
    have hxm := hmem x (List.mem_of_getElem? hx)
    have hs := List.mem_of_getElem? hxm
    refine ⟨(rowOf_ok h hs w1 w2 w3 i hi).1, ?_⟩
    obtain ⟨h1, h2, h3, h4, h5⟩ := h.ok x.1 hs
    have a1 := padLeft_length (s := intToStr ((i : Int) + 1)) (w := w1) (by rw [← hw]; exact int_mono (by omega) (by omega)) (by omega)
    have a2 := padRight_length (m3 x.2 x.1 (by omega) hxm) (by omega)
    have a3 := padLeft_length (s := intToStr x.1.dim) (w := 3) (by
      have := int_mono h3.1 h3.2
      have e : (intToStr 20).length = 2 := by decide
      omega) (by omega)
    have a5 := padLeft_length (c4 x.2 x.1 (by omega) hxm) (by omega)
    have a4 : (padLeft (typWord x.1.typ) 4).length = 4 + if x.1.typ = dtAlias then 1 else 0 := by
      have : x.1.typ = 0 ∨ x.1.typ = 1 ∨ x.1.typ = 2 ∨ x.1.typ = 3 ∨ x.1.typ = 4 := by omega
      rcases this with h | h | h | h | h <;> rw [h] <;> rfl
    unfold rowOf
    simp only [List.length_append, a1, a2, a3, a4, a5, hhl]
    simp only [List.length_cons, List.length_nil]
    omega

/-! ## domains -/

/-- the word for the kind of the domain and the names of the domains: relaxed names, names of symbols, or nothing -/
def DomainOf (syms : List Sym) (dl : List Str) (s : Sym) (kind : Str) (ds : List Str) : Prop :=
  match s.domStrs, s.domSyms with
  | some l, _ => kind = DiffOpts.str "Relaxed" ∧ List.Forall₂ (fun (d : Int) t => if d = 0 then t = [42] else 0 < d ∧ dl[(d - 1).toNat]? = some t) l ds
  | none, some l => kind = DiffOpts.str "Regular" ∧ List.Forall₂ (fun (d : Int) t => if d = 0 then t = [42] else 0 < d ∧ ∃ q, syms[(d - 1).toNat]? = some q ∧ t = q.name) l ds
  | none, none => kind = DiffOpts.str "None" ∧ ds = List.replicate s.dim.toNat [42]

/-- what is known about the domains -/
structure Domains (a : Gx) (syms : List Sym) (dl : List Str) : Prop extends Listed a syms where
  dom : ∀ (n : Nat) (s : Sym), syms[n]? = some s → ∃ k ds, symbolGetDomainX a ((n : Int) + 1) = .ok (a, (k, ds)) ∧ ds.length = s.dim.toNat ∧ DomainOf syms dl s (domWord k) ds ∧
    (∀ t ∈ ds, IsDom t)

theorem commas_eq : ∀ l : List Str, commaList l = commas l := by
  intro l
  induction l with
  | nil => rfl
  | cons s l ih =>
    cases l with
    | nil => simp [commaList, commas]
    | cons t l =>
      unfold commaList
      rw [ih]
      simp [commas]

theorem dom_chars {t : Str} (h : IsDom t) : t ≠ [] ∧ (10 : UInt8) ∉ t ∧ (34 : UInt8) ∉ t := by
  rcases h with rfl | h
  · decide
  · have hw := ident_word h
    refine ⟨hw.1, hw.2.2, fun hc => ?_⟩
    have := (ident_chars h).2 _ hc
    revert this
    decide

theorem commas_chars {l : List Str} (h : ∀ t ∈ l, IsDom t) : (10 : UInt8) ∉ commas l ∧ (34 : UInt8) ∉ commas l := by
  have aux : ∀ l : List Str, (∀ t ∈ l, IsDom t) → (10 : UInt8) ∉ (l.map ([44, 32] ++ ·)).flatten ∧ (34 : UInt8) ∉ (l.map ([44, 32] ++ ·)).flatten := by
    intro l
    induction l with
    | nil => intro _; simp
    | cons t l ih =>
      intro h
      obtain ⟨i1, i2⟩ := ih fun x hx => h x (List.mem_cons_of_mem _ hx)
      obtain ⟨_, d1, d2⟩ := dom_chars (h t List.mem_cons_self)
      rw [List.map_cons, List.flatten_cons]
      constructor
      · intro hc
        rcases List.mem_append.mp hc with hc | hc
        · rcases List.mem_append.mp hc with hc | hc
          · revert hc; decide
          · exact d1 hc
        · exact i1 hc
      · intro hc
        rcases List.mem_append.mp hc with hc | hc
        · rcases List.mem_append.mp hc with hc | hc
          · revert hc; decide
          · exact d2 hc
        · exact i2 hc
  cases l with
  | nil => simp [commas]
  | cons t l =>
    obtain ⟨i1, i2⟩ := aux l fun x hx => h x (List.mem_cons_of_mem _ hx)
    obtain ⟨_, d1, d2⟩ := dom_chars (h t List.mem_cons_self)
    unfold commas
    exact ⟨fun hc => (List.mem_append.mp hc).elim d1 i1, fun hc => (List.mem_append.mp hc).elim d2 i2⟩

theorem kind_word {syms : List Sym} {dl : List Str} {s : Sym} {k : Str} {ds : List Str} (h : DomainOf syms dl s k ds) : Word k ∧ k.length ≤ 7 := by
  unfold DomainOf at h
  split at h <;> (rw [h.1]; exact ⟨⟨by decide, by decide, by decide⟩, by decide⟩)

/-- a symbol with its domains in parentheses -/
def withDoms (s : Sym) (ds : List Str) : Str := s.name ++ if s.dim = 0 then [] else [40] ++ commas ds ++ [41]

/-- the line for symbol number `n + 1`: number, type, kind of the domain, name and domains; the names begin in column `c` -/
def DomLine (syms : List Sym) (dl : List Str) (c : Nat) (x : Sym × Nat) (row : Str) : Prop :=
  ∃ nr kind ds, words 3 row = some ([nr, typWord x.1.typ, kind], [32] ++ withDoms x.1 ds) ∧ IntText.IsIntStr nr ((x.2 : Int) + 1) ∧ DomainOf syms dl x.1 kind ds ∧
    row.length = c + (withDoms x.1 ds).length

theorem domRows_ok {a : Gx} {syms : List Sym} {dl : List Str} (h : Domains a syms dl) {w : Nat} (hw : (intToStr (syms.length : Int)).length ≤ w) (hw2 : w ≤ 255) :
    ∀ l : List (Sym × Nat), (∀ x ∈ l, syms[x.2]? = some x.1) → ∃ t rows, domRows w a (l.map keyOf) = .ok (a, t) ∧ IsLines t rows ∧ List.Forall₂ (DomLine syms dl (w + 15)) l rows := by
  intro l
  induction l with
  | nil => intro _; exact ⟨[], [], rfl, isLines_nil, .nil⟩
  | cons x l ih =>
    intro hl
    obtain ⟨t, rows, r1, r2, r3⟩ := ih fun y hy => hl y (List.mem_cons_of_mem _ hy)
    have hx := hl x List.mem_cons_self
    have hxl := (List.getElem?_eq_some_iff.mp hx).1
    obtain ⟨i1, i2⟩ := h.info _ _ hx
    obtain ⟨k, ds, d1, d2, d3, d4⟩ := h.dom _ _ hx
    obtain ⟨k1, k2⟩ := kind_word d3
    obtain ⟨h1, h2, h3, h4, h5⟩ := h.ok x.1 (List.mem_of_getElem? hx)
    have hsm := h.small
    have v1 := int_word (n := (x.2 : Int) + 1) (by omega)
    have v2 := typ_word h2
    have v3 := ident_word h1
    have hdom : (if x.1.dim > 0 then [40] ++ commaList (ds.take x.1.dim.toNat) ++ [41] else []) = if x.1.dim = 0 then [] else [40] ++ commas ds ++ [41] := by
      by_cases h0 : x.1.dim = 0
      · rw [if_neg (by omega), if_pos h0]
      · rw [if_pos (by omega), if_neg h0, commas_eq, List.take_of_length_le (by omega)]
    obtain ⟨p1, e1⟩ := padLeft_eq (intToStr ((x.2 : Int) + 1)) w
    obtain ⟨p2, e2⟩ := padLeft_eq (typWord x.1.typ) 5
    obtain ⟨p3, e3⟩ := padLeft_eq (domWord k) 7
    let row : Str := padLeft (intToStr ((x.2 : Int) + 1)) w ++ [32] ++ padLeft (typWord x.1.typ) 5 ++ [32] ++ padLeft (domWord k) 7 ++ [32] ++ withDoms x.1 ds
    have erow : row = List.replicate p1 32 ++ intToStr ((x.2 : Int) + 1) ++ (List.replicate (1 + p2) 32 ++ typWord x.1.typ ++ (List.replicate (1 + p3) 32 ++ domWord k ++ ([32] ++ withDoms x.1 ds))) := by
      show padLeft (intToStr ((x.2 : Int) + 1)) w ++ [32] ++ padLeft (typWord x.1.typ) 5 ++ [32] ++ padLeft (domWord k) 7 ++ [32] ++ withDoms x.1 ds = _
      rw [e1, e2, e3]
      simp [List.replicate_add]
    have hwd : (10 : UInt8) ∉ withDoms x.1 ds := by
      unfold withDoms
      refine nonl_append v3.2.2 ?_
      split
      · simp
      · exact nonl_append (nonl_append (by decide) (commas_chars d4).1) (by decide)
    have hrow : (10 : UInt8) ∉ row := by
      rw [erow]
      exact nonl_append (nonl_append (nonl_blanks _) v1.2.2) (nonl_append (nonl_append (nonl_blanks _) v2.2.2) (nonl_append (nonl_append (nonl_blanks _) k1.2.2) (nonl_append (by decide) hwd)))
    refine ⟨row ++ [10] ++ t, row :: rows, ?_, isLines_cons hrow r2, .cons ?_ r3⟩
    · rw [List.map_cons]
      unfold domRows
      have d1' : symbolGetDomainX a (keyOf x).2 = .ok (a, (k, ds)) := d1
      have i1' : symbolInfo a (keyOf x).2 = ⟨true, x.1.name, x.1.dim, x.1.typ⟩ := i1
      dsimp only
      rw [d1', Res.bind_ok]
      dsimp only
      rw [r1, Res.bind_ok, i1']
      dsimp only
      rw [hdom, typShort_eq]
      show Res.ok _ = Res.ok _
      simp [row, withDoms, keyOf]
    · refine ⟨_, domWord k, ds, ?_, int_is (n := (x.2 : Int) + 1) (by omega) (by omega), d3, ?_⟩
      · rw [erow]
        exact words_step p1 v1 (Or.inl (head_blank (by omega))) (words_step _ v2 (Or.inl (head_blank (by omega))) (words_step _ k1 (Or.inl rfl) rfl))
      · have a1 := padLeft_length (s := intToStr ((x.2 : Int) + 1)) (w := w) (Nat.le_trans (int_mono (by omega) (by omega)) hw) hw2
        have a2 := padLeft_length (s := typWord x.1.typ) (w := 5) (by rw [typ_length h2]; split <;> omega) (by omega)
        have a3 := padLeft_length k2 (by omega)
        show (padLeft (intToStr ((x.2 : Int) + 1)) w ++ [32] ++ padLeft (typWord x.1.typ) 5 ++ [32] ++ padLeft (domWord k) 7 ++ [32] ++ withDoms x.1 ds).length = _
        simp only [List.length_append, a1, a2, a3, List.length_cons, List.length_nil]

/-- The list of the domains: after the header one line per symbol in the order of the names, all names in the column of the header. -/
theorem domains_ok {a : Gx} {syms : List Sym} {dl : List Str} (h : Domains a syms dl) : ∃ t head rows, ∃ order : List (Sym × Nat), writeDomainInfo a = .ok (a, t) ∧
    IsLines t (head :: rows) ∧ order.Perm syms.zipIdx ∧ ByName order ∧ List.Forall₂ (DomLine syms dl (head.length - 6)) order rows ∧
    words 4 head = some ([DiffOpts.str "SyNr", DiffOpts.str "Type", DiffOpts.str "DomInf", DiffOpts.str "Symbol"], []) := by
  have hsm := h.small
  obtain ⟨order, o1, o2, o3⟩ := symMap_ok h.toListed syms.length 0 (by omega) [] (by simp) List.Pairwise.nil
  have hmem : ∀ x ∈ order, syms[x.2]? = some x.1 := fun x hx => List.mem_zipIdx_iff_getElem?.mp (o2.mem_iff.mp hx)
  have hw1 : IntText.intWidth (syms.length : Int) = .ok (intToStr (syms.length : Int)).length := width_eq (by omega) hsm
  have hw1' := int_short (n := (syms.length : Int)) (by omega)
  simp only [Nat.cast_zero, zero_add] at o1
  generalize hw : (intToStr (syms.length : Int)).length = w1 at hw1 hw1'
  obtain ⟨t, rows, r1, r2, r3⟩ := domRows_ok h (w := max w1 4) (by omega) (by omega) order hmem
  obtain ⟨p, e⟩ := padLeft_eq sSyNr (max w1 4)
  let head : Str := padLeft sSyNr (max w1 4) ++ [32, 32, 84, 121, 112, 101, 32, 32, 68, 111, 109, 73, 110, 102, 32, 83, 121, 109, 98, 111, 108]
  have ehead : head = List.replicate p 32 ++ sSyNr ++ (List.replicate 2 32 ++ [84, 121, 112, 101] ++ (List.replicate 2 32 ++ [68, 111, 109, 73, 110, 102] ++ (List.replicate 1 32 ++ [83, 121, 109, 98, 111, 108] ++ []))) := by
    show padLeft sSyNr (max w1 4) ++ _ = _
    rw [e]
    simp [List.replicate]
  have hl : head.length = max w1 4 + 21 := by
    show (padLeft sSyNr (max w1 4) ++ [32, 32, 84, 121, 112, 101, 32, 32, 68, 111, 109, 73, 110, 102, 32, 83, 121, 109, 98, 111, 108]).length = _
    rw [List.length_append, padLeft_length (by show 4 ≤ _; omega) (by omega)]
    rfl
  have hnl : (10 : UInt8) ∉ head := by
    rw [ehead]
    exact nonl_append (nonl_append (nonl_blanks _) (by decide)) (by decide)
  refine ⟨head ++ [10] ++ t, head, rows, order, ?_, isLines_cons hnl r2, o2, o3, ?_, ?_⟩
  · unfold writeDomainInfo
    rw [h.len]
    dsimp only
    rw [hw1, Res.bind_ok, Int.toNat_natCast]
    have o1' : symMap a syms.length 1 [] = order.map keyOf := o1
    rw [o1', r1, Res.bind_ok]
    show Res.ok _ = Res.ok _
    simp [head, sTypeDom]
  · rw [hl]
    exact r3
  · rw [ehead]
    exact words_step _ ⟨by decide, by decide, by decide⟩ (Or.inl (head_blank (by omega))) (words_step _ ⟨by decide, by decide, by decide⟩ (Or.inl (head_blank (by omega)))
      (words_step _ ⟨by decide, by decide, by decide⟩ (Or.inl (head_blank (by omega))) (words_step _ ⟨by decide, by decide, by decide⟩ (Or.inr rfl) rfl)))

/-! ## symbols as a set with domains -/

/-- the names of the domains, if they have at most 63 characters -/
def domText (ds : List Str) : Str := if (commas ds).length ≤ 63 then commas ds else DiffOpts.str "Domain exceeds 63 characters"

theorem domJoin_ok : ∀ (l : List Str) (d : Str), d.length ≤ 63 → domJoin d false l = if (d ++ (l.map ([44, 32] ++ ·)).flatten).length ≤ 63 then d ++ (l.map ([44, 32] ++ ·)).flatten else sTooLong := by
  intro l
  induction l with
  | nil =>
    intro d hd
    rw [if_pos (by simpa using hd)]
    simp [domJoin]
  | cons s l ih =>
    intro d hd
    unfold domJoin
    dsimp only
    by_cases h : (d ++ [44, 32] ++ s).length > 63
    · rw [if_pos (by simpa using h), if_neg]
      simp at h ⊢
      omega
    · rw [if_neg (by simpa using h)]
      have := ih (d ++ [44, 32] ++ s) (by omega)
      simp only [Bool.false_eq_true, if_false]
      rw [this]
      simp

theorem domJoin_all {l : List Str} (h : ∀ t ∈ l, t.length ≤ 63) : domJoin [] true l = domText l := by
  cases l with
  | nil => rfl
  | cons s l =>
    unfold domJoin
    have hs := h s List.mem_cons_self
    simp only [if_true, List.append_nil, List.nil_append]
    rw [if_neg (by omega), domJoin_ok l s hs]
    unfold domText commas
    split <;> rfl

theorem dom_length {t : Str} (h : IsDom t) : t.length ≤ 63 := by
  rcases h with rfl | h
  · decide
  · have := (isGoodIdent_zfree h).2
    omega

/-- what an entry of the set says about a symbol: name, dimension, type, domains -/
def ItemOf (syms : List Sym) (dl : List Str) (s : Sym) (e : List Str × Str) : Prop :=
  ∃ dim kind ds, e = ([s.name, dim, typWord s.typ, if s.dim = 0 then [] else domText ds], []) ∧ IntText.IsIntStr dim s.dim ∧ DomainOf syms dl s kind ds

theorem int_label {n : Int} (h : 0 ≤ n) : IsLabel (intToStr n) (intToStr n) := by
  obtain ⟨k, hk⟩ := Int.eq_ofNat_of_zero_le h
  rw [hk, Merge.intToStr_nat]
  refine label_bare (Merge.digits_ne 20 k (by decide)) ?_
  intro c hc
  have h48 := Merge.digits_of 20 k c hc
  have key : ∀ c : UInt8, 48 ≤ c ∧ c ≤ 57 → endsWord c = false ∧ c ≠ 39 ∧ c ≠ 34 := by
    intro c hc
    have h1 := UInt8.le_iff_toNat_le.mp hc.1
    have h2 := UInt8.le_iff_toNat_le.mp hc.2
    simp only [show (48 : UInt8).toNat = 48 from rfl, show (57 : UInt8).toNat = 57 from rfl] at h1 h2
    refine ⟨?_, by rintro rfl; revert h1; decide, by rintro rfl; revert h1; decide⟩
    unfold endsWord endsVal isBlank
    simp only [Bool.or_eq_false_iff, beq_eq_false_iff_ne]
    refine ⟨⟨⟨⟨⟨?_, ?_⟩, ?_⟩, ?_⟩, ?_⟩, ?_⟩ <;> (rintro rfl; revert h1 h2; decide)
  exact key c h48

theorem itemDI_ok {a : Gx} {syms : List Sym} {dl : List Str} (h : Domains a syms dl) {n : Nat} {s : Sym} (hs : syms[n]? = some s) :
    ∃ t e, symItemDI a ((n : Int) + 1) = .ok (a, t) ∧ IsEntry 4 t e ∧ ItemOf syms dl s e := by
  obtain ⟨i1, i2⟩ := h.info _ _ hs
  obtain ⟨k, ds, d1, d2, d3, d4⟩ := h.dom _ _ hs
  obtain ⟨h1, h2, h3, h4, h5⟩ := h.ok s (List.mem_of_getElem? hs)
  have hq : (34 : UInt8) ∉ if s.dim = 0 then ([] : Str) else domText ds := by
    split
    · simp
    · unfold domText
      split
      · exact (commas_chars d4).2
      · decide
  have l1 := label_double (s := s.name) (dom_chars (Or.inr h1)).2.2
  have l3 := label_double (s := typWord s.typ) (by
    have : s.typ = 0 ∨ s.typ = 1 ∨ s.typ = 2 ∨ s.typ = 3 ∨ s.typ = 4 := by omega
    rcases this with h | h | h | h | h <;> rw [h] <;> decide)
  have l4 := label_double hq
  refine ⟨_, ([s.name, intToStr s.dim, typWord s.typ, if s.dim = 0 then [] else domText ds], []), ?_, entry_ok (.cons l1 (.cons (int_label h3.1) (.cons l3 (.cons l4 .nil)))) (by simp) body_none
    (by intro c hc; cases hc), intToStr s.dim, domWord k, ds, rfl, int_is h3.1 (by omega), d3⟩
  unfold symItemDI
  rw [i1]
  dsimp only
  have hdom : (if s.dim > 0 then (do let (g, _, ds) ← symbolGetDomainX a ((n : Int) + 1); pure (g, ds.take s.dim.toNat) : Res (Gx × List Str)) else .ok (a, [])) =
      .ok (a, if s.dim = 0 then [] else ds) := by
    by_cases h0 : s.dim = 0
    · rw [if_neg (by omega), if_pos h0]
    · rw [if_pos (by omega), if_neg h0, d1, Res.bind_ok]
      dsimp only
      rw [Res.pure_eq, List.take_of_length_le (by omega)]
  rw [hdom, Res.bind_ok]
  dsimp only
  have hj : domJoin [] true (if s.dim = 0 then [] else ds) = if s.dim = 0 then [] else domText ds := by
    split
    · rfl
    · exact domJoin_all fun t ht => dom_length (d4 t ht)
  rw [hj, typShort_eq, Res.pure_eq]
  simp [joined]

theorem itemsDI_ok {a : Gx} {syms : List Sym} {dl : List Str} (h : Domains a syms dl) (f : Nat) :
    ∀ k, k + f = syms.length → 1 ≤ f → ∃ ts es, symItemsDI syms.length f a ((k : Int) + 1) = .ok (a, sepText [44, 10] ts ++ [10]) ∧
      List.Forall₂ (IsEntry 4) ts es ∧ List.Forall₂ (ItemOf syms dl) (syms.drop k) es ∧ ts ≠ [] := by
  induction f with
  | zero => intro k _ h; omega
  | succ f ih =>
    intro k hk _
    have hlt : k < syms.length := by omega
    obtain ⟨t, e, t1, t2, t3⟩ := itemDI_ok h (List.getElem?_eq_getElem hlt)
    have hdrop : syms.drop k = syms[k] :: syms.drop (k + 1) := List.drop_eq_getElem_cons hlt
    unfold symItemsDI
    rw [t1, Res.bind_ok]
    dsimp only
    cases f with
    | zero =>
      refine ⟨[t], [e], ?_, .cons t2 .nil, ?_, by simp⟩
      · rw [if_neg (by omega)]
        simp [symItemsDI, sepText, Res.bind_ok, Res.pure_eq]
      · rw [hdrop, List.drop_eq_nil_of_le (by omega)]
        exact .cons t3 .nil
    | succ f =>
      obtain ⟨ts, es, u1, u2, u3, u4⟩ := ih (k + 1) (by omega) (by omega)
      refine ⟨t :: ts, e :: es, ?_, .cons t2 u2, ?_, by simp⟩
      · rw [show ((k : Int) + 1 + 1) = ((k + 1 : Nat) : Int) + 1 by push_cast; rfl, u1, if_pos (by omega), sepText_cons u4]
        simp [Res.bind_ok, Res.pure_eq]
      · rw [hdrop]
        exact .cons t3 u3

/-- The set of the symbols with their domains. -/
theorem itemsDI_all {a : Gx} {syms : List Sym} {dl : List Str} (h : Domains a syms dl) (h0 : syms ≠ []) : ∃ t es, symbolsAsSetDI a = .ok (a, 47 :: t) ∧ dataList 4 t = some (es, [59, 10]) ∧
    List.Forall₂ (ItemOf syms dl) syms es := by
  obtain ⟨ts, es, t1, t2, t3, _⟩ := itemsDI_ok h syms.length 0 (by omega) (by
    cases syms with
    | nil => exact absurd rfl h0
    | cons _ _ => simp)
  refine ⟨10 :: (sepText [44, 10] ts ++ 10 :: 47 :: [59, 10]), es, ?_, ?_, by simpa using t3⟩
  · unfold symbolsAsSetDI
    rw [h.len, Int.toNat_natCast]
    rw [show ((0 : Nat) : Int) + 1 = 1 from rfl] at t1
    rw [t1, Res.bind_ok]
    simp [Res.pure_eq]
  · have := dataList_ok' (Or.inr rfl) (sep := [44, 10]) ⟨[10], rfl, by decide⟩ t2 [59, 10]
    exact this

/-! ## texts of elements -/

theorem textSearch_ok {g : Gx} {L : Int} (hT : ∀ n : Int, 0 ≤ n → ((getElemText g n).1 = true ↔ n < L)) : ∀ (f : Nat) (lo hi : Int), 0 ≤ lo → lo < L → L ≤ hi → hi - lo ≤ 2 ^ f →
    textSearch g (f + 1) lo hi = .ok (L - 1) := by
  intro f
  induction f with
  | zero =>
    intro lo hi h0 h1 h2 h3
    unfold textSearch
    rw [if_neg (by omega), show lo = L - 1 by omega]
  | succ f ih =>
    intro lo hi h0 h1 h2 h3
    have hp : (2 : Int) ^ (f + 1) = 2 * 2 ^ f := by ring
    have hd : (hi - lo).tdiv 2 = (hi - lo) / 2 := Int.tdiv_eq_ediv_of_nonneg (by omega)
    rw [textSearch]
    by_cases hlt : lo + 1 < hi
    · rw [if_pos hlt, hd]
      have hm := hT (lo + (hi - lo) / 2) (by omega)
      by_cases hc : lo + (hi - lo) / 2 < L
      · rw [if_pos (hm.mpr hc)]
        exact ih _ _ (by omega) hc h2 (by omega)
      · rw [if_neg (fun h => hc (hm.mp h))]
        exact ih _ _ h0 h1 (by omega) (by omega)
    · rw [if_neg hlt, show lo = L - 1 by omega]

/-- the largest number among `ks`, at least 0 -/
def MaxText (m : Int) (ks : List Int) : Prop := 0 ≤ m ∧ (∀ k ∈ ks, k ≤ m) ∧ (m = 0 ∨ m ∈ ks)

/-- the numbers of texts that the records hold -/
def TextNrs (outs : List (RecOut Int)) (ks : List Int) : Prop := List.Forall₂ (fun r k => ∃ v vs, r.vals = v :: vs ∧ Diff.roundInt v = .ok k) outs ks

theorem textMax_ok {outs : List (RecOut Int)} {g g2 : Gx} (hd : DeliversRaw g outs g2) : ∀ {ks : List Int}, TextNrs outs ks → ∀ (m : Int) (fuel : Nat), outs.length < fuel →
    textMax fuel g m = .ok (g2, ks.foldl max m) := by
  induction hd with
  | done h =>
    intro ks hk m fuel hf
    cases hk
    obtain ⟨f, rfl⟩ : ∃ f, fuel = f + 1 := ⟨fuel - 1, by simp at hf; omega⟩
    unfold textMax
    rw [h]
    rfl
  | next h hr ih =>
    intro ks hk m fuel hf
    cases hk with
    | cons hv hk =>
      obtain ⟨v, vs, v1, v2⟩ := hv
      obtain ⟨f, rfl⟩ : ∃ f, fuel = f + 1 := ⟨fuel - 1, by simp at hf; omega⟩
      unfold textMax
      rw [h, Res.bind_ok]
      dsimp only
      rw [v1]
      show (Diff.roundInt v >>= fun k => textMax f _ (max m k)) = _
      rw [v2, Res.bind_ok, ih hk (max m _) f (by simp at hf; omega)]
      rfl

theorem foldl_maxText {ks : List Int} : ∀ {m : Int} {l : List Int}, MaxText m l → MaxText (ks.foldl max m) (l ++ ks) := by
  induction ks with
  | nil => intro m l h; simpa using h
  | cons k ks ih =>
    intro m l h
    have : MaxText (max m k) (l ++ [k]) := by
      refine ⟨by have := h.1; omega, ?_, ?_⟩
      · intro x hx
        rcases List.mem_append.mp hx with hx | hx
        · have := h.2.1 x hx
          omega
        · rw [List.mem_singleton.mp hx]
          omega
      · rcases max_choice m k with e | e <;> rw [e]
        · rcases h.2.2 with h | h
          · exact Or.inl h
          · exact Or.inr (List.mem_append_left _ h)
        · exact Or.inr (by simp)
    have := ih this
    rw [List.append_assoc] at this
    exact this

/-- what the loop over the symbols needs of symbol `n`: if it is a set, its records can be read, with these numbers of texts -/
def Scans (z : Cz) (fuel : Nat) (a : Gx) (n : Int) (ks : List Int) : Prop :=
  ((symbolInfo a n).typ ≠ dtSet ∧ ks = []) ∨ ((symbolInfo a n).typ = dtSet ∧ ∀ g : Gx, g.fixed = a.fixed → g.mode = .rInit → ∀ m : Int,
    ∃ g1 g2 g3 k b, dataReadRawStart z g n = .ok (g1, k) ∧ textMax fuel g1 m = .ok (g2, ks.foldl max m) ∧ dataReadDone g2 = .ok (g3, b) ∧ g3.fixed = a.fixed ∧ g3.mode = .rInit)

theorem textMaxAll_ok {z : Cz} {fuel : Nat} {a : Gx} {K : Nat → List Int} (f : Nat) : ∀ (k : Nat), (∀ i : Nat, k ≤ i → i < k + f → Scans z fuel a (i : Int) (K i)) → ∀ g : Gx, g.fixed = a.fixed → g.mode = .rInit → ∀ m : Int,
    ∃ g', textMaxAll z fuel f g (k : Int) m = .ok (g', (((List.range' k f).map K).flatten).foldl max m) ∧ g'.fixed = a.fixed ∧ g'.mode = .rInit := by
  induction f with
  | zero => intro k _ g hg hm m; exact ⟨g, rfl, hg, hm⟩
  | succ f ih =>
    intro k hs g hg hm m
    have hi : symbolInfo g (k : Int) = symbolInfo a (k : Int) := by
      unfold symbolInfo Gx.symAt
      rw [show g.names = a.names from congrArg Fixed.names hg]
    rw [List.range'_succ, List.map_cons, List.flatten_cons, List.foldl_append]
    unfold textMaxAll
    rw [hi]
    rcases hs k (by omega) (by omega) with ⟨h1, h2⟩ | ⟨h1, h2⟩
    · obtain ⟨g', i1, i2⟩ := ih (k + 1) (fun i h h' => hs i (by omega) (by omega)) g hg hm m
      refine ⟨g', ?_, i2⟩
      rw [if_pos h1, h2, ← show textMaxAll z fuel f g (((k + 1 : Nat) : Int)) m = textMaxAll z fuel f g ((k : Int) + 1) m by push_cast; rfl, i1]
      rfl
    · obtain ⟨g1, g2, g3, kk, b, e1, e2, e3, e4, e5⟩ := h2 g hg hm m
      obtain ⟨g', i1, i2⟩ := ih (k + 1) (fun i h h' => hs i (by omega) (by omega)) g3 e4 e5 ((K k).foldl max m)
      refine ⟨g', ?_, i2⟩
      rw [if_neg (not_not.mpr h1), e1, Res.bind_ok]
      dsimp only
      rw [e2, Res.bind_ok]
      dsimp only
      rw [e3, Res.bind_ok]
      dsimp only
      rw [← show textMaxAll z fuel f g3 (((k + 1 : Nat) : Int)) ((K k).foldl max m) = textMaxAll z fuel f g3 ((k : Int) + 1) ((K k).foldl max m) by push_cast; rfl, i1]

/-- the line for text number `i` -/
def TextLine (i : Nat) (s : Str) (row : Str) : Prop := ∃ nr, words 1 row = some ([nr], DiffOpts.str "   \"" ++ s ++ DiffOpts.str "\"") ∧ IntText.IsIntStr nr (i : Int)

theorem textRows_ok {g : Gx} {l : List (Str × Int)} (hg : g.texts = some l) (h0 : ∀ p, l[0]? = some p → p.1 = []) (hl : (l.length : Int) ≤ 2147483647) (hq : ∀ p ∈ l, (10 : UInt8) ∉ p.1) (f : Nat) : ∀ k, k + f = l.length →
    ∃ rows, IsLines (textRows g f (k : Int)) rows ∧ rows.length = f ∧ ∀ (j : Nat) (p : Str × Int) (row : Str), l[k + j]? = some p → rows[j]? = some row → TextLine (k + j) p.1 row := by
  induction f with
  | zero => intro k _; exact ⟨[], isLines_nil, rfl, by intro j p row _ hr; cases hr⟩
  | succ f ih =>
    intro k hk
    obtain ⟨rows, r1, r2, r3⟩ := ih (k + 1) (by omega)
    have hlt : k < l.length := by omega
    have hget := List.getElem?_eq_getElem hlt
    generalize hp : l[k] = p at hget
    have htx : (if (k : Int) = 0 then ([] : Str) else (getElemText g (k : Int)).2.1) = p.1 := by
      by_cases hz : k = 0
      · subst hz
        rw [if_pos (by rfl), h0 p hget]
      · rw [if_neg (by omega)]
        unfold getElemText
        rw [hg]
        dsimp only
        rw [if_pos (by omega), Int.toNat_natCast, hget]
    have v := int_word (n := (k : Int)) (by omega)
    obtain ⟨q, e⟩ := padLeft_eq (intToStr (k : Int)) 6
    let row : Str := padLeft (intToStr (k : Int)) 6 ++ [32, 32, 32, 34] ++ p.1 ++ [34]
    have hrow : (10 : UInt8) ∉ row := by
      show (10 : UInt8) ∉ padLeft (intToStr (k : Int)) 6 ++ [32, 32, 32, 34] ++ p.1 ++ [34]
      rw [e]
      exact nonl_append (nonl_append (nonl_append (nonl_append (nonl_blanks _) v.2.2) (by decide)) (hq p (List.mem_of_getElem? hget))) (by decide)
    refine ⟨row :: rows, ?_, by simp [r2], ?_⟩
    · unfold textRows
      rw [htx, ← show textRows g f (((k + 1 : Nat) : Int)) = textRows g f ((k : Int) + 1) by push_cast; rfl]
      have := isLines_cons hrow r1
      simp only [row, List.append_assoc] at this ⊢
      exact this
    · intro j p' row' hp' hr
      cases j with
      | zero =>
        rw [Nat.add_zero] at hp' ⊢
        rw [hget] at hp'
        rw [List.getElem?_cons_zero] at hr
        rw [← Option.some.inj hp', ← Option.some.inj hr]
        refine ⟨_, ?_, int_is (n := (k : Int)) (by omega) (by omega)⟩
        have : row = List.replicate q 32 ++ intToStr (k : Int) ++ ([32, 32, 32, 34] ++ p.1 ++ [34]) := by
          show padLeft (intToStr (k : Int)) 6 ++ [32, 32, 32, 34] ++ p.1 ++ [34] = _
          rw [e]
          simp
        rw [this]
        exact words_step q v (Or.inl rfl) rfl
      | succ j =>
        rw [List.getElem?_cons_succ] at hr
        have := r3 j p' row' (by rw [← hp']; congr 1; omega) hr
        rw [show k + 1 + j = k + (j + 1) by omega] at this
        exact this

/-- The list of the texts, as far as the symbols below the last one can be read. -/
theorem texts_ok {z : Cz} {fuel : Nat} {a : Gx} {l : List (Str × Int)} {N : Nat} {K : Nat → List Int} (hn : (systemInfo a).1 = N) (hm : a.mode = .rInit) (hg : a.texts = some l) (h0 : l.head?.map Prod.fst = some [])
    (hl : (l.length : Int) ≤ 2147483647) (hq : ∀ p ∈ l, (10 : UInt8) ∉ p.1) (hs : ∀ i : Nat, i < N → Scans z fuel a (i : Int) (K i)) :
    ∃ g' t rows c m M, writeSetText z fuel a = .ok (g', t) ∧
      IsLines t ([DiffOpts.str "Count of set text strings in GDX: " ++ c, DiffOpts.str "max 0-based textIdx found in GDX: " ++ m, DiffOpts.str "   idx   text"] ++ rows) ∧
      IntText.IsIntStr c l.length ∧ m = intToStr M ∧ MaxText M (((List.range' 0 N).map K).flatten) ∧ rows.length = l.length ∧
      ∀ (i : Nat) (p : Str × Int) (row : Str), l[i]? = some p → rows[i]? = some row → TextLine i p.1 row := by
  have hpos : 0 < l.length := by
    cases l with
    | nil => cases h0
    | cons _ _ => simp
  have hT : ∀ n : Int, 0 ≤ n → ((getElemText a n).1 = true ↔ n < l.length) := by
    intro n hn
    unfold getElemText
    rw [hg]
    dsimp only
    rw [if_pos hn]
    by_cases hlt : n.toNat < l.length
    · rw [List.getElem?_eq_getElem hlt]
      simp
      omega
    · rw [List.getElem?_eq_none (by omega)]
      simp
      omega
  have hsearch : textSearch a 32 0 intMax = .ok ((l.length : Int) - 1) := textSearch_ok hT 31 0 intMax (by omega) (by omega) (by unfold intMax; omega) (by unfold intMax; norm_num)
  obtain ⟨g', m1, m2, m3⟩ := textMaxAll_ok (z := z) (fuel := fuel) (a := a) (K := K) N 0 (fun i _ hi => hs i (by omega)) a rfl hm 0
  rw [Nat.cast_zero] at m1
  have hmax := foldl_maxText (ks := ((List.range' 0 N).map K).flatten) (m := 0) (l := []) ⟨Int.le_refl _, by simp, Or.inl rfl⟩
  rw [List.nil_append] at hmax
  generalize hM : (((List.range' 0 N).map K).flatten).foldl max 0 = M at m1 hmax
  have hg' : g'.texts = some l := by rw [show g'.texts = a.texts from congrArg Fixed.texts m2, hg]
  obtain ⟨rows, r1, r2, r3⟩ := textRows_ok hg' (by
    intro p hp
    cases l with
    | nil => cases hp
    | cons x l =>
      cases hp
      simpa using h0) hl hq l.length 0 (by omega)
  rw [Nat.cast_zero] at r1
  have hc := int_word (n := (l.length : Int)) (by omega)
  refine ⟨g', _, rows, intToStr (l.length : Int), intToStr M, M, ?_, isLines_cons (nonl_append (by decide) hc.2.2) (isLines_cons (nonl_append (by decide) (int_word hmax.1).2.2) (isLines_cons (by decide) r1)),
    int_is (by omega) hl, rfl, hmax, r2, ?_⟩
  · unfold writeSetText
    rw [if_neg, hsearch, Res.bind_ok, hn, Int.toNat_natCast, m1, Res.bind_ok]
    · dsimp only
      rw [show (l.length : Int) - 1 + 1 = l.length by omega, Int.toNat_natCast]
      show Res.ok _ = Res.ok _
      congr 2
      rw [show sTextHead = DiffOpts.str "   idx   text" ++ [10] from rfl, show DiffOpts.str "Count of set text strings in GDX: " = sTextCount from rfl,
        show DiffOpts.str "max 0-based textIdx found in GDX: " = sTextMax from rfl]
      simp only [List.append_assoc]
    · rintro (h | h)
      · rw [(hT 0 (by omega)).mpr (by omega)] at h
        cases h
      · have := (hT intMax (by unfold intMax; omega)).mp h
        unfold intMax at this
        omega
  · intro i p row hp hr
    have := r3 i p row (by rw [Nat.zero_add]; exact hp) hr
    rw [Nat.zero_add] at this
    exact this

/-! ## files of the library -/

theorem own_domains {e : Env} {z : Cz} (hz : z.Good) {g : Gx} {syms : List Sym} {R : Nat → List RawEntry} {f : List UInt8} (h : OwnFile e z g syms R f) :
    ∃ a P dl, openRead z Gx.new (.content f) = .ok (a, (true, 0)) ∧ g.domStrs = some dl ∧ Domains a syms dl ∧ Content z a (contentOf syms R) P ∧ a.names = some (syms.map Sym.reopened) ∧
      Reopened 0 g f a := by
  obtain ⟨a, P, a1, a2, a3, a4⟩ := h.content hz
  have fi := h.hist.fine hz
  have hsyms := fi.inv.tab.syms syms h.full.names
  obtain ⟨g', k, hcl, rfl⟩ := h.close
  obtain ⟨a', b1, b2, b3⟩ := close_open hz fi.inv h.mode (fi.stat h.mode) hcl h.fits h.len Gx.new rfl 0
  rw [show openReadXX z Gx.new (.content g'.file) 0 = openRead z Gx.new (.content g'.file) from rfl, a1] at b1
  cases b1
  obtain ⟨dl, dl1, dl2⟩ := b2.doms
  have hat : ∀ {k : Nat} {y : Sym}, syms[k]? = some y → a.symAt ((k : Int) + 1) = some y.reopened := by
    intro k y hk
    have hlt := (List.getElem?_eq_some_iff.mp hk).1
    unfold Gx.symAt
    rw [a3]
    simp only [List.length_map]
    rw [if_pos (by omega), show ((k : Int) + 1 - 1).toNat = k by omega, List.getElem?_map, hk]
    rfl
  refine ⟨a, P, dl, a1, dl1, ⟨⟨?_, (h.fits.syms syms h.full.names).1, ?_, ?_, ?_⟩, ?_⟩, a2, a3, b2⟩
  · unfold systemInfo
    rw [a3]
    simp
  · intro n s hs
    unfold symbolInfo symbolInfoX
    rw [if_neg (by omega), if_neg (by omega), hat hs]
    exact ⟨rfl, rfl⟩
  · exact hsyms.distinct.imp fun hab heq => hab (by rw [heq]; exact sameName_refl _ _)
  · intro s hs
    obtain ⟨k, hk⟩ := List.getElem?_of_mem hs
    have hok := hsyms.each k s hk
    exact ⟨hok.good, hok.typ, hok.dim, hok.cnt, hok.expl.2.2⟩
  · intro n s hs
    have hok := hsyms.each n s hs
    have hs' : (syms.map Sym.reopened)[n]? = some s.reopened := by rw [List.getElem?_map, hs]; rfl
    have hx := getDomainX_of a3 hs'
    have hnames : ((syms.map Sym.reopened).map Sym.name) = syms.map Sym.name := by
      rw [List.map_map]
      rfl
    have hgood : ∀ x ∈ syms.map Sym.name, isGoodIdent x = true := by
      intro x hx
      obtain ⟨t, ht, rfl⟩ := List.mem_map.mp hx
      obtain ⟨k, hk⟩ := List.getElem?_of_mem ht
      exact (hsyms.each k t hk).good
    unfold domainXOf at hx
    rw [show s.reopened.domStrs = s.domStrs from rfl, show s.reopened.domSyms = s.domSyms from rfl, hnames, dl2] at hx
    unfold DomainOf
    cases hds : s.domStrs with
    | some ds =>
      obtain ⟨k1, k2⟩ := hok.dst ds hds
      unfold Gx.nDom at k2
      rw [dl1] at k2
      obtain ⟨r, r1, r2⟩ := namesAt_ok (fun x hx => isGoodIdent_len (fi.inv.dom dl dl1 x hx)) ds k2
      rw [hds] at hx
      simp only [need, Res.bind_ok, r1, Res.pure_eq] at hx
      refine ⟨2, r, hx, by rw [r2, k1], ⟨rfl, (namesAt_each ds r r1).imp ?_⟩, ?_⟩
      · intro d t ht
        split at ht
        · rename_i hd
          rw [if_pos hd, ht]
          rfl
        · rename_i hd
          rw [if_neg hd]
          obtain ⟨q1, q2, q3⟩ := at1_ok ht
          exact ⟨by omega, q3⟩
      · intro t ht
        obtain ⟨d, _, hd⟩ := forall₂_mem (namesAt_each ds r r1) t ht
        split at hd
        · exact Or.inl hd
        · exact Or.inr (fi.inv.dom dl dl1 t (List.mem_of_getElem? (at1_ok hd).2.2))
    | none =>
      rw [hds] at hx
      cases hdy : s.domSyms with
      | none =>
        rw [hdy] at hx
        simp only [Res.bind_ok, Res.pure_eq] at hx
        exact ⟨1, _, hx, by simp; rfl, ⟨rfl, rfl⟩, fun x hx => Or.inl (List.eq_of_mem_replicate hx)⟩
      | some ds =>
        obtain ⟨k1, k2⟩ := hok.dsy ds hdy
        obtain ⟨r, r1, r2⟩ := namesAt_ok (l := syms.map Sym.name) (fun x hx => isGoodIdent_len (hgood x hx)) ds (by rw [List.length_map]; exact k2)
        rw [hdy] at hx
        simp only [r1, Res.bind_ok, Res.pure_eq] at hx
        refine ⟨3, r, hx, by rw [r2, k1], ⟨rfl, (namesAt_each ds r r1).imp ?_⟩, ?_⟩
        · intro d t ht
          split at ht
          · rename_i hd
            rw [if_pos hd, ht]
            rfl
          · rename_i hd
            rw [if_neg hd]
            obtain ⟨q1, q2, q3⟩ := at1_ok ht
            rw [List.getElem?_map] at q3
            obtain ⟨q, q4, q5⟩ := Option.map_eq_some_iff.mp q3
            exact ⟨by omega, q, q4, q5.symm⟩
        · intro t ht
          obtain ⟨d, _, hd⟩ := forall₂_mem (namesAt_each ds r r1) t ht
          split at hd
          · exact Or.inl hd
          · exact Or.inr (hgood t (List.mem_of_getElem? (at1_ok hd).2.2))

/-- C81, Symbols, for every file of the library: after the header there is one line per symbol, in the order of the names, with the number of the line, the name, the dimension, the type, the number of records
    and the text. All texts begin below the header, except for aliases, whose text begins one column further to the right (`Alias` has five letters, the column four). -/
theorem C81_symbols_partial {e : Env} {z : Cz} (hz : z.Good) {g : Gx} {syms : List Sym} {R : Nat → List RawEntry} {f : List UInt8} (h : OwnFile e z g syms R f) :
    ∃ a t head rows, ∃ order : List (Sym × Nat), openRead z Gx.new (.content f) = .ok (a, (true, 0)) ∧ writeSymbolInfo a = .ok t ∧ IsLines t (head :: rows) ∧
      order.Perm syms.zipIdx ∧ ByName order ∧ rows.length = order.length ∧
      words 6 head = some ([DiffOpts.str "Symbol", DiffOpts.str "Dim", DiffOpts.str "Type", DiffOpts.str "Records", DiffOpts.str "Explanatory", DiffOpts.str "text"], []) ∧
      ∀ (i : Nat) (x : Sym × Nat) (row : Str), order[i]? = some x → rows[i]? = some row → InfoLine i x.1 row ∧
        row.length + 16 = head.length + x.1.expl.length + if x.1.typ = dtAlias then 1 else 0 := by
  obtain ⟨a, _, _, a1, _, a3, _⟩ := own_domains hz h
  obtain ⟨t, head, rows, order, r⟩ := symbols_ok a3.toListed
  exact ⟨a, t, head, rows, order, a1, r⟩

/-- C81, DomainInfo, for every file of the library: after the header there is one line per symbol, in the order of the names, with its number, its type, the kind of its domain, the name and the domains; all
    names begin below the header. -/
theorem C81_domains {e : Env} {z : Cz} (hz : z.Good) {g : Gx} {syms : List Sym} {R : Nat → List RawEntry} {f : List UInt8} (h : OwnFile e z g syms R f) :
    ∃ a t dl head rows, ∃ order : List (Sym × Nat), openRead z Gx.new (.content f) = .ok (a, (true, 0)) ∧ g.domStrs = some dl ∧ writeDomainInfo a = .ok (a, t) ∧ IsLines t (head :: rows) ∧
      order.Perm syms.zipIdx ∧ ByName order ∧ List.Forall₂ (DomLine syms dl (head.length - 6)) order rows ∧
      words 4 head = some ([DiffOpts.str "SyNr", DiffOpts.str "Type", DiffOpts.str "DomInf", DiffOpts.str "Symbol"], []) := by
  obtain ⟨a, _, dl, a1, a2, a3, _⟩ := own_domains hz h
  obtain ⟨t, head, rows, order, r⟩ := domains_ok a3
  exact ⟨a, t, dl, head, rows, order, a1, a2, r⟩

/-- C81, SymbolsAsSetDI, for every file of the library with a symbol: the list, from the slash on, is read as one entry per symbol in the order of the file: name, dimension, type, and the domains, or a remark
    if they have more than 63 characters. -/
theorem C81_set {e : Env} {z : Cz} (hz : z.Good) {g : Gx} {syms : List Sym} {R : Nat → List RawEntry} {f : List UInt8} (h : OwnFile e z g syms R f) (h0 : syms ≠ []) :
    ∃ a t dl es, openRead z Gx.new (.content f) = .ok (a, (true, 0)) ∧ g.domStrs = some dl ∧ symbolsAsSetDI a = .ok (a, 47 :: t) ∧ dataList 4 t = some (es, [59, 10]) ∧
      List.Forall₂ (ItemOf syms dl) syms es := by
  obtain ⟨a, _, dl, a1, a2, a3, _⟩ := own_domains hz h
  obtain ⟨t, es, r⟩ := itemsDI_all a3 h0
  exact ⟨a, t, dl, es, a1, a2, r⟩

theorem scans_universe {z : Cz} {a : Gx} (ha : Fresh a) {syms : List Sym} (hn : a.names = some syms) (hu : 0 ≤ a.uelOrig ∧ a.uelOrig < intMax) {fuel : Nat} (hf : a.uelOrig < fuel) :
    Scans z fuel a 0 (List.replicate a.uelOrig.toNat 0) := by
  refine Or.inr ⟨rfl, fun g hg hm m => ?_⟩
  have ho : g.uelOrig = a.uelOrig := congrArg Fixed.orig hg
  have hgn : g.nrMapped = 0 := (congrArg Fixed.nrm hg).trans ha.nrm
  have hga : g.nextAuto ≤ 0 := by rw [show g.nextAuto = a.nextAuto from congrArg Fixed.auto hg]; exact ha.auto
  obtain ⟨g1, outs, g2, s1, s2, s3, s4, s5⟩ := C43_universe z g hm (by rw [show g.filters = a.filters from congrArg Fixed.filt hg, ha.filt]; rfl) (by rw [ho]; exact hu) 0
    ⟨syms, (congrArg Fixed.names hg).trans hn, by omega, by omega, rfl⟩
  have f1 := (dataReadRawStart_fix hga hgn s1).1.trans hg
  have ha1 : g1.nextAuto ≤ 0 := by rw [show g1.nextAuto = a.nextAuto from congrArg Fixed.auto f1]; exact ha.auto
  have hn1 : g1.nrMapped = 0 := (congrArg Fixed.nrm f1).trans ha.nrm
  have f2 := delivers_fixed s2 ha1 hn1
  have hn2 : g2.nrMapped = 0 := (congrArg Fixed.nrm f2).trans hn1
  have hdone := dataReadDone_plain (g := g2) (by rw [s3]; simp) hn2
  have hk : TextNrs outs (List.replicate a.uelOrig.toNat 0) := by
    rw [show a.uelOrig.toNat = outs.length by omega]
    unfold TextNrs
    rw [List.forall₂_iff_get]
    refine ⟨by simp, fun i h1 h2 => ⟨Dbl.zero, [], ?_, ?_⟩⟩
    · have := s5 i outs[i] (List.getElem?_eq_getElem h1)
      rw [List.get_eq_getElem, this]
    · rw [List.get_eq_getElem, List.getElem_replicate]
      decide +kernel
  exact ⟨g1, g2, _, _, true, s1, textMax_ok s2 hk m fuel (by omega), hdone, (f2.trans f1 : g2.fixed = a.fixed), rfl⟩

theorem scans_set {z : Cz} (hz : z.Good) {a : Gx} (ha : Fresh a) {nr : Int} {d : SymDesc} {xs : List RawEntry} (h : HoldsSym z a nr d xs) (ht : (symbolInfo a nr).typ = dtSet) {ks : List Int}
    (hk : ∀ outs, Delivered a.rsv (acrOf a) d xs outs → TextNrs outs ks) {fuel : Nat} (hf : xs.length < fuel) : Scans z fuel a nr ks := by
  refine Or.inr ⟨ht, fun g hgf hgm m => ?_⟩
  obtain ⟨_, ld, tg⟩ := h.sym
  obtain ⟨outs, o1, _⟩ := ld.reads hz tg
  obtain ⟨outs', o1', ⟨g1, g2, s1, s2, s3, _⟩, _⟩ := (loaded_idle ld hgf).reads hz (targets_fixed tg hgf)
  have hrsv : (idle g).rsv = a.rsv := congrArg Fixed.rsv hgf
  have hacf : acrOf (idle g) = acrOf a := by
    have e1 : (idle g).acros = a.acros := congrArg Fixed.acros hgf
    have e2 : (idle g).acrNaN = a.acrNaN := congrArg Fixed.nan hgf
    unfold acrOf plainRemap
    have e3 : (idle g).sv = a.sv := congrArg Fixed.sv hgf
    simp only [e1, e2, e3]
  rw [hrsv, hacf] at o1'
  have hou := Delivered.unique ld.sv o1 o1'
  subst hou
  have hgn : g.nrMapped = 0 := (congrArg Fixed.nrm hgf).trans ha.nrm
  have hga : g.nextAuto ≤ 0 := by rw [show g.nextAuto = a.nextAuto from congrArg Fixed.auto hgf]; exact ha.auto
  rw [← rawStart_idle (Or.inl hgm) hgn] at s1
  have f1 := (dataReadRawStart_fix hga hgn s1).1.trans hgf
  have ha1 : g1.nextAuto ≤ 0 := by rw [show g1.nextAuto = a.nextAuto from congrArg Fixed.auto f1]; exact ha.auto
  have hn1 : g1.nrMapped = 0 := (congrArg Fixed.nrm f1).trans ha.nrm
  have f2 := delivers_fixed s2 ha1 hn1
  have hn2 : g2.nrMapped = 0 := (congrArg Fixed.nrm f2).trans hn1
  have hdone := dataReadDone_plain (g := g2) (by rw [s3]; simp) hn2
  obtain ⟨_, hlen⟩ := vals_length h o1
  exact ⟨g1, g2, _, _, true, s1, textMax_ok s2 (hk outs o1) m fuel (by omega), hdone, (f2.trans f1 : g2.fixed = a.fixed), rfl⟩

/-- C81, SetText, for files of the library: the number of the texts, the greatest number of a text that a record of a set holds, and every text with its number. What is missing: the last symbol of the file is not
    looked at (`C81_last`); the first text must be empty (it is, in a file that the library has written from the start, C33), there are less than 2147483647 elements, and the values of the sets are numbers. -/
theorem C81_texts_partial {e : Env} {z : Cz} (hz : z.Good) {g : Gx} {syms : List Sym} {R : Nat → List RawEntry} {f : List UInt8} (h : OwnFile e z g syms R f) (h0 : ZeroEmpty g)
    (hu : ∀ u, g.uel = some u → u.ents.length < 2147483647) :
    ∃ a l, openRead z Gx.new (.content f) = .ok (a, (true, 0)) ∧ g.texts = some l ∧ ∀ (K : Nat → List Int) (fuel : Nat),
      (∀ n s, n + 1 < syms.length → syms[n]? = some s → s.typ = 0 → (contentOf syms R ((n : Int) + 1)).2.length < fuel ∧
        ∀ outs, Delivered SVTab.default (acrOf a) (contentOf syms R ((n : Int) + 1)).1 (contentOf syms R ((n : Int) + 1)).2 outs → TextNrs outs (K n)) →
      (∀ u, g.uel = some u → u.ents.length < fuel) →
      ∃ g' t c m M, ∃ rows : List Str, writeSetText z fuel a = .ok (g', t) ∧
        IsLines t ([DiffOpts.str "Count of set text strings in GDX: " ++ c, DiffOpts.str "max 0-based textIdx found in GDX: " ++ m, DiffOpts.str "   idx   text"] ++ rows) ∧
        IntText.IsIntStr c l.length ∧ m = intToStr M ∧
        0 ≤ M ∧ (∀ n s k, n + 1 < syms.length → syms[n]? = some s → s.typ = 0 → k ∈ K n → k ≤ M) ∧ (M = 0 ∨ ∃ n s, n + 1 < syms.length ∧ syms[n]? = some s ∧ s.typ = 0 ∧ M ∈ K n) ∧
        rows.length = l.length ∧ ∀ (i : Nat) (p : Str × Int) (row : Str), l[i]? = some p → rows[i]? = some row → TextLine i p.1 row := by
  obtain ⟨a, P, dl, a1, a2, a3, a4, a5, b2⟩ := own_domains hz h
  have fi := h.hist.fine hz
  obtain ⟨l, l1, l2⟩ := b2.texts (by decide)
  obtain ⟨u, u1, _, u3⟩ := b2.uel
  have hur := hu u u1
  have hsv := b2.sv
  refine ⟨a, l, a1, l1, fun K fuel hK hfu => ?_⟩
  have hfu := hfu u u1
  let K' : Nat → List Int := fun i => match i with
    | 0 => List.replicate a.uelOrig.toNat 0
    | n + 1 => match syms[n]? with
      | some s => if s.typ = 0 then K n else []
      | none => []
  have hscan : ∀ i : Nat, i < syms.length → Scans z fuel a (i : Int) (K' i) := by
    intro i hi
    cases i with
    | zero => exact scans_universe a4.fresh a5 (by rw [u3]; unfold intMax; omega) (by rw [u3]; omega)
    | succ n =>
      have hn : n < syms.length := by omega
      have hs := List.getElem?_eq_getElem hn
      have hinf := (a3.info n _ hs).1
      have e1 : K' (n + 1) = if (syms[n]).typ = 0 then K n else [] := by
        show (match syms[n]? with | some s => if s.typ = 0 then K n else [] | none => []) = _
        rw [hs]
      rw [e1, show ((n + 1 : Nat) : Int) = (n : Int) + 1 by omega]
      by_cases ht : (syms[n]).typ = 0
      · rw [if_pos ht]
        obtain ⟨k1, k2⟩ := hK n _ hi hs ht
        refine scans_set hz a4.fresh (a4.holds ((n : Int) + 1) ?_) (by rw [hinf]; exact ht) (fun outs ho => k2 outs (by rw [← hsv.2]; exact ho)) k1
        unfold Gx.symAt
        rw [a5]
        simp only [List.length_map]
        rw [if_pos (by omega), show ((n : Int) + 1 - 1).toNat = n by omega, List.getElem?_map, hs]
        rfl
      · rw [if_neg ht]
        exact Or.inl ⟨by rw [hinf]; exact ht, rfl⟩
  obtain ⟨g', t, rows, c, m, M, r1, r2, r3, r4, ⟨r5, r6, r7⟩, r8, r9⟩ := texts_ok (z := z) (fuel := fuel) (N := syms.length) (K := K') a3.len a4.fresh.mode l2 (by
      have := h0 l l1
      cases l with
      | nil => cases this
      | cons x l => simpa using this) (by rw [List.length_map]; exact h.fits.texts l l1) (by
      intro p hp
      obtain ⟨y, hy, rfl⟩ := List.mem_map.mp hp
      obtain ⟨_, _, y2⟩ := (fi.inv.txt l l1).zfree y hy
      exact fun hc => absurd (y2.1 10 hc) (by decide)) hscan
  rw [List.length_map] at r3 r8
  refine ⟨g', t, c, m, M, rows, r1, r2, r3, r4, r5, ?_, ?_, r8, ?_⟩
  · intro n s k hn hs ht hk
    apply r6
    rw [List.mem_flatten]
    refine ⟨K n, List.mem_map.mpr ⟨n + 1, List.mem_range'_1.mpr (by omega), ?_⟩, hk⟩
    show (match syms[n]? with | some s => if s.typ = 0 then K n else [] | none => []) = _
    rw [hs]
    exact if_pos ht
  · rcases r7 with r7 | r7
    · exact Or.inl r7
    · rw [List.mem_flatten] at r7
      obtain ⟨ks, hks, hM⟩ := r7
      obtain ⟨i, hi, rfl⟩ := List.mem_map.mp hks
      rw [List.mem_range'_1] at hi
      cases i with
      | zero => exact Or.inl (List.eq_of_mem_replicate hM)
      | succ n =>
        have hn : n < syms.length := by omega
        have hs := List.getElem?_eq_getElem hn
        have hM' : M ∈ (match syms[n]? with | some s => if s.typ = 0 then K n else [] | none => []) := hM
        rw [hs] at hM'
        dsimp only at hM'
        by_cases ht : (syms[n]).typ = 0
        · rw [if_pos ht] at hM'
          exact Or.inr ⟨n, _, by omega, hs, ht, hM'⟩
        · rw [if_neg ht] at hM'
          cases hM'
  · intro i p row hp hr
    exact r9 i (p.1, 0) row (by rw [List.getElem?_map, hp]; rfl) hr

/-! ## examples -/

/-- the object that has opened the file that the calls write -/
def openOf (cs : List Call) : Res Gx := do
  let f ← fileOf cs
  let (a, _) ← openRead Cz.id Gx.new (.content f)
  pure a

/-- the list with these lines -/
def linesOf (ls : List Str) : Str := (ls.map (· ++ [10])).flatten

/-- C81, Symbols: the line of the alias is shifted by one column against the header and the other lines. -/
theorem C81_alias : (openOf exDumpAll).bind writeSymbolInfo = .ok (linesOf [
      DiffOpts.str "  Symbol Dim Type Records  Explanatory text",
      DiffOpts.str "1 i        1  Set       2  the set",
      DiffOpts.str "2 j        1 Alias       0  Aliased with i",
      DiffOpts.str "3 p        2  Par       2  5/6",
      DiffOpts.str "4 q        1  Par       0  ",
      DiffOpts.str "5 s        0  Par       1  (one)",
      DiffOpts.str "6 v        0  Var       1  "]) := by decide +kernel

example : (openOf exDumpAll).bind (fun a => (writeDomainInfo a).bind fun x => .ok x.2) = .ok (linesOf [
      DiffOpts.str "SyNr  Type  DomInf Symbol",
      DiffOpts.str "   1   Set    None i(*)",
      DiffOpts.str "   5 Alias    None j(*)",
      DiffOpts.str "   2   Par Regular p(i, *)",
      DiffOpts.str "   6   Par    None q(*)",
      DiffOpts.str "   4   Par    None s",
      DiffOpts.str "   3   Var    None v"]) := by decide +kernel

example : (openOf exDumpAll).bind (fun a => (symbolsAsSetDI a).bind fun x => .ok x.2) = .ok (linesOf [
      DiffOpts.str "/",
      DiffOpts.str "\"i\".1.\"Set\".\"*\",",
      DiffOpts.str "\"p\".2.\"Par\".\"i, *\",",
      DiffOpts.str "\"v\".0.\"Var\".\"\",",
      DiffOpts.str "\"s\".0.\"Par\".\"\",",
      DiffOpts.str "\"j\".1.\"Alias\".\"*\",",
      DiffOpts.str "\"q\".1.\"Par\".\"*\"",
      DiffOpts.str "/;"]) := by decide +kernel

/-- the texts; text 1 belongs to an element of the set, which is not the last symbol -/
example : (openOf exDumpAll).bind (fun a => (writeSetText Cz.id 100 a).bind fun x => .ok x.2) = .ok (linesOf [
      DiffOpts.str "Count of set text strings in GDX: 2",
      DiffOpts.str "max 0-based textIdx found in GDX: 1",
      DiffOpts.str "   idx   text",
      DiffOpts.str "     0   \"\"",
      DiffOpts.str "     1   \"it's\""]) := by decide +kernel

/-- C81, SetText: the same set alone in the file is the last symbol, and the number of its text is not found. -/
theorem C81_last : (openOf (exGams.take 6)).bind (fun a => (writeSetText Cz.id 100 a).bind fun x => .ok x.2) = .ok (linesOf [
      DiffOpts.str "Count of set text strings in GDX: 2",
      DiffOpts.str "max 0-based textIdx found in GDX: 0",
      DiffOpts.str "   idx   text",
      DiffOpts.str "     0   \"\"",
      DiffOpts.str "     1   \"it's\""]) ∧
    (openOf (exGams.take 6)).bind (fun a => (dataReadRawStart Cz.id a 1).bind fun x => (dataReadRaw x.1).bind fun y => .ok (y.2.map RecOut.vals)) = .ok (some [0x3ff0000000000000]) := by decide +kernel

#print axioms C81_symbols_partial
#print axioms C81_domains
#print axioms C81_set
#print axioms C81_texts_partial
#print axioms C81_alias
#print axioms C81_last

end Gdx.Props
