import Verif.Proofs.Kept

/-!
Reading the records of a stored symbol.
-/

namespace Gdx

open Spec

/-! ### values -/

/-- the index delivered for a stored acronym index when no new indices are given out -/
def plainIndex (l : List Acr) (n : Int) : Int :=
  match acrFind l n with
  | none => n
  | some k => match l[k]? with
    | some a => if a.readMap > 0 then a.readMap else n
    | none => n

/-- the value delivered for a stored value ≥ 1e301 when no new indices are given out -/
def plainRemap (g : Gx) (d : Dbl) : Dbl :=
  if d = Dbl.posInf then g.sv.pin
  else if g.acrNaN then g.sv.na
  else match acrDiv d with
    | .ok n => acrValue (plainIndex (g.acros.getD []) n)
    | .ub => d

theorem remapIndex_plain {g : Gx} {l : List Acr} (ha : g.acros = some l) (hn : g.nextAuto ≤ 0) (n : Int) :
    remapIndex g n = .ok (g, plainIndex l n) := by
  unfold remapIndex plainIndex
  rw [ha]
  simp only [need, Res.bind_ok]
  cases hf : acrFind l n with
  | none => simp only [if_pos hn]; rfl
  | some k =>
    have hk : k < l.length := by
      unfold acrFind at hf
      exact (List.findIdx?_eq_some_iff_getElem.mp hf).1
    have h0 : at0 l (k : Int) = .ok l[k] := by
      unfold at0
      rw [if_pos (by omega), Int.toNat_natCast, List.getElem?_eq_getElem hk]
    simp only [h0, List.getElem?_eq_getElem hk, Res.bind_ok]
    split
    · rfl
    · rfl

theorem readVal_plain {g : Gx} {l : List Acr} (ha : g.acros = some l) (hn : g.nextAuto ≤ 0) (v : SVal) :
    readVal g v = .ok (g, loadVal g.rsv (plainRemap g) v) := by
  cases v with
  | code c => rfl
  | num d =>
    unfold readVal loadVal
    by_cases h : geAcr d = true
    · simp only [if_pos h]
      unfold acronymRemap plainRemap
      split
      · rfl
      · rename_i hd
        split
        · rfl
        · have : ∃ n, acrDiv d = .ok n := ⟨_, by unfold acrDiv; rw [if_neg hd]⟩
          obtain ⟨n, hn'⟩ := this
          rw [hn']
          simp only [Res.bind_ok, remapIndex_plain ha hn, ha]
          rfl
    · simp only [if_neg h]

theorem readVals_plain {g : Gx} {l : List Acr} (ha : g.acros = some l) (hn : g.nextAuto ≤ 0) (vs : List SVal) :
    readVals g vs = .ok (g, vs.map (loadVal g.rsv (plainRemap g))) := by
  induction vs with
  | nil => rfl
  | cons v vs ih =>
    unfold readVals
    rw [readVal_plain ha hn]
    simp only [Res.bind_ok, ih]
    rfl

/-! ### one record after the other -/

/-- how values are delivered -/
structure Loads where
  rsv : SVTab
  remap : Dbl → Dbl

def Gx.loads (g : Gx) : Loads := ⟨g.rsv, plainRemap g⟩

def Loads.val (l : Loads) (v : SVal) : Dbl := loadVal l.rsv l.remap v

/-- The object reads the symbol `m` (from 0), described by `s`; the last key read is `p`, the records `rs` are still to come. -/
structure At (g : Gx) (m : Nat) (s : Sym) (p : Option (List Int)) (rs : List Rec) : Prop where
  uni : g.rdUniverse = false
  cur : g.cur = .sym (m + 1)
  sym : ∃ syms, g.names = some syms ∧ syms[m]? = some s
  dim : s.dim = g.curDim ∧ 0 ≤ g.curDim ∧ g.curDim ≤ 20
  scal : g.scalarFrst = false
  delta : g.deltaRead = g.nd
  rest : ∃ out t, g.rest = out ++ 255 :: t ∧ Enc g.nd g.nd g.dataSize (g.bounds.map posDesc) p rs out
  last : g.last.length = g.nd ∧ ∀ l, p = some l → g.last = l
  acros : g.acros.isSome = true
  auto : g.nextAuto ≤ 0
  text : g.mapText = none
  nrm : g.nrMapped = 0

theorem At.curSym {g : Gx} {m : Nat} {s : Sym} {p : Option (List Int)} {rs : List Rec} (h : At g m s p rs) : g.curSym = .ok s := by
  obtain ⟨syms, h1, h2⟩ := h.sym
  unfold Gx.curSym
  rw [h.cur, h1]
  simp only [need, Res.bind_ok]
  rw [show ((m + 1 : Nat) : Int) = (m : Int) + 1 by push_cast; rfl]
  exact at1_nat h2

theorem At.nd_lt {g : Gx} {m : Nat} {s : Sym} {p : Option (List Int)} {rs : List Rec} (h : At g m s p rs) : g.nd < 255 := by
  have := h.dim
  unfold Gx.nd
  omega

/-- the next record -/
theorem At.next {g : Gx} {m : Nat} {s : Sym} {p : Option (List Int)} {r : Rec} {rs : List Rec} (h : At g m s p (r :: rs)) :
    ∃ x, doRead g = .ok ({ g with rest := x, last := r.key }, some (dimFrst g.nd p r.key, r.vals.map g.loads.val)) ∧
      At { g with rest := x, last := r.key } m s (some r.key) rs ∧ r.key.length = g.nd := by
  obtain ⟨out, t, h1, h2⟩ := h.rest
  have hfit := h2.fits r (by simp)
  obtain ⟨out', h3, h4⟩ := h2.dec
  obtain ⟨l, hl⟩ := Option.isSome_iff_exists.mp h.acros
  refine ⟨out' ++ 255 :: t, ?_, ?_, hfit.1⟩
  · unfold doRead
    rw [h.uni]
    simp only [Bool.false_eq_true, if_false, h.curSym, Res.bind_ok, h.scal, rdOk]
    rw [h.delta, h1, h4 g.last _ h.last.1 h.last.2]
    simp only [need, Res.bind_ok]
    rw [readVals_plain (l := l)]
    · simp only [Res.bind_ok, remapTexts, h.text]
      rfl
    · exact hl
    · exact h.auto
  · exact ⟨h.uni, h.cur, h.sym, h.dim, h.scal, h.delta, ⟨out', t, rfl, h3⟩, ⟨hfit.1, by rintro l ⟨⟩; rfl⟩, h.acros, h.auto, h.text, h.nrm⟩

/-- no more records -/
theorem At.done {g : Gx} {m : Nat} {s : Sym} {p : Option (List Int)} (h : At g m s p []) :
    ∃ x, doRead g = .ok ({ g with rest := x }, none) := by
  obtain ⟨out, t, h1, h2⟩ := h.rest
  cases h2
  refine ⟨t, ?_⟩
  unfold doRead
  rw [h.uni]
  simp only [Bool.false_eq_true, if_false, h.curSym, Res.bind_ok, h.scal, rdOk]
  rw [h.delta, h1, List.nil_append, Enc.decEnd h.nd_lt]
  rfl

/-- the records as they must be delivered by the raw reader -/
def rawOuts (l : Loads) (d : Nat) : Option (List Int) → List Rec → List (RecOut Int)
  | _, [] => []
  | p, r :: rs => ⟨r.key, r.vals.map l.val, dimFrst d p r.key⟩ :: rawOuts l d (some r.key) rs

/-- Repeated calls of gdxDataReadRaw deliver exactly these records and then "no more". -/
inductive DeliversRaw : Gx → List (RecOut Int) → Gx → Prop
  | done {g g' : Gx} (h : dataReadRaw g = .ok (g', none)) : DeliversRaw g [] g'
  | next {g g1 g' : Gx} {r : RecOut Int} {rs : List (RecOut Int)} (h : dataReadRaw g = .ok (g1, some r)) (hr : DeliversRaw g1 rs g') :
      DeliversRaw g (r :: rs) g'

theorem dataReadDone_plain {g : Gx} (hm : g.mode ∈ [Mode.rInit, .rRaw, .rMap, .rMapR, .rStr, .rSlice]) (hn : g.nrMapped = 0) :
    dataReadDone g = .ok ({ g with sort := none, cur := .none, mode := .rInit }, true) := by
  unfold dataReadDone
  rcases chk_cases ({ g with sort := none, cur := .none } : Gx) [.rInit, .rRaw, .rMap, .rMapR, .rStr, .rSlice] with ⟨_, hc⟩ | ⟨hc, _⟩
  · simp only [hc, Bool.true_eq_false, if_false]
    rw [if_neg (by simp [hn])]
    rfl
  · exact absurd hm hc

/-- what a read that is finished leaves -/
def readEnd (g : Gx) (rest : List UInt8) (last : List Int) : Gx :=
  { g with
    rest := rest
    last := last
    sort := none
    cur := .none
    mode := .rInit }

theorem At.raw {m : Nat} {s : Sym} : ∀ (rs : List Rec) {g : Gx} {p : Option (List Int)}, At g m s p rs → g.mode = .rRaw →
    ∃ x l, DeliversRaw g (rawOuts g.loads g.nd p rs) (readEnd g x l)
  | [], g, p, h, hm => by
    obtain ⟨x, hx⟩ := h.done
    refine ⟨x, g.last, .done ?_⟩
    unfold dataReadRaw
    rcases chk_cases g [.rRaw] with ⟨_, hc⟩ | ⟨hc, _⟩
    · simp only [hc, Bool.true_eq_false, if_false, hx, Res.bind_ok]
      rw [dataReadDone_plain]
      · rfl
      · simp [hm]
      · exact h.nrm
    · exact absurd (by simp [hm]) hc
  | r :: rs, g, p, h, hm => by
    obtain ⟨x, hx, h1, h2⟩ := h.next
    obtain ⟨y, l, hy⟩ := At.raw rs h1 hm
    refine ⟨y, l, .next ?_ hy⟩
    unfold dataReadRaw
    rcases chk_cases g [.rRaw] with ⟨_, hc⟩ | ⟨hc, _⟩
    · simp only [hc, Bool.true_eq_false, if_false, hx, Res.bind_ok]
      rw [show ({ g with rest := x, last := r.key } : Gx).nd = g.nd from rfl, ← h2, List.take_length]
      rfl
    · exact absurd (by simp [hm]) hc

/-! ### strings -/

/-- the string delivered for an element number -/
def strOut (u : Uel) (e : Int) : Str := if 1 ≤ e then ((u.ents.map Prod.fst)[(e - 1).toNat]?).getD (badUelPrefix ++ intToStr e)
  else badUelPrefix ++ intToStr e

theorem elemStr_out {u : Uel} (hu : ∀ x ∈ u.ents, x.1.length < 64) (e : Int) : elemStr (some u) e = .ok (strOut u e) := by
  unfold elemStr strOut
  by_cases h : 1 ≤ e ∧ e ≤ u.size
  · obtain ⟨n, rfl⟩ : ∃ n : Nat, e = (n : Int) + 1 := ⟨(e - 1).toNat, by omega⟩
    have hn : n < u.ents.length := by have := h.2; unfold Uel.size at this; omega
    simp only [if_pos h, Uel.str, at1_nat (List.getElem?_eq_getElem hn), Res.bind_ok, Res.pure_eq]
    rw [if_neg (by have := hu _ (List.getElem_mem hn); omega), if_pos h.1]
    simp [hn]
  · simp only [if_neg h]
    by_cases h1 : 1 ≤ e
    · rw [if_pos h1]
      have hn : u.ents.length ≤ (e - 1).toNat := by
        unfold Uel.size at h
        omega
      rw [List.getElem?_eq_none (by simpa using hn)]
      rfl
    · rw [if_neg h1]

theorem elemStrs_out {u : Uel} (hu : ∀ x ∈ u.ents, x.1.length < 64) (es : List Int) : elemStrs (some u) es = .ok (es.map (strOut u)) := by
  induction es with
  | nil => rfl
  | cons e es ih =>
    unfold elemStrs
    rw [elemStr_out hu]
    simp only [Res.bind_ok, ih]
    rfl

/-- Repeated calls of gdxDataReadStr deliver exactly these records and then "no more". -/
inductive DeliversStr : Gx → List (RecOut Str) → Gx → Prop
  | done {g g' : Gx} (h : dataReadStr g = .ok (g', none)) : DeliversStr g [] g'
  | next {g g1 g' : Gx} {r : RecOut Str} {rs : List (RecOut Str)} (h : dataReadStr g = .ok (g1, some r)) (hr : DeliversStr g1 rs g') :
      DeliversStr g (r :: rs) g'

/-- a record with the strings of its element numbers -/
def RecOut.toStr (u : Uel) (r : RecOut Int) : RecOut Str := ⟨r.key.map (strOut u), r.vals, r.frst⟩

theorem At.str {m : Nat} {s : Sym} {u : Uel} (hu : ∀ x ∈ u.ents, x.1.length < 64) : ∀ (rs : List Rec) {g : Gx} {p : Option (List Int)},
    At g m s p rs → g.mode = .rStr → g.uel = some u →
    ∃ x l, DeliversStr g ((rawOuts g.loads g.nd p rs).map (RecOut.toStr u)) (readEnd g x l)
  | [], g, p, h, hm, _ => by
    obtain ⟨x, hx⟩ := h.done
    refine ⟨x, g.last, .done ?_⟩
    unfold dataReadStr
    rcases chk_cases g [.rStr] with ⟨_, hc⟩ | ⟨hc, _⟩
    · simp only [hc, Bool.true_eq_false, if_false, hx, Res.bind_ok]
      rw [dataReadDone_plain]
      · rfl
      · simp [hm]
      · exact h.nrm
    · exact absurd (by simp [hm]) hc
  | r :: rs, g, p, h, hm, hg => by
    obtain ⟨x, hx, h1, h2⟩ := h.next
    obtain ⟨y, l, hy⟩ := At.str hu rs h1 hm hg
    refine ⟨y, l, .next ?_ hy⟩
    unfold dataReadStr
    rcases chk_cases g [.rStr] with ⟨_, hc⟩ | ⟨hc, _⟩
    · simp only [hc, Bool.true_eq_false, if_false, hx, Res.bind_ok]
      rw [show ({ g with rest := x, last := r.key } : Gx).nd = g.nd from rfl, ← h2, List.take_length, hg, elemStrs_out hu]
      rfl
    · exact absurd (by simp [hm]) hc

end Gdx
