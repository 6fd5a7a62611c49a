import Verif.Props.DiffSelf
import Verif.Props.SymbolTable
import Verif.Proofs.Reading

/-!
C60: files of unknown origin. What opening does not check is used later as it is; and the cases in which reading the records of a symbol is
undefined, for every content of the file.
-/

namespace Gdx.Props
open Gdx Gdx.Spec

/-! ### reading a record from arbitrary bytes -/

/-- the number at the start of some bytes, in 4, 2 or 1 bytes -/
def storedNum (sz : ElemSize) (l : List UInt8) : Int :=
  match sz with
  | .int => toI32 (decLE (l.take 4))
  | .word => decLE (l.take 2)
  | .byte => decLE (l.take 1)

/-- The reasons for which reading the next record can be undefined: the file ends within the next 126 bytes; a byte 0 instead of a
    position (assertion, gxfile.cpp:1412); an element number (stored number + lower bound, or last number + delta) leaves the range of int. -/
inductive Broken (g : Gx) : Prop
  | short (h : g.rest.length < 126)
  | zero (r : List UInt8) (h : g.rest = 0 :: r)
  | elem (n : Nat) (b : Int × Int) (hb : b ∈ g.bounds) (h : ¬ I32 (storedNum (posDesc b).sz (g.rest.drop n) + b.1))
  | delta (k : Int) (b : UInt8) (r : List UInt8) (hk : g.last.getLast? = some k) (hr : g.rest = b :: r)
      (h : ¬ I32 (k + (b.toNat - g.deltaRead)))

theorem rdBytes_enough {n : Nat} {l : List UInt8} (h : n ≤ l.length) : rdBytes n l = some (l.take n, l.drop n) := by
  unfold rdBytes
  rw [if_pos h]

theorem decElem_enough {p : PosDesc} {l : List UInt8} (h : 4 ≤ l.length) :
    (∃ k n, decElem p l = some (k, l.drop n) ∧ n ≤ 4) ∨ ¬ I32 (storedNum p.sz l + p.mn) := by
  have key : ∃ n, (match p.sz with
    | .int => rdInt l
    | .word => (rdWord l).map fun (w, r) => ((w : Int), r)
    | .byte => (rdByte l).map fun (b, r) => ((b.toNat : Int), r)) = some (storedNum p.sz l, l.drop n) ∧ n ≤ 4 := by
    cases p.sz with
    | int =>
      refine ⟨4, ?_, le_refl _⟩
      simp only [rdInt, rdBytes_enough h]
      rfl
    | word =>
      refine ⟨2, ?_, by omega⟩
      simp only [rdWord, rdBytes_enough (show 2 ≤ l.length by omega)]
      rfl
    | byte =>
      obtain ⟨b, r, rfl⟩ : ∃ b r, l = b :: r := by
        cases l with
        | nil => simp at h
        | cons b r => exact ⟨b, r, rfl⟩
      refine ⟨1, ?_, by omega⟩
      simp [rdByte, storedNum, decLE]
  obtain ⟨n, h1, h3⟩ := key
  by_cases hv : I32 (storedNum p.sz l + p.mn)
  · left
    refine ⟨storedNum p.sz l + p.mn, n, ?_, h3⟩
    refine (congrArg (fun o => Option.bind o fun x => if I32 (x.1 + p.mn) then some (x.1 + p.mn, x.2) else none) h1).trans ?_
    exact if_pos hv
  · exact Or.inr hv

theorem decElems_enough : ∀ {ps : List PosDesc} {l : List UInt8}, 4 * ps.length ≤ l.length →
    (∃ ks r, decElems ps l = some (ks, r) ∧ l.length ≤ r.length + 4 * ps.length) ∨ ∃ p ∈ ps, ∃ n, ¬ I32 (storedNum p.sz (l.drop n) + p.mn)
  | [], l, _ => Or.inl ⟨[], l, rfl, by simp⟩
  | p :: ps, l, h => by
    rw [List.length_cons] at h
    rcases decElem_enough (p := p) (l := l) (by omega) with ⟨k, n, h1, h2⟩ | hv
    · rcases decElems_enough (ps := ps) (l := l.drop n) (by rw [List.length_drop]; omega) with ⟨ks, r', h3, h4⟩ | ⟨q, hq, n', hv⟩
      · left
        rw [List.length_drop] at h4
        refine ⟨k :: ks, r', ?_, by rw [List.length_cons]; omega⟩
        unfold decElems
        rw [h1]
        show ((decElems ps (l.drop n)).bind _) = _
        rw [h3]
        rfl
      · rw [List.drop_drop] at hv
        exact Or.inr ⟨q, List.mem_cons_of_mem _ hq, _, hv⟩
    · exact Or.inr ⟨p, List.mem_cons_self .., 0, hv⟩

theorem bumpLast_enough {x : Int} : ∀ {l : List Int}, (∃ k, bumpLast x l = some k) ∨ ∃ k, l.getLast? = some k ∧ ¬ I32 (k + x)
  | [] => Or.inl ⟨[], rfl⟩
  | [k] => by
    by_cases h : I32 (k + x)
    · exact Or.inl ⟨[k + x], by unfold bumpLast; rw [if_pos h]⟩
    · exact Or.inr ⟨k, by simp, h⟩
  | k :: k' :: ks => by
    rcases bumpLast_enough (x := x) (l := k' :: ks) with ⟨w, hw⟩ | ⟨w, hw, hx⟩
    · exact Or.inl ⟨k :: w, by unfold bumpLast; rw [hw]; rfl⟩
    · exact Or.inr ⟨w, by rw [List.getLast?_cons_cons]; exact hw, hx⟩

theorem rdSVals_enough : ∀ {n : Nat} {l : List UInt8}, 9 * n ≤ l.length → ∃ vs r, rdSVals n l = some (vs, r)
  | 0, l, _ => ⟨[], l, rfl⟩
  | n + 1, l, h => by
    obtain ⟨b, r, rfl⟩ : ∃ b r, l = b :: r := by
      cases l with
      | nil => simp at h
      | cons b r => exact ⟨b, r, rfl⟩
    rw [List.length_cons] at h
    have key : ∃ v r', rdSVal (b :: r) = some (v, r') ∧ r.length ≤ r'.length + 8 := by
      by_cases hb : b = 10
      · subst hb
        refine ⟨.num (UInt64.ofNat (decLE (r.take 8))), r.drop 8, ?_, by rw [List.length_drop]; omega⟩
        show (rdDouble r).bind _ = _
        simp only [rdDouble, rdBytes_enough (show 8 ≤ r.length by omega)]
        rfl
      · refine ⟨.code b, r, ?_, by omega⟩
        show (if b = 10 then _ else _) = _
        rw [if_neg hb]
    obtain ⟨v, r', h1, h2⟩ := key
    obtain ⟨vs, r'', h3⟩ := rdSVals_enough (n := n) (l := r') (by omega)
    refine ⟨v :: vs, r'', ?_⟩
    unfold rdSVals
    rw [h1]
    show (rdSVals n r').bind _ = _
    rw [h3]
    rfl

/-- the object is reading the records of a symbol `s` of the file, whatever the bytes of the file are -/
structure Midway (g : Gx) (s : Sym) : Prop where
  uni : g.rdUniverse = false
  cur : g.curSym = .ok s
  bnd : g.bounds.length ≤ 20
  size : g.dataSize ≤ 5
  acros : g.acros.isSome = true
  auto : g.nextAuto ≤ 0
  text : g.mapText = none ∨ s.typ ≠ dtSet
  nrm : g.nrMapped = 0

theorem decRec_enough {g : Gx} (hb : g.bounds.length ≤ 20) (hs : g.dataSize ≤ 5) :
    (∃ o, decRec g.nd g.deltaRead g.dataSize (g.bounds.map posDesc) g.last g.rest = some o) ∨ Broken g := by
  by_cases hl : g.rest.length < 126
  · exact Or.inr (.short hl)
  obtain ⟨b, r, hr⟩ : ∃ b r, g.rest = b :: r := by
    cases h : g.rest with
    | nil => rw [h] at hl; simp at hl
    | cons b r => exact ⟨b, r, rfl⟩
  rw [hr, List.length_cons] at hl
  by_cases h0 : b = 0
  · exact Or.inr (.zero r (by rw [hr, h0]))
  have key : (∃ o r', decKey g.nd g.deltaRead (g.bounds.map posDesc) g.last (b :: r) = some (o, r') ∧ r.length ≤ r'.length + 80) ∨ Broken g := by
    have e0 : ∀ {α β : Type} (x : α) (f : α → Option β), (some x >>= f) = f x := fun _ _ => rfl
    unfold decKey
    simp only [rdByte, e0]
    split
    · split
      · exact Or.inl ⟨_, _, rfl, by omega⟩
      · rcases bumpLast_enough (x := (b.toNat : Int) - g.deltaRead) (l := g.last) with ⟨k, hk⟩ | ⟨k, hk, hx⟩
        · left
          rw [hk]
          exact ⟨_, _, rfl, by omega⟩
        · exact Or.inr (.delta k b r hk hr hx)
    · rw [if_neg (show ¬ b.toNat = 0 from fun hc => h0 (UInt8.toNat_inj.mp hc))]
      have hlen : ((g.bounds.map posDesc).drop (b.toNat - 1)).length ≤ 20 := by simp; omega
      rcases decElems_enough (ps := (g.bounds.map posDesc).drop (b.toNat - 1)) (l := r) (by omega) with ⟨ks, r', h1, h2⟩ | ⟨p, hp, n, hx⟩
      · left
        rw [h1]
        exact ⟨_, r', rfl, by omega⟩
      · right
        obtain ⟨w, hw, rfl⟩ := List.mem_map.mp (List.mem_of_mem_drop hp)
        exact .elem (n + 1) w hw (by rw [hr]; exact hx)
  rcases key with ⟨o, r', h1, h2⟩ | h
  · left
    unfold decRec
    rw [hr, h1]
    cases o with
    | none => exact ⟨_, rfl⟩
    | some x =>
      obtain ⟨vs, r'', h3⟩ := rdSVals_enough (n := g.dataSize) (l := r') (by omega)
      refine ⟨(some (x.1, ⟨x.2, vs⟩), r''), ?_⟩
      show (rdSVals g.dataSize r').bind _ = _
      rw [h3]
      rfl
  · exact Or.inr h

theorem Midway.doRead {g : Gx} {s : Sym} (h : Midway g s) : (doRead g = .ub ∧ Broken g) ∨ ∃ g' o, doRead g = .ok (g', o) ∧ Midway g' s ∧ g'.uel = g.uel := by
  obtain ⟨l, hl⟩ := Option.isSome_iff_exists.mp h.acros
  unfold Gdx.doRead
  rw [if_neg (by rw [h.uni]; simp), h.cur, Res.bind_ok]
  split
  · exact Or.inr ⟨_, _, rfl, ⟨h.uni, h.cur, h.bnd, h.size, h.acros, h.auto, h.text, h.nrm⟩, rfl⟩
  · cases ho : decRec g.nd g.deltaRead g.dataSize (g.bounds.map posDesc) g.last g.rest with
    | none =>
      left
      refine ⟨by simp only [rdOk, ho, need]; rfl, ?_⟩
      rcases decRec_enough h.bnd h.size with ⟨o, hx⟩ | hb
      · rw [hx] at ho
        cases ho
      · exact hb
    | some o =>
      obtain ⟨o, r⟩ := o
      right
      simp only [rdOk, ho, need, Res.bind_ok]
      cases o with
      | none => exact ⟨_, _, rfl, ⟨h.uni, h.cur, h.bnd, h.size, h.acros, h.auto, h.text, h.nrm⟩, rfl⟩
      | some x =>
        obtain ⟨fd, rec⟩ := x
        have e1 := readVals_plain (g := { g with rest := r }) hl h.auto rec.vals
        have e2 : ∀ w, remapTexts { g with rest := r } s w = .ok w := by
          intro w
          unfold remapTexts
          rcases h.text with ht | ht
          · simp only [ht]
          · split
            · rw [if_neg (fun hc => ht hc.2)]
            · rfl
        dsimp only
        rw [e1, Res.bind_ok]
        dsimp only
        rw [e2, Res.bind_ok]
        exact ⟨_, _, rfl, ⟨h.uni, h.cur, h.bnd, h.size, h.acros, h.auto, h.text, h.nrm⟩, rfl⟩

theorem readDone_plain {g : Gx} (h : g.nrMapped = 0) : ∃ r, dataReadDone g = .ok r := by
  unfold dataReadDone
  have : (Gx.chk { g with sort := none, cur := .none } [.rInit, .rRaw, .rMap, .rMapR, .rStr, .rSlice]).1.nrMapped = 0 := by
    unfold Gx.chk
    split <;> exact h
  dsimp only
  split
  · exact ⟨_, rfl⟩
  · rw [if_neg (fun hn => hn this)]
    exact ⟨_, rfl⟩

/-- reading a record raw, whatever the bytes of the file are: a record or the end, or one of the reasons of `Broken` -/
theorem Midway.readRaw {g : Gx} {s : Sym} (h : Midway g s) :
    (dataReadRaw g = .ub ∧ Broken g) ∨ ∃ g' o, dataReadRaw g = .ok (g', o) ∧ (o ≠ none → Midway g' s ∧ g'.uel = g.uel) := by
  unfold dataReadRaw
  rcases chk_cases g [.rRaw] with ⟨_, hc⟩ | ⟨_, hc⟩
  · simp only [hc, Bool.true_eq_false, if_false]
    rcases h.doRead with ⟨hu, hb⟩ | ⟨g1, o, h1, h2, h3⟩
    · left
      rw [hu]
      exact ⟨rfl, hb⟩
    · right
      simp only [h1, Res.bind_ok]
      cases o with
      | none =>
        obtain ⟨r, hr⟩ := readDone_plain (g := g1) h2.nrm
        simp only [hr, Res.bind_ok]
        exact ⟨_, _, rfl, fun hx => absurd rfl hx⟩
      | some x => exact ⟨_, _, rfl, fun _ => ⟨h2, h3⟩⟩
  · simp only [hc, if_true]
    exact Or.inr ⟨_, _, rfl, fun hx => absurd rfl hx⟩

/-- the labels fit into the buffers of the reader (64 bytes with the byte at the end) -/
def ShortLabels (g : Gx) : Prop := ∀ u, g.uel = some u → ∀ x ∈ u.ents, x.1.length < 64

theorem elemStr_ok {g : Gx} (h : ShortLabels g) (e : Int) : ∃ s, elemStr g.uel e = .ok s := by
  unfold elemStr
  cases hu : g.uel with
  | none => exact ⟨_, rfl⟩
  | some u =>
    dsimp only
    split
    · rename_i he
      have h1 : (e - 1).toNat < u.ents.length := by
        have := he.2
        unfold Uel.size at this
        omega
      have h2 : u.str e = .ok (u.ents[(e - 1).toNat]).1 := by
        have := at1_nat (List.getElem?_eq_getElem h1)
        rw [show (((e - 1).toNat : Int) + 1) = e by omega] at this
        unfold Uel.str
        rw [this]
        rfl
      rw [h2, Res.bind_ok, if_neg (by have := h u hu _ (List.getElem_mem h1); omega)]
      exact ⟨_, rfl⟩
    · exact ⟨_, rfl⟩

theorem elemStrs_ok {g : Gx} (h : ShortLabels g) : ∀ es : List Int, ∃ ss, elemStrs g.uel es = .ok ss
  | [] => ⟨_, rfl⟩
  | e :: es => by
    obtain ⟨s, hs⟩ := elemStr_ok h e
    obtain ⟨ss, hss⟩ := elemStrs_ok h es
    unfold elemStrs
    rw [hs, Res.bind_ok, hss, Res.bind_ok]
    exact ⟨_, rfl⟩

/-- the same with labels -/
theorem Midway.readStr {g : Gx} {s : Sym} (h : Midway g s) (hf : ShortLabels g) :
    (dataReadStr g = .ub ∧ Broken g) ∨ ∃ g' o, dataReadStr g = .ok (g', o) ∧ (o ≠ none → Midway g' s ∧ g'.uel = g.uel) := by
  unfold dataReadStr
  rcases chk_cases g [.rStr] with ⟨_, hc⟩ | ⟨_, hc⟩
  · simp only [hc, Bool.true_eq_false, if_false]
    rcases h.doRead with ⟨hu, hb⟩ | ⟨g1, o, h1, h2, h3⟩
    · left
      rw [hu]
      exact ⟨rfl, hb⟩
    · right
      simp only [h1, Res.bind_ok]
      cases o with
      | none =>
        obtain ⟨r, hr⟩ := readDone_plain (g := g1) h2.nrm
        simp only [hr, Res.bind_ok]
        exact ⟨_, _, rfl, fun hx => absurd rfl hx⟩
      | some x =>
        obtain ⟨ss, hss⟩ := elemStrs_ok (g := g1) (by unfold ShortLabels; rw [h3]; exact hf) (g1.last.take g1.nd)
        simp only [hss, Res.bind_ok]
        exact ⟨_, _, rfl, fun _ => ⟨h2, h3⟩⟩
  · simp only [hc, if_true]
    exact Or.inr ⟨_, _, rfl, fun hx => absurd rfl hx⟩

/-! ### starting to read -/

theorem decBounds_enough : ∀ {n : Nat} {l : List UInt8}, 8 * n ≤ l.length → ∃ bs r, decBounds n l = some (bs, r) ∧ bs.length = n
  | 0, l, _ => ⟨[], l, rfl, rfl⟩
  | n + 1, l, h => by
    obtain ⟨bs, r, h1, h2⟩ := decBounds_enough (n := n) (l := (l.drop 4).drop 4) (by simp; omega)
    refine ⟨(toI32 (decLE (l.take 4)), toI32 (decLE ((l.drop 4).take 4))) :: bs, r, ?_, by simp [h2]⟩
    have e1 : rdInt l = some (toI32 (decLE (l.take 4)), l.drop 4) := by
      simp only [rdInt, rdBytes_enough (show 4 ≤ l.length by omega)]
      rfl
    have e2 : rdInt (l.drop 4) = some (toI32 (decLE ((l.drop 4).take 4)), (l.drop 4).drop 4) := by
      simp only [rdInt, rdBytes_enough (show 4 ≤ (l.drop 4).length by rw [List.length_drop]; omega)]
      rfl
    unfold decBounds
    rw [e1]
    show Option.bind (rdInt (l.drop 4)) _ = _
    rw [e2]
    show Option.bind (decBounds n _) _ = _
    rw [h1]
    rfl

/-- a reader between two symbols -/
structure IdleReader (g : Gx) : Prop where
  mode : g.mode = .rInit
  opened : g.opened = true
  acros : g.acros.isSome = true
  filters : g.filters.isSome = true
  names : g.names.isSome = true
  auto : g.nextAuto ≤ 0

theorem domActs_plain (l : List Filt) : ∀ n, domActs l (List.replicate n domcUnmapped) = some (List.replicate n .unmapped)
  | 0 => rfl
  | n + 1 => by
    rw [List.replicate_succ]
    unfold domActs
    rw [if_pos rfl, domActs_plain l n]
    rfl

theorem rdStrE_len {l : List UInt8} (hl : 172 ≤ l.length) (h : (rdStrE l).1 = markData) : 165 ≤ (rdStrE l).2.length := by
  cases l with
  | nil => simp at hl
  | cons b r =>
    rw [List.length_cons] at hl
    have := congrArg List.length h
    simp only [rdStrE, List.length_append, List.length_take, List.length_replicate, markData, List.length_cons, List.length_nil] at this
    simp only [rdStrE, List.length_drop]
    omega

theorem raise_keeps_mode (g : Gx) (n : Int) : (g.raise n).mode = g.mode := by
  unfold Gx.raise
  split <;> rfl

theorem raise_keeps_uel (g : Gx) (n : Int) : (g.raise n).uel = g.uel := by
  unfold Gx.raise
  split <;> rfl

theorem dataTypSize_le (t : Nat) : dataTypSize t ≤ 5 := by
  unfold dataTypSize
  split
  · omega
  · split <;> omega

/-- starting to read a symbol, raw or with labels, whatever the file contains -/
theorem IdleReader.start {z : Cz} {g : Gx} (h : IdleReader g) {syms : List Sym} (hs : g.names = some syms) {n : Nat} {s : Sym} (hn : syms[n]? = some s)
    (ht : s.typ < 4) (hd : s.dim ≤ 20) (hp : 0 ≤ s.pos) (htx : g.mapText = none ∨ s.typ ≠ dtSet)
    (hl : 172 ≤ (z.rd s.compr (g.file.drop s.pos.toNat)).length)
    {m : Mode} (hm1 : m ≠ .rMap) (hm2 : m ≠ .rInit) :
    ∃ g' r, prepareRead z g ((n : Int) + 1) (List.replicate 20 domcUnmapped) m = .ok (g', r) ∧ g'.uel = g.uel ∧ (g'.mode = m → Midway g' s) := by
  obtain ⟨fl, hfl⟩ := Option.isSome_iff_exists.mp h.filters
  have hlt := (List.getElem?_eq_some_iff.mp hn).1
  unfold prepareRead
  have e1 : readTarget syms ((n : Int) + 1) = .ok (some (n + 1)) := by
    unfold readTarget
    rw [if_neg (by omega), at1_nat hn, Res.bind_ok, if_neg (by unfold dtAlias; omega)]
    rfl
  have e2 : at1 syms ((n + 1 : Nat) : Int) = .ok s := at1_nat hn
  have e3 : (List.replicate 20 domcUnmapped).take s.dim.toNat = List.replicate s.dim.toNat domcUnmapped := by
    rw [List.take_replicate, min_eq_left (by omega)]
  simp only [prepareStart_init h.mode, Res.bind_ok, Bool.true_eq_false, if_false, hfl, hs, need, e1, e2, e3, domActs_plain]
  rw [if_neg (by omega), if_neg (by simp only [List.length_replicate, maxDim]; omega), if_neg (by rw [h.opened]; simp; omega)]
  generalize z.rd s.compr (g.file.drop s.pos.toNat) = l at hl
  unfold prepareData
  by_cases hm : (rdStrE l).1 = markData
  swap
  · simp only
    rw [if_pos hm]
    refine ⟨_, _, rfl, raise_keeps_uel _ _, fun hc => ?_⟩
    rw [raise_keeps_mode] at hc
    exact absurd (hc.symm.trans h.mode) hm2
  have hl2 := rdStrE_len hl hm
  obtain ⟨d, r, hr⟩ : ∃ d r, (rdStrE l).2 = d :: r := by
    cases hx : (rdStrE l).2 with
    | nil => rw [hx] at hl2; simp at hl2
    | cons d r => exact ⟨d, r, rfl⟩
  rw [hr, List.length_cons] at hl2
  have e4 : rdInt r = some (toI32 (decLE (r.take 4)), r.drop 4) := by
    simp only [rdInt, rdBytes_enough (show 4 ≤ r.length by omega)]
    rfl
  simp only
  rw [if_neg (not_not.mpr hm), hr]
  simp only [rdOk, rdByte, need, Res.bind_ok, e4]
  by_cases hdd : (d.toNat : Int) = s.dim
  swap
  · rw [if_pos hdd]
    refine ⟨_, _, rfl, raise_keeps_uel _ _, fun hc => ?_⟩
    rw [raise_keeps_mode] at hc
    exact absurd (hc.symm.trans h.mode) hm2
  rw [if_neg (not_not.mpr hdd)]
  have e5 : decide ((n : Int) + 1 = 0) = false := decide_eq_false (by omega)
  split
  · exact ⟨_, _, rfl, rfl, fun _ => ⟨e5, e2, Nat.zero_le _, dataTypSize_le _, h.acros, h.auto, htx, rfl⟩⟩
  · obtain ⟨bs, r', h1, h2⟩ := decBounds_enough (n := s.dim.toNat) (l := r.drop 4) (by rw [List.length_drop]; omega)
    simp only [Gx.nd, h1, Res.bind_ok]
    exact ⟨_, _, rfl, rfl, fun _ => ⟨e5, e2, show bs.length ≤ 20 by omega, dataTypSize_le _, h.acros, h.auto, htx, rfl⟩⟩

/-! ### opening -/

theorem thenOk_ok {P Q : Gx → Prop} {r : Res (Gx × Bool)} {f : Gx → Res (Gx × Bool)} (hr : r.All fun x => x.2 = true → P x.1)
    (hf : ∀ g, P g → (f g).All fun x => x.2 = true → Q x.1) : (thenOk r f).All fun x => x.2 = true → Q x.1 := by
  unfold thenOk
  refine Res.All.bind hr ?_
  rintro ⟨g, ok⟩ h
  cases ok with
  | true => exact hf g (h rfl)
  | false => exact fun h => nomatch h

/-- the tables are there -/
def TabsThere (g : Gx) : Prop := g.acros.isSome = true ∧ g.filters.isSome = true ∧ g.names.isSome = true ∧ g.opened = true

theorem openHeader_opened (g : Gx) (l : List UInt8) : (openHeader g l).All fun x => x.1.opened = g.opened := by
  unfold openHeader
  refine Res.All.bind' ?_
  rintro ⟨b, l⟩ _
  simp only
  split
  · rfl
  split
  · rfl
  refine Res.All.bind' ?_
  rintro ⟨v, l⟩ _
  simp only
  split
  · rfl
  refine Res.All.bind' ?_
  rintro ⟨c, l⟩ _
  simp only
  refine Res.All.bind' ?_
  rintro ⟨m, l⟩ _
  simp only
  split
  · rfl
  refine Res.All.bind' ?_
  rintro ⟨ix, l⟩ _
  rfl

theorem openTables_there (z : Cz) (ix : Index) (m : Int) (g : Gx) (h : g.opened = true) :
    (openTables z ix m g).All fun x => x.2 = true → TabsThere x.1 := by
  unfold openTables
  refine thenOk_ok (P := TabsThere) ?_ fun g1 h1 => ?_
  · unfold openSyms
    refine Res.All.bind' ?_
    intro l _
    simp only
    split
    · exact fun h => nomatch h
    refine Res.All.bind' ?_
    rintro ⟨n, l⟩ _
    simp only
    refine Res.All.bind' ?_
    rintro ⟨syms, l⟩ _
    simp only
    split
    · exact fun h => nomatch h
    · split <;> exact fun _ => ⟨rfl, rfl, rfl, h⟩
  refine thenOk_ok (P := TabsThere) ?_ fun g2 h2 => ?_
  · unfold openUels
    refine Res.All.bind' ?_
    intro l _
    simp only
    split
    · exact fun h => nomatch h
    refine Res.All.bind' ?_
    rintro ⟨n, l⟩ _
    simp only
    refine Res.All.bind' ?_
    rintro ⟨strs, l⟩ _
    simp only
    split
    · exact fun h => nomatch h
    · exact fun _ => h1
  refine thenOk_ok (P := TabsThere) ?_ fun g3 h3 => ?_
  · split
    · unfold openTexts
      refine Res.All.bind' ?_
      intro l _
      simp only
      split
      · exact fun h => nomatch h
      refine Res.All.bind' ?_
      rintro ⟨n, l⟩ _
      simp only
      refine Res.All.bind' ?_
      rintro ⟨strs, l⟩ _
      simp only
      refine Res.All.bind' ?_
      rintro ⟨t, mp⟩ _
      simp only
      split
      · exact fun h => nomatch h
      · exact fun _ => h2
    · exact fun _ => h2
  refine thenOk_ok (P := TabsThere) ?_ fun g4 h4 => ?_
  · split
    · unfold openAcros
      refine Res.All.bind' ?_
      intro l _
      simp only
      split
      · exact fun h => nomatch h
      refine Res.All.bind' ?_
      rintro ⟨a, l⟩ _
      simp only
      split
      · exact fun h => nomatch h
      · exact fun _ => ⟨rfl, h3.2⟩
    · exact fun _ => h3
  simp only
  split
  · unfold openDoms
    refine Res.All.bind' ?_
    intro l _
    simp only
    split
    · exact fun h => nomatch h
    refine Res.All.bind' ?_
    rintro ⟨n, l⟩ _
    simp only
    refine Res.All.bind' ?_
    rintro ⟨strs, l⟩ _
    simp only
    split
    · exact fun h => nomatch h
    refine Res.All.bind' ?_
    intro syms _
    refine Res.All.bind' ?_
    rintro ⟨syms, l⟩ _
    simp only
    split
    · exact fun h => nomatch h
    · exact fun _ => ⟨h4.1, h4.2.1, rfl, h4.2.2.2⟩
  · exact fun _ => h4

theorem openReadXX_idle {z : Cz} {g : Gx} {f : List UInt8} {m n : Int} (h : openReadXX z Gx.new (.content f) m = .ok (g, (true, n))) : IdleReader g := by
  have key : (openReadXX z Gx.new (.content f) m).All fun x => x.2.1 = true → TabsThere x.1 ∧ x.1.mode = .rInit := by
    unfold openReadXX
    rw [if_neg (show ¬ (Gx.new.mode ≠ .notOpen) from not_not.mpr rfl)]
    refine Res.All.bind' ?_
    rintro ⟨o, l⟩ _
    simp only
    refine (?_ : Res.All _ _)
    split
    · exact (fun h => nomatch h)
    split
    · trivial
    refine Res.All.bind (openHeader_opened _ l) ?_
    rintro ⟨g1, ix⟩ h1
    cases ix with
    | none => exact (fun h => nomatch h)
    | some ix =>
      refine Res.All.bind (openTables_there z ix m g1 h1) ?_
      rintro ⟨g2, ok⟩ h2
      simp only
      refine (?_ : Res.All _ _)
      split
      · exact (fun h => nomatch h)
      · rename_i hok
        exact fun _ => ⟨h2 (by simpa using hok), rfl⟩
  have h1 := (key.of_ok h) rfl
  have h2 := Diff.openReadXX_still.of_ok h
  exact ⟨h1.2, h1.1.2.2.2, h1.1.1, h1.1.2.1, h1.1.2.2.1, by rw [show g.nextAuto = (Gx.new).nextAuto from congrArg Prod.fst h2]; decide⟩

/-! ### C60 -/

/-- records delivered one after the other -/
inductive Delivers : Gx → Gx → Prop
  | none (g : Gx) : Delivers g g
  | raw {a b c : Gx} {o : RecOut Int} (h : Delivers a b) (hr : dataReadRaw b = .ok (c, some o)) : Delivers a c
  | str {a b c : Gx} {o : RecOut Str} (h : Delivers a b) (hr : dataReadStr b = .ok (c, some o)) : Delivers a c

theorem Midway.delivers {a b : Gx} {s : Sym} (h : Midway a s) (hf : ShortLabels a) (hd : Delivers a b) : Midway b s ∧ ShortLabels b := by
  induction hd with
  | none => exact ⟨h, hf⟩
  | @raw b c o hd hr ih =>
    obtain ⟨i1, i2⟩ := ih
    rcases i1.readRaw with ⟨hx, _⟩ | ⟨g', o', h1, h2⟩
    · rw [hx] at hr
      cases hr
    · rw [hr] at h1
      cases h1
      obtain ⟨h3, h4⟩ := h2 (by simp)
      exact ⟨h3, by unfold ShortLabels; rw [h4]; exact i2⟩
  | @str b c o hd hr ih =>
    obtain ⟨i1, i2⟩ := ih
    rcases i1.readStr i2 with ⟨hx, _⟩ | ⟨g', o', h1, h2⟩
    · rw [hx] at hr
      cases hr
    · rw [hr] at h1
      cases h1
      obtain ⟨h3, h4⟩ := h2 (by simp)
      exact ⟨h3, by unfold ShortLabels; rw [h4]; exact i2⟩

/-- C60, the part that holds: in a file of any content that opening accepts, a symbol whose table entry is sane (a symbol that is no
    alias, of dimension at most 20, at a position with 172 bytes behind it; a set only if no text occurs twice) can be read without anything
    undefined, unless a record is met that is broken in one of the ways of `Broken`. With labels all labels must be shorter than 64.
    Missing: aliases, the mapped and filtered ways of reading, and opening itself. -/
theorem C60_read_partial {z : Cz} {f : List UInt8} {g : Gx} {rm e : Int} (ho : openReadXX z Gx.new (.content f) rm = .ok (g, (true, e)))
    {syms : List Sym} (hs : g.names = some syms) {n : Nat} {s : Sym} (hn : syms[n]? = some s)
    (ht : s.typ < 4) (hd : s.dim ≤ 20) (hp : 0 ≤ s.pos) (htx : g.mapText = none ∨ s.typ ≠ dtSet)
    (hl : 172 ≤ (z.rd s.compr (f.drop s.pos.toNat)).length) (hf : ShortLabels g) :
    (∃ g1 r, dataReadRawStart z g ((n : Int) + 1) = .ok (g1, r) ∧ (g1.mode = .rRaw → ∀ g2, Delivers g1 g2 →
      ¬ Broken g2 → ∃ x, dataReadRaw g2 = .ok x)) ∧
    (∃ g1 r, dataReadStrStart z g ((n : Int) + 1) = .ok (g1, r) ∧ (g1.mode = .rStr → ∀ g2, Delivers g1 g2 →
      ¬ Broken g2 → ∃ x, dataReadStr g2 = .ok x)) := by
  have hi := openReadXX_idle ho
  have hfile : g.file = f := congrArg Prod.fst (openReadXX_disk ho)
  rw [← hfile] at hl
  constructor
  · obtain ⟨g1, r, h1, hu, h2⟩ := hi.start hs hn ht hd hp htx hl (m := .rRaw) (by decide) (by decide)
    refine ⟨g1, (decide (r ≥ 0), r), by unfold dataReadRawStart; rw [h1]; rfl, fun hm g2 hg hb => ?_⟩
    obtain ⟨i1, i2⟩ := (h2 hm).delivers (by unfold ShortLabels; rw [hu]; exact hf) hg
    rcases i1.readRaw with ⟨_, hx⟩ | ⟨g', o', h3, _⟩
    · exact absurd hx hb
    · exact ⟨_, h3⟩
  · obtain ⟨g1, r, h1, hu, h2⟩ := hi.start hs hn ht hd hp htx hl (m := .rStr) (by decide) (by decide)
    refine ⟨g1, (decide (r ≥ 0), r), by unfold dataReadStrStart; rw [h1]; rfl, fun hm g2 hg hb => ?_⟩
    obtain ⟨i1, i2⟩ := (h2 hm).delivers (by unfold ShortLabels; rw [hu]; exact hf) hg
    rcases i1.readStr i2 with ⟨_, hx⟩ | ⟨g', o', h3, _⟩
    · exact absurd hx hb
    · exact ⟨_, h3⟩

/-! ### where the code does not check -/

/-- a file with a set, an alias of it, a parameter over an unknown domain, and one element -/
def exDam : List Call :=
  [.openWrite false 0 [65] 0, .uelRawStart, .uelRaw [97], .uelDone, .rawStart [105] [] 1 0 0, .writeRaw [1] [0], .writeDone,
   .addAlias [105] [106], .rawStart [112] [] 1 1 0, .writeRaw [1] [Dbl.one], .writeDone, .setDomainX 3 [[113]]]

/-- the file with some bytes replaced and some appended -/
def patched (ps : List (Nat × UInt8)) (more : List UInt8) : Option (List UInt8) :=
  match fileOf exDam with
  | .ok f => some (ps.foldl (fun l p => l.set p.1 p.2) f ++ more)
  | .ub => none

/-- the file is accepted and the calls end undefined -/
def crashes (ps : List (Nat × UInt8)) (more : List UInt8) (cs : List Call) : Bool :=
  match patched ps more with
  | none => false
  | some f =>
    match openReadXX Cz.id Gx.new (.content f) 0 with
    | .ok (g, (true, 0)) => (match run ⟨[]⟩ Cz.id g cs with | .ub => true | .ok _ => false)
    | _ => false

/-- opening the file is undefined -/
def opensUb (ps : List (Nat × UInt8)) (more : List UInt8) : Bool :=
  match patched ps more with
  | none => false
  | some f => (match openReadXX Cz.id Gx.new (.content f) 0 with | .ub => true | .ok _ => false)

theorem crashes_iff {ps : List (Nat × UInt8)} {more : List UInt8} {cs : List Call} (h : crashes ps more cs = true) :
    ∃ f g, patched ps more = some f ∧ openReadXX Cz.id Gx.new (.content f) 0 = .ok (g, (true, 0)) ∧ run ⟨[]⟩ Cz.id g cs = .ub := by
  unfold crashes at h
  split at h
  · cases h
  · rename_i f hf
    split at h
    · rename_i g hg
      split at h
      · rename_i hr
        exact ⟨f, g, hf, hg, hr⟩
      · cases h
    · cases h

/-- a data block of a one-dimensional set with the record (1), without the byte at the end -/
def exTail : List UInt8 := [6, 95, 68, 65, 84, 65, 95, 1, 0, 0, 0, 0, 0, 0, 0, 0, 255, 255, 255, 127, 1, 1, 0, 0, 0, 5]

/-- a table of elements with one label of 64 bytes -/
def exLabel : List UInt8 := [5, 95, 85, 69, 76, 95, 1, 0, 0, 0, 64] ++ List.replicate 64 97 ++ [5, 95, 85, 69, 76, 95]

/-- C60 fails: a dimension of 21 in the table and in the data overruns arrays of 20 (gxfile.cpp:918-977); a type 9 reads behind
    DataTypSize (925). -/
theorem C60_entry : crashes [(219, 21), (151, 21)] [] [.readRawStart 1] = true ∧ crashes [(223, 9)] [] [.readRawStart 1] = true := by
  constructor <;> decide +kernel

/-- C60 fails: an alias of itself is followed for ever (gxfile.cpp:898-913); an alias of symbol 9 of 3 reads behind the table; an alias of
    a parameter violates the assertion at 914. -/
theorem C60_alias : crashes [(259, 2)] [] [.readRawStart 2] = true ∧ crashes [(259, 9)] [] [.readRawStart 2] = true ∧
    crashes [(259, 3)] [] [.readRawStart 2] = true := by
  refine ⟨?_, ?_, ?_⟩ <;> decide +kernel

/-- C60 fails: a domain of symbol 9 of 3 is written behind the table while opening (gxfile.cpp:2081-2089); a domain string 9 of 1 is read behind
    the list by gdxSymbolGetDomainX. -/
theorem C60_domain : opensUb [(410, 9)] [] = true ∧
    crashes [(414, 9)] [] [.getDomainX 3] = true := by
  constructor <;> decide +kernel

/-- C60 fails: a position 0 in a record violates an assertion (gxfile.cpp:1412); a lower bound of 2147483647 makes the sum of an element
    leave int (1415-1427); a data block without its end is read past the end of the file. -/
theorem C60_record : crashes [(164, 0)] [] [.readRawStart 1, .readRaw] = true ∧
    crashes [(156, 255), (157, 255), (158, 255), (159, 127)] [] [.readRawStart 1, .readRaw] = true ∧
    crashes [(211, 173), (212, 1)] exTail [.readRawStart 1, .readRaw, .readRaw] = true := by
  refine ⟨?_, ?_, ?_⟩ <;> decide +kernel

/-- C60 fails: a label of 64 bytes does not fit into the 64 bytes (GMS_UEL_IDENT_SIZE) that a caller of gdxDataReadStr must
    provide for a key (strcpy, gxfile.cpp:1766). -/
theorem C60_label : crashes [(76, 173)] exLabel [.readStrStart 1, .readStr] = true := by
  decide +kernel

/-- The undamaged file reads without anything undefined. -/
example : crashes [] [] [.readRawStart 1, .readRaw, .readRaw, .readRawStart 2, .readRaw, .readRaw, .readStrStart 3, .readStr, .getDomainX 3] = false := by
  decide +kernel

/-- `C60_read_partial` speaks about damaged files: with the type of the set changed to "variable" all its assumptions hold for that symbol. -/
example : (match patched [(223, 2)] [] with
    | none => false
    | some f =>
      match openReadXX Cz.id Gx.new (.content f) 0 with
      | .ok (g, (true, 0)) =>
        (match g.names, g.uel with
          | some (s :: _), some u =>
            decide (s.typ = 2 ∧ s.dim ≤ 20 ∧ 0 ≤ s.pos ∧ g.mapText = none ∧ 172 ≤ (f.drop s.pos.toNat).length) &&
            u.ents.all fun x => decide (x.1.length < 64)
          | _, _ => false)
      | _ => false) = true := by
  decide +kernel

#print axioms C60_read_partial
#print axioms C60_label

end Gdx.Props
