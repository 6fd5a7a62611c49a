import Verif.Proofs.MergeWrite
import Verif.Props.SortSession
import Verif.Props.Reopen

/-! gdxmerge: the set with the names of the input files. -/

namespace Gdx.Merge
open Gdx Gdx.Spec Gdx.Props

/-! ### numbers -/

theorem digits_of (fuel : Nat) : ∀ n, ∀ c ∈ digits fuel n, 48 ≤ c ∧ c ≤ 57 := by
  have key : ∀ m : Nat, m < 10 → 48 ≤ UInt8.ofNat (48 + m) ∧ UInt8.ofNat (48 + m) ≤ 57 := by
    intro m hm
    interval_cases m <;> decide
  induction fuel with
  | zero => intro n c hc; cases hc
  | succ f ih =>
    intro n c hc
    unfold digits at hc
    split at hc
    · rename_i hn
      rw [List.mem_singleton] at hc
      subst hc
      exact key n hn
    · rcases List.mem_append.mp hc with hc | hc
      · exact ih _ c hc
      · rw [List.mem_singleton] at hc
        subst hc
        exact key _ (Nat.mod_lt _ (by decide))

theorem digits_ne (fuel n : Nat) (hf : fuel ≠ 0) : digits fuel n ≠ [] := by
  obtain ⟨f, rfl⟩ := Nat.exists_eq_succ_of_ne_zero hf
  unfold digits
  split <;> simp

theorem digit_inj {a b : Nat} (ha : a < 10) (hb : b < 10) (h : UInt8.ofNat (48 + a) = UInt8.ofNat (48 + b)) : a = b := by
  have := congrArg UInt8.toNat h
  rw [UInt8.toNat_ofNat', UInt8.toNat_ofNat'] at this
  omega

theorem digits_inj (fuel : Nat) : ∀ a b, a < 10 ^ fuel → b < 10 ^ fuel → digits fuel a = digits fuel b → a = b := by
  induction fuel with
  | zero => intro a b ha hb _; simp at ha hb; omega
  | succ f ih =>
    intro a b ha hb h
    rw [Nat.pow_succ] at ha hb
    unfold digits at h
    have hne : ∀ n, 10 ≤ n → n < 10 ^ f * 10 → digits f (n / 10) ≠ [] := by
      intro n h1 h2
      refine digits_ne _ _ ?_
      rintro rfl
      simp at h2
      omega
    split at h
    · split at h
      · rename_i h1 h2
        injection h with h
        exact digit_inj h1 h2 h
      · rename_i h1 h2
        have hl := congrArg List.length h
        have hn := hne b (by omega) hb
        rw [ne_eq, ← List.length_eq_zero_iff] at hn
        rw [List.length_append, List.length_singleton, List.length_singleton] at hl
        omega
    · split at h
      · rename_i h1 h2
        have hl := congrArg List.length h
        have hn := hne a (by omega) ha
        rw [ne_eq, ← List.length_eq_zero_iff] at hn
        rw [List.length_append, List.length_singleton, List.length_singleton] at hl
        omega
      · obtain ⟨h1, h2⟩ := List.append_inj' h rfl
        injection h2 with h2
        have := digit_inj (Nat.mod_lt a (by decide)) (Nat.mod_lt b (by decide)) h2
        have := ih (a / 10) (b / 10) (by omega) (by omega) h1
        omega

theorem lower_digit {c : UInt8} (h : 48 ≤ c ∧ c ≤ 57) : lower c = c := by
  unfold lower
  rw [if_neg]
  rintro ⟨h1, _⟩
  exact absurd (UInt8.le_trans h1 h.2) (by decide)

/-- the names that are tried -/
def setName (k : Nat) : Str := mergedSet ++ intToStr k

theorem intToStr_nat (k : Nat) : intToStr (k : Int) = digits 20 k := by
  unfold intToStr
  rw [if_neg (by omega)]
  simp

theorem setName_inj {a b : Nat} (ha : a < 10 ^ 20) (hb : b < 10 ^ 20) (h : SameNoCase (setName a) (setName b)) : a = b := by
  unfold setName at h
  rw [intToStr_nat, intToStr_nat] at h
  unfold SameNoCase at h
  rw [List.map_append, List.map_append] at h
  have h := List.append_cancel_left h
  have hid : ∀ n, (digits 20 n).map lower = digits 20 n := by
    intro n
    conv_rhs => rw [← List.map_id (digits 20 n)]
    exact List.map_congr_left fun c hc => lower_digit (digits_of _ _ c hc)
  rw [hid, hid] at h
  exact digits_inj 20 a b ha hb h

theorem setName_ident (k : Nat) : Ident (setName k) := by
  unfold setName
  rw [intToStr_nat]
  refine ⟨?_, ⟨77, rfl, by decide⟩, ?_⟩
  · have := digits_length 20 k
    rw [List.length_append]
    have : mergedSet.length = 11 := rfl
    omega
  · intro c hc
    rcases List.mem_append.mp hc with hc | hc
    · have hall : ∀ c ∈ mergedSet, 65 ≤ c ∧ c ≤ 90 ∨ 97 ≤ c ∧ c ≤ 122 ∨ 48 ≤ c ∧ c ≤ 57 ∨ c = 95 := by decide
      exact hall c hc
    · have := digits_of 20 k c hc
      exact Or.inr (Or.inr (Or.inl this))

theorem setName_star (k : Nat) : setName k ≠ star := by
  unfold setName mergedSet star
  simp

/-! ### a free name -/

theorem freeName_ok {m : Gx} {syms : List Sym} (hs : m.names = some syms) : ∀ (f k : Nat),
    (∃ n, freeName m f k = .ok (setName n) ∧ ∀ t ∈ syms, ¬ SameNoCase t.name (setName n)) ∨ ∀ j, k ≤ j → j < k + f → symIndex syms (setName j) ≥ 1
  | 0, k => Or.inr fun j h1 h2 => by omega
  | f + 1, k => by
    unfold freeName
    dsimp only
    have hf : findSymbol m (mergedSet ++ intToStr k) = (decide (symIndex syms (setName k) ≥ 1), symIndex syms (setName k)) := by
      unfold findSymbol
      rw [if_neg (show ¬ mergedSet ++ intToStr k = star from setName_star k), hs]
      rfl
    rw [hf]
    dsimp only
    by_cases hc : symIndex syms (setName k) < 0
    · rw [if_pos hc]
      exact Or.inl ⟨k, rfl, symIndex_none.mp (by omega)⟩
    · rw [if_neg hc]
      have h1 : symIndex syms (setName k) ≥ 1 := by
        unfold symIndex indexOf1 at hc ⊢
        cases hl : lookup false (setName k) (syms.map Sym.name) with
        | none => rw [hl] at hc; simp at hc
        | some n => simp
      rcases freeName_ok hs f (k + 1) with h | h
      · exact Or.inl h
      · refine Or.inr fun j h2 h3 => ?_
        by_cases hj : j = k
        · subst hj; exact h1
        · exact h j (by omega) (by omega)

theorem freeName_total {m : Gx} {syms : List Sym} (hs : m.names = some syms) (hl : (syms.length : Int) ≤ 2147483647) :
    ∃ n, freeName m ((systemInfo m).1.toNat + 1) 1 = .ok (setName n) ∧ ∀ t ∈ syms, ¬ SameNoCase t.name (setName n) := by
  have hn : (systemInfo m).1.toNat = syms.length := by
    unfold systemInfo
    rw [hs]
    simp
  rw [hn]
  rcases freeName_ok hs (syms.length + 1) 1 with h | h
  · exact h
  · exfalso
    have hidx : ∀ j, 1 ≤ j → j < 1 + (syms.length + 1) → ∃ i, i < syms.length ∧ lookup false (setName j) (syms.map Sym.name) = some i := by
      intro j h1 h2
      have := h j h1 h2
      unfold symIndex indexOf1 at this
      cases hl : lookup false (setName j) (syms.map Sym.name) with
      | none => rw [hl] at this; simp at this
      | some i =>
        refine ⟨i, ?_, rfl⟩
        obtain ⟨x, hx, _⟩ := lookup_some hl
        have := (List.getElem?_eq_some_iff.mp hx).1
        rwa [List.length_map] at this
    let f : Nat → Nat := fun j => (lookup false (setName (j + 1)) (syms.map Sym.name)).getD 0
    obtain ⟨a, ha, b, hb, hne, hab⟩ := Finset.exists_ne_map_eq_of_card_lt_of_maps_to (s := Finset.range (syms.length + 1)) (t := Finset.range syms.length)
      (f := f) (by simp) (by
        intro j hj
        simp only [Finset.coe_range, Set.mem_Iio] at hj
        obtain ⟨i, h1, h2⟩ := hidx (j + 1) (by omega) (by omega)
        simp only [f, h2, Finset.coe_range, Set.mem_Iio, Option.getD_some]
        exact h1)
    simp only [Finset.mem_range] at ha hb
    obtain ⟨i, h1, h2⟩ := hidx (a + 1) (by omega) (by omega)
    obtain ⟨j, h3, h4⟩ := hidx (b + 1) (by omega) (by omega)
    simp only [f, h2, h4, Option.getD_some] at hab
    subst hab
    obtain ⟨x, x1, x2⟩ := lookup_some h2
    obtain ⟨y, y1, y2⟩ := lookup_some h4
    rw [x1] at y1
    cases y1
    have x2 : SameNoCase x (setName (a + 1)) := x2
    have y2 : SameNoCase x (setName (b + 1)) := y2
    have := setName_inj (by omega) (by omega) (x2.symm.trans y2)
    omega

/-! ### writing the names -/

theorem doWrite_uel {g g' : Gx} {k : List Int} {v : List Dbl} {b : Bool} (h : doWrite g k v = .ok (g', b)) : g'.uel = g.uel ∧ g'.texts = g.texts ∧ namesOf g' = namesOf g := by
  obtain ⟨_, _, _, syms, bad, _, _, hh⟩ := doWrite_cases h
  rcases hh with ⟨_, rfl, rfl⟩ | ⟨_, o, _, ⟨_, rfl, rfl⟩ | ⟨_, rfl, rfl⟩ | ⟨bs, l, _, ha⟩⟩
  · obtain ⟨l, hl⟩ := addErrDom_same (g.raise Err.domainViolation) (List.zipWith (fun b k => if b then -k else k) bad k) v
    rw [hl]; exact ⟨rfl, rfl, rfl⟩
  · obtain ⟨l, hl⟩ := addErr_same (g.raise Err.dataDuplicate) k v
    rw [hl]; exact ⟨rfl, rfl, rfl⟩
  · obtain ⟨l, hl⟩ := addErr_same (g.raise Err.rawNotSorted) k v
    rw [hl]; exact ⟨rfl, rfl, rfl⟩
  · obtain ⟨rfl, hmax, acros, acros', n, syms, s, s', e1, e2, e3, e4, e5, e6, rfl⟩ := acceptRec_cases ha
    refine ⟨rfl, rfl, ?_⟩
    unfold namesOf
    rw [e4]
    simp only [Option.map_some]
    congr 1
    refine map_set_same _ e5 ?_
    obtain ⟨t, bm, _, rfl⟩ := noteElem_ok e6
    rfl

theorem doWrites_uel : ∀ (rs : List (LItem (List Dbl))) {g g' : Gx}, doWrites g rs = .ok g' → g'.uel = g.uel ∧ g'.texts = g.texts ∧ namesOf g' = namesOf g
  | [], g, g', h => by cases h; exact ⟨rfl, rfl, rfl⟩
  | r :: rs, g, g', h => by
    unfold doWrites at h
    obtain ⟨⟨g1, b⟩, h1, h⟩ := Res.bind_eq_ok.mp h
    have a := doWrite_uel h1
    have b := doWrites_uel rs h
    exact ⟨b.1.trans a.1, b.2.1.trans a.2.1, b.2.2.trans a.2.2⟩

theorem finishBlock_uel {z : Cz} {g g' : Gx} (h : finishBlock z g = .ok g') : g'.uel = g.uel ∧ g'.texts = g.texts ∧ namesOf g' = namesOf g := by
  unfold finishBlock at h
  obtain ⟨s, _, h⟩ := Res.bind_eq_ok.mp h
  split at h
  · cases h
  obtain ⟨g5, h5, h⟩ := Res.bind_eq_ok.mp h
  cases h
  unfold Gx.modCur at h5
  split at h5
  · split at h5
    · rename_i n l _ hl _
      cases h5
      refine ⟨rfl, rfl, ?_⟩
      show Option.map _ (some _) = Option.map _ g.names
      rw [hl]
      simp only [Option.map_some]
      congr 1
      apply List.ext_getElem?
      intro i
      rw [List.getElem?_map, List.getElem?_map, List.getElem?_modify]
      cases l[i]? with
      | none => rfl
      | some x =>
        simp only [Option.map_some, Option.some.injEq, Option.map_eq_map]
        split <;> rfl
    · cases h5
  · cases h5

theorem dataWriteDone_uel {z : Cz} {g g' : Gx} {b : Bool} (h : dataWriteDone z g = .ok (g', b)) : g'.uel = g.uel ∧ g'.texts = g.texts ∧ namesOf g' = namesOf g := by
  unfold dataWriteDone at h
  rcases chk_cases g [.wRaw, .wMap, .wStr, .wDomRaw, .wDomMap, .wDomStr] with ⟨_, hc⟩ | ⟨_, hc⟩
  · simp only [hc, Bool.true_eq_false, if_false] at h
    split at h
    · obtain ⟨g4, h4, h⟩ := Res.bind_eq_ok.mp h
      cases h
      exact finishBlock_uel h4
    · obtain ⟨s, _, h⟩ := Res.bind_eq_ok.mp h
      obtain ⟨g1, h1, h⟩ := Res.bind_eq_ok.mp h
      obtain ⟨rs, _, h⟩ := Res.bind_eq_ok.mp h
      obtain ⟨g2, h2, h⟩ := Res.bind_eq_ok.mp h
      obtain ⟨g3, h3, h⟩ := Res.bind_eq_ok.mp h
      cases h
      obtain ⟨_, _, _, m', syms', s', _, e2, e3, rfl⟩ := initDoWrite_ok h1
      have a := doWrites_uel rs h2
      have b := finishBlock_uel h3
      refine ⟨b.1.trans a.1, b.2.1.trans a.2.1, b.2.2.trans (a.2.2.trans ?_)⟩
      unfold namesOf
      rw [e2]
      simp only [Option.map_some]
      congr 1
      exact map_set_same Sym.name (b := { s' with pos := g.nextWrite }) e3 rfl
  · rw [hc] at h
    simp only [if_true] at h
    cases h
    exact ⟨rfl, rfl, rfl⟩

theorem dataWriteStr_texts {g g' : Gx} {k : List Str} {v : List Dbl} {b : Bool} (hm : StrMode g.mode) (h : dataWriteStr g k v = .ok (g', b)) :
    g'.texts = g.texts := by
  rw [dataWriteStr_eq hm] at h
  unfold dataWriteStr at h
  rw [if_neg (by show ¬ (Mode.wStr = Mode.wDomStr); decide)] at h
  rcases chk_cases ({ g with mode := .wStr } : Gx) [.wStr] with ⟨_, hc⟩ | ⟨hc, _⟩
  swap
  · exact absurd (List.mem_singleton.mpr rfl) hc
  simp only [hc, Bool.true_eq_false, if_false] at h
  split at h
  · cases h
  obtain ⟨v, h1, h⟩ := Res.bind_eq_ok.mp h
  obtain ⟨⟨v', ps, ok⟩, h2, h⟩ := Res.bind_eq_ok.mp h
  dsimp only at h
  cases ok with
  | false =>
    simp only [if_true] at h
    cases h
    rfl
  | true =>
    simp only [Bool.true_eq_false, if_false] at h
    obtain ⟨g2, h3, h⟩ := Res.bind_eq_ok.mp h
    cases h
    obtain ⟨_, _, _, _, s, _, _, rfl⟩ := sortAdd_ok h3
    rfl

theorem _root_.Gdx.SortLog.append {e : Env} {z : Cz} {a b c : Gx} {l m : List Given} (h : SortLog e z a l b) (k : SortLog e z b m c) : SortLog e z a (l ++ m) c := by
  induction h with
  | nil g => exact k
  | map hm hu hw h _ ih => rw [List.append_assoc]; exact .map hm hu hw h (ih k)
  | str hm hw h hu hk _ ih => rw [List.append_assoc]; exact .str hm hw h hu hk (ih k)
  | other hc hw hr h _ ih => exact .other hc hw hr h (ih k)

/-- the record for the name of a file -/
structure NameRec (L T : List Str) (f : InFile) (y : Given) : Prop where
  key : List.Forall₂ (Label L) y.1 [f.id]
  vals : ∃ j : Nat, y.2 = [intDbl j] ∧ T[j]? = some (makeGoodExplText (f.info.take 255))

theorem NameRec.mono {L L' T T' : List Str} {f : InFile} {y : Given} (h : NameRec L T f y) (hl : L <+: L') (ht : T <+: T') : NameRec L' T' f y := by
  refine ⟨h.key.imp fun _ _ h => h.mono hl, ?_⟩
  obtain ⟨j, h1, h2⟩ := h.vals
  refine ⟨j, h1, ?_⟩
  obtain ⟨q, rfl⟩ := ht
  rw [List.getElem?_append_left (List.getElem?_eq_some_iff.mp h2).1]
  exact h2

/-- the state while the names are written -/
structure Naming (e : Env) (z : Cz) (g1 : Gx) (m : Nat) (d : SymDesc) (its : List Given) (u : Uel) (T : List Str) (g : Gx) : Prop where
  log : SortLog e z g1 its g
  coll : Gdx.Coll g m d its
  str : StrOk g
  mode : StrMode g.mode
  fine : Fine g
  uel : g.uel = some u
  texts : textsOf g = some T
  sv : g.sv = g1.sv
  bits : g.wrBits = g1.wrBits
  nd : g.nd = 1 ∧ g.dataSize = 1
  names : namesOf g = namesOf g1

theorem writeName_ok {e : Env} {z : Cz} {g1 g : Gx} {m : Nat} {d : SymDesc} {its : List Given} {u : Uel} {T : List Str} (h : Naming e z g1 m d its u T g)
    {f : InFile} (hf : GoodLabel f.id) (hi : ZFree f.info) (hb : (u.ents.length : Int) + 1 ≤ 2147483391) :
    ∃ g2 k g' u' T' y, addSetText g f.info = (g2, (true, k)) ∧ dataWriteStr g2 [f.id] [intDbl k] = .ok (g', true) ∧ Naming e z g1 m d (its ++ [y]) u' T' g' ∧
      u.strs <+: u'.strs ∧ u'.ents.length ≤ u.ents.length + 1 ∧ T <+: T' ∧ NameRec u'.strs T' f y := by
  obtain ⟨g2, T2, j, x, a1, a2, a3, a4, a5⟩ := addSetText_tabs h.texts f.info
  have hlog : SortLog e z g [] g2 := by
    refine .other (c := .addSetText f.info) (Or.inl rfl) hi (Or.inr (by simp)) ?_ (.nil _)
    show Res.ok (addSetText g f.info).1 = _
    rw [a1]
  have hfit : TabFits g2 := by
    intro v hv
    rw [a2] at hv
    have hv : g.uel = some v := hv
    rw [h.uel] at hv
    cases hv
    omega
  have hm2 : StrMode g2.mode := by rw [a2]; exact h.mode
  have hf2 := hlog.fine h.fine
  have hc2 := h.coll.log hlog (Or.inr h.mode) (fun _ => h.str) h.fine hfit (Or.inr hm2)
  rw [List.append_nil] at hc2
  have hu2 : g2.uel = some u := by rw [a2]; exact h.uel
  have hs2 : StrOk g2 := h.str.congr (by rw [a2]) (by rw [a2]) (by rw [a2]) (by rw [a2]; rfl) hf2.inv.els (by
    intro u' hu'
    rw [hu2] at hu'
    cases hu'
    exact ⟨u, h.uel, [], by simp⟩)
  have hnd : g2.nd = 1 ∧ g2.dataSize = 1 := by rw [a2]; exact h.nd
  have hlen : f.id.length < 64 := goodUEL_len hf.1
  obtain ⟨⟨g', b⟩, h1⟩ := hc2.strTotal (key := [f.id]) (vals := [intDbl j]) hs2 hm2 hf2.inv.els (by
      intro v hv
      rw [hu2] at hv
      cases hv
      simp only [List.length_singleton]
      omega) hnd.1.symm (fun k hk => trimR_short (by rw [List.mem_singleton.mp hk]; omega)) hnd.2.symm
  have hz : ∀ k ∈ [f.id], ZFree k := by
    intro k hk
    rw [List.mem_singleton.mp hk]
    exact goodUEL_zfree hf.1
  have hf3 : Fine g' := hf2.step (e := e) (z := z) (c := .writeStr [f.id] [intDbl j]) hz rfl (by show stateOf _ = _; rw [h1]; rfl)
  have hgrow : ∀ u', g'.uel = some u' → u'.ents.length ≤ u.ents.length + 1 := fun u' hu' => dataWriteStr_grow hm2 hu2 h1 hu'
  obtain ⟨c1, c2, cr, v, u', c4, c5, c6, c7⟩ := hc2.str hs2 hm2 hf2.inv.els (by
    intro v hv
    have := hgrow v hv
    omega) h1
  rw [hu2] at c4
  cases c4
  cases b with
  | false =>
    exfalso
    obtain ⟨_, k, k2, _, k4⟩ := c7
    rw [List.mem_singleton.mp k2, hf.2, hf.1] at k4
    cases k4
  | true =>
    obtain ⟨ks, k1, k2⟩ := c7
    have hnd' : g'.nd = 1 ∧ g'.dataSize = 1 := ⟨by unfold Gx.nd; rw [cr.dim]; exact hnd.1, cr.size.trans hnd.2⟩
    refine ⟨g2, j, g', u', T2, (ks, [intDbl j]), a1, h1, ⟨?_, k2, c2, c1, hf3, c5, ?_, ?_, ?_, hnd', ?_⟩, ?_, hgrow u' c5, a4, ?_, j, rfl, a5⟩
    · refine h.log.append ?_
      have h0 : SortLog e z g2 ((if true then [(ks, [intDbl j])] else []) ++ []) g' := .str hm2 hz h1 c5 (fun _ => k1) (.nil _)
      have := hlog.append h0
      simpa using this
    · unfold textsOf at a3 ⊢
      rw [dataWriteStr_texts hm2 h1]
      exact a3
    · rw [cr.sv, a2]
      exact h.sv
    · rw [cr.bits, a2]
      exact h.bits
    · unfold namesOf
      rw [cr.names, a2]
      exact h.names
    · obtain ⟨t, ht⟩ := c6
      exact ⟨t, ht.symm⟩
    · cases k1 with
      | cons k3 k5 =>
        cases k5
        refine .cons ⟨k3.2.1, ?_⟩ .nil
        have := k3.str
        rwa [hf.2] at this

theorem writeNames_ok {e : Env} {z : Cz} {g1 : Gx} {m : Nat} {d : SymDesc} (fs : List InFile) : ∀ {its : List Given} {u : Uel} {T : List Str} {g : Gx},
    Naming e z g1 m d its u T g → (∀ f ∈ fs, GoodLabel f.id ∧ ZFree f.info) → ((u.ents.length + fs.length : Nat) : Int) ≤ 2147483391 →
    ∃ g' u' T' its', writeNames g fs = .ok g' ∧ Naming e z g1 m d (its ++ its') u' T' g' ∧ u.strs <+: u'.strs ∧ u'.ents.length ≤ u.ents.length + fs.length ∧
      T <+: T' ∧ List.Forall₂ (NameRec u'.strs T') fs its' := by
  induction fs with
  | nil =>
    intro its u T g h _ _
    exact ⟨g, u, T, [], rfl, by rw [List.append_nil]; exact h, List.prefix_refl _, Nat.le_refl _, List.prefix_refl _, .nil⟩
  | cons f fs ih =>
    intro its u T g h hf hb
    rw [List.length_cons] at hb
    obtain ⟨g2, k, g3, u1, T1, y, a1, a2, a3, a4, a5, a6, a7⟩ := writeName_ok h (hf f (by simp)).1 (hf f (by simp)).2 (by omega)
    obtain ⟨g', u', T', its', b1, b2, b3, b4, b5, b6⟩ := ih a3 (fun f' h' => hf f' (by simp [h'])) (by omega)
    refine ⟨g', u', T', y :: its', ?_, ?_, a4.trans b3, ?_, a6.trans b5, .cons (a7.mono b3 b5) b6⟩
    · unfold writeNames
      rw [a1]
      simp only [a2, Res.bind_ok]
      exact b1
    · rw [List.append_assoc] at b2
      exact b2
    · rw [List.length_cons]
      omega

theorem names_distinct {L T : List Str} {fs : List InFile} {its : List Given} (h : List.Forall₂ (NameRec L T) fs its)
    (hd : fs.Pairwise fun a b => ¬ SameNoCase a.id b.id) : (its.map Prod.fst).Nodup := by
  induction h with
  | nil => exact List.nodup_nil
  | @cons f y fs its h1 hr ih =>
    rw [List.pairwise_cons] at hd
    rw [List.map_cons, List.nodup_cons]
    refine ⟨?_, ih hd.2⟩
    intro hm
    obtain ⟨y', hy', he⟩ := List.mem_map.mp hm
    obtain ⟨i, hi, hg⟩ := List.mem_iff_getElem.mp hy'
    have hi' : i < fs.length := by rw [hr.length_eq]; exact hi
    have hx := (List.forall₂_iff_get.mp hr).2 i hi' hi
    simp only [List.get_eq_getElem, hg] at hx
    refine hd.1 fs[i] (List.getElem_mem hi') ?_
    have k1 := h1.key
    have k2 := hx.key
    rw [he] at k2
    revert k1 k2
    generalize y.1 = q
    intro k1 k2
    cases k1 with
    | cons a _ => cases k2 with
      | cons b _ => exact a.same b

theorem strict_of {α : Type} {l : List (List Int × α)} (h1 : l.Pairwise fun x y => ¬ y.1 < x.1) (h2 : (l.map Prod.fst).Nodup) : (l.map Prod.fst).Pairwise (· < ·) := by
  rw [List.pairwise_map]
  have h3 : l.Pairwise fun x y => x.1 ≠ y.1 := List.pairwise_map.mp h2
  refine (h1.and h3).imp ?_
  rintro x y ⟨a, b⟩
  rcases lt_trichotomy x.1 y.1 with h | h | h
  · exact h
  · exact absurd h b
  · exact absurd h a

theorem strStart_texts {g g1 : Gx} {name text : Str} {dim typ ui : Int} (h : dataWriteStrStart g name text dim typ ui = .ok (g1, true)) :
    g1.texts = g.texts ∧ namesOf g1 = (namesOf g).map (· ++ [name]) := by
  unfold dataWriteStrStart at h
  obtain ⟨⟨gp, b⟩, h1, h⟩ := Res.bind_eq_ok.mp h
  dsimp only at h
  cases b with
  | false => cases h
  | true =>
    simp only [Bool.true_eq_false, if_false] at h
    cases h
    rcases prepareWrite_cases h1 with ⟨hf, _⟩ | ⟨_, _, syms, sy, k1, k2, _, _, _, _, _, _, _, _, _, he⟩
    · cases hf
    subst he
    refine ⟨rfl, ?_⟩
    unfold namesOf
    rw [k1]
    simp only [Option.map_some, List.map_append, List.map_cons, List.map_nil]
    rw [← k2]

theorem writeNameList_ok {e : Env} {z : Cz} (hz : z.Good) {N T : List Str} {g : Gx} {u : Uel} (ho : Out e z N T g) (hu : g.uel = some u) {fs : List InFile}
    (hf : ∀ f ∈ fs, GoodLabel f.id ∧ ZFree f.info) (hd : fs.Pairwise fun a b => ¬ SameNoCase a.id b.id) (hN : (N.length : Int) ≤ 2147483647)
    (hb : ((u.ents.length + fs.length : Nat) : Int) ≤ 2147483391) :
    ∃ n g' u' T' its ys, writeNameList z g fs = .ok g' ∧ (∀ x ∈ N, ¬ SameNoCase x (setName n)) ∧ g'.mode = .wInit ∧ After e z g' ∧ StaysIn e z g g' ∧
      g'.uel = some u' ∧ u.strs <+: u'.strs ∧ textsOf g' = some T' ∧ T <+: T' ∧ List.Forall₂ (NameRec u'.strs T') fs its ∧ its.Perm ys ∧
      Written e z (setName n) 1 0 0 N.length (ys.map (entryOf SVTab.default)) g' ∧ namesOf g' = some (N ++ [setName n]) ∧
      Explained g' N.length mergeSet := by
  obtain ⟨acros, ha, hnl⟩ := ho.acr
  have hN' := ho.names
  unfold namesOf at hN'
  obtain ⟨syms, hs, rfl⟩ := Option.map_eq_some_iff.mp hN'
  rw [List.length_map] at hN ⊢
  obtain ⟨n, hn1, hn2⟩ := freeName_total hs hN
  have hid : Ident (setName n) := setName_ident n
  have hnew : NewName syms acros (setName n) := by
    refine ⟨hid, hn2, fun a hal => ?_⟩
    rw [hnl a hal]
    exact not_same_nil hid
  have f0 := ho.aft.fine hz
  have hst := f0.stat ho.mode
  have hnw : 0 ≤ g.nextWrite := by have := (f0.inv.head hst).next; omega
  have hzn : ZFree (setName n) := (ident_zfree ((C14_ident _).mpr hid)).1
  have hzt : ZFree mergeSet := by unfold mergeSet ZFree; decide
  cases h1 : dataWriteStrStart g (setName n) mergeSet 1 0 0 with
  | ub => exact absurd h1 (C14_defined g syms acros ho.mode hs ha hnw (setName n) mergeSet 1 0 0).2.2.1
  | ok r =>
    obtain ⟨g1, b⟩ := r
    have hb1 := (C14_accept dataWriteStrStart (Or.inr (Or.inr (Or.inl rfl))) g g1 syms acros ho.mode hs ha (setName n) mergeSet 1 0 0 b h1).1.mpr
      ⟨hnew, by omega, by omega⟩
    subst hb1
    obtain ⟨_, hm1, syms', e1, hc1, hO, hp1⟩ := Coll.strStart h1 (fine_names f0)
    rw [hs] at e1
    cases e1
    have hwf : (Call.strStart (setName n) mergeSet 1 0 0).WF := ⟨hzn, hzt, by unfold I32; omega, by unfold I32; omega, by unfold I32; omega⟩
    have f1 : Fine g1 := f0.step (e := e) (z := z) (c := .strStart (setName n) mergeSet 1 0 0) hwf rfl (by show stateOf _ = _; rw [h1]; rfl)
    have hT1 : textsOf g1 = some T := by
      have := ho.texts
      unfold textsOf at this ⊢
      rw [(strStart_texts h1).1]
      exact this
    obtain ⟨g2, u', T', its, a1, a2, a3, a4, a5, a6⟩ := writeNames_ok fs (g1 := g1) (g := g1) (e := e) (z := z) (its := []) (u := u) (T := T)
      ⟨.nil _, hc1, hp1, hm1, f1, hO.uel.trans hu, hT1, rfl, rfl, ⟨by unfold Gx.nd; rw [hO.dim]; rfl, hO.size⟩, rfl⟩ hf hb
    rw [List.nil_append] at a2
    have ht2 : TabFits g2 := by
      intro v hv
      rw [a2.uel] at hv
      cases hv
      omega
    have hil : (its.length : Int) ≤ intMax := by
      have := a6.length_eq
      unfold intMax
      omega
    obtain ⟨ss, g3, l, q1, q2, q3, q4, _⟩ := finishSorted hz ho.aft hs hwf (Or.inr h1) a2.log (Or.inr a2.mode) ht2 hil
      (DomsFix.none (by
        intro w hw
        rw [a2.bits, hO.new.bits] at hw
        exact List.eq_of_mem_replicate hw)) a2.coll a2.fine
    have hperm : its.Perm ss := q1.perm.symm
    have hnd : (ss.map Prod.fst).Nodup := (hperm.map _).nodup_iff.mp (names_distinct a6 hd)
    have hstr := strict_of q1.sorted hnd
    rw [(storedOf_sorted ss none (by simp) hstr).1, a2.sv, hO.sv, ho.sv] at q4
    obtain ⟨d1, d2, d3⟩ := dataWriteDone_uel q2
    have hin1 : StaysIn e z g g1 := .one (c := .strStart (setName n) mergeSet 1 0 0) hwf rfl (by show stateOf _ = _; rw [h1]; rfl)
    have hin2 : StaysIn e z g1 g3 := (StaysIn.sortLog a2.log).trans (.one (c := .writeDone) trivial rfl (by show stateOf _ = _; rw [q2]; rfl))
    have hin : StaysIn e z g g3 := hin1.trans hin2
    have hnm3 : namesOf g3 = some (syms.map Sym.name ++ [setName n]) := by
      rw [d3, a2.names, (strStart_texts h1).2, ho.names]
      rfl
    obtain ⟨l3, hl3, _⟩ := Option.map_eq_some_iff.mp (show g3.names.map (fun l => l.map Sym.name) = _ from hnm3)
    have hex := (strStart_expl h1 hs).stays hz (ho.aft.more hin1) hin2 hl3
    have hmg : makeGoodExplText (assignExpl mergeSet) = mergeSet := by decide +kernel
    rw [hmg] at hex
    refine ⟨n, g3, u', T', its, ss, ?_, ?_, q3, ho.aft.more hin, hin, d1.trans a2.uel, a3, ?_, a5, a6, hperm, q4, hnm3, hex⟩
    · unfold writeNameList
      rw [hn1]
      simp only [Res.bind_ok, h1, a1, q2, Res.pure_eq]
    · intro x hx
      obtain ⟨t, ht, rfl⟩ := List.mem_map.mp hx
      exact hn2 t ht
    · have := a2.texts
      unfold textsOf at this ⊢
      rw [d2]
      exact this

end Gdx.Merge
