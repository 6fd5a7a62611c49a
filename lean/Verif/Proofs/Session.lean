import Verif.Proofs.Enc
import Verif.Proofs.EvoWrite
import Verif.Proofs.TableRound

/-!
The data block that is being written.
-/

namespace Gdx
open Spec

/-- record `r` as it is stored with the special values `t` -/
def stored (t : SVTab) (key : List Int) (vals : List Dbl) : Rec := ⟨key, vals.map (storeVal t)⟩

/-- The block of symbol `m + 1` is being written and holds the records `rs`. -/
structure Blk (g : Gx) (m : Nat) (rs : List Rec) : Prop where
  cur : g.cur = .sym (m + 1)
  sym : ∃ syms s, g.names = some syms ∧ syms[m]? = some s ∧ s.dim = g.curDim ∧ g.dataSize = dataTypSize s.typ ∧
    s.pos = g.nextWrite
  dim : 0 ≤ g.curDim ∧ g.curDim ≤ 20
  bl : g.bounds.length = g.nd
  b32 : ∀ b ∈ g.bounds, I32 b.1 ∧ I32 b.2
  last : LastSeen g.nd g.last rs.length (lastKey none rs)
  cnt : g.dataCount = rs.length
  max : (rs.length : Int) ≤ intMax
  enc : ∃ nr out, I32 nr ∧ g.blk = encBlockHeader g.nd nr g.bounds ++ out ∧
    Enc g.nd g.nd g.dataSize (g.bounds.map posDesc) none rs out
  next : 0 ≤ g.nextWrite

theorem Blk.congr {g g' : Gx} {m : Nat} {rs : List Rec} (h : Blk g m rs) (h1 : g'.cur = g.cur) (h2 : g'.names = g.names)
    (h3 : g'.curDim = g.curDim) (h4 : g'.dataSize = g.dataSize) (h5 : g'.bounds = g.bounds) (h6 : g'.last = g.last)
    (h7 : g'.dataCount = g.dataCount) (h8 : g'.blk = g.blk) (h9 : g'.nextWrite = g.nextWrite) : Blk g' m rs := by
  have hnd : g'.nd = g.nd := by unfold Gx.nd; rw [h3]
  obtain ⟨a1, a2, a3, a4, a5, a6, a7, a8, a9, a10⟩ := h
  refine ⟨?_, ?_, ?_, ?_, ?_, ?_, ?_, a8, ?_, ?_⟩
  · rw [h1]; exact a1
  · rw [h2, h3, h4, h9]; exact a2
  · rw [h3]; exact a3
  · rw [h5, hnd]; exact a4
  · rw [h5]; exact a5
  · rw [hnd, h6]; exact a6
  · rw [h7]; exact a7
  · rw [hnd, h5, h4, h8]; exact a9
  · rw [h9]; exact a10

/-! ### DoWrite -/

theorem acceptRec_cases {g g' : Gx} {key : List Int} {vals : List Dbl} {bs : List UInt8} {b : Bool}
    (h : acceptRec g key vals bs = .ok (g', b)) :
    b = true ∧ g.dataCount < intMax ∧ ∃ acros acros' n syms s s', g.acros = some acros ∧
      checkAcros acros (vals.map (storeVal g.sv)) = .ok acros' ∧ g.cur = .sym (n + 1) ∧ g.names = some syms ∧
      syms[n]? = some s ∧ noteElem key vals s = .ok s' ∧
      g' = { g with blk := g.blk ++ bs ++ encSVals (vals.map (storeVal g.sv)), last := key, dataCount := g.dataCount + 1,
                    acros := some acros', names := some (syms.set n s') } := by
  unfold acceptRec at h
  split at h
  · cases h
  rename_i hc
  obtain ⟨acros, h1, h⟩ := Res.bind_eq_ok.mp h
  obtain ⟨acros', h2, h⟩ := Res.bind_eq_ok.mp h
  obtain ⟨s, h3, h⟩ := Res.bind_eq_ok.mp h
  obtain ⟨s', h4, h⟩ := Res.bind_eq_ok.mp h
  obtain ⟨g1, h5, h⟩ := Res.bind_eq_ok.mp h
  cases h
  obtain ⟨n, syms, c1, c2, c3⟩ := curSym_ok h3
  obtain ⟨n', syms', t, d1, d2, d3, rfl⟩ := modCur_ok h5
  simp only at d1 d2
  rw [c1] at d1
  rw [c2] at d2
  cases d1
  cases d2
  rw [c3] at d3
  cases d3
  exact ⟨rfl, by omega, acros, acros', n, syms, s, s', need_ok h1, h2, c1, c2, c3, h4, rfl⟩

/-- What DoWrite does, without interpretation -/
theorem doWrite_cases {g g' : Gx} {key : List Int} {vals : List Dbl} {b : Bool} (h : doWrite g key vals = .ok (g', b)) :
    key.length = g.nd ∧ vals.length = g.dataSize ∧ (∀ k ∈ key, I32 k) ∧ ∃ syms bad, g.names = some syms ∧
      domBad syms g.wrBits key = .ok bad ∧
      ((bad.any id = true ∧ b = false ∧ g' = addErrDom (g.raise Err.domainViolation)
          (List.zipWith (fun b k => if b then -k else k) bad key) vals) ∨
       (bad.any id = false ∧ ∃ o, encKey g.nd g.nd (g.bounds.map posDesc) g.last g.dataCount.toNat key = .ok o ∧
          ((o = .dup ∧ b = false ∧ g' = addErr (g.raise Err.dataDuplicate) key vals) ∨
           (o = .unsorted ∧ b = false ∧ g' = addErr (g.raise Err.rawNotSorted) key vals) ∨
           (∃ bs l, o = .put bs l ∧ acceptRec g l vals bs = .ok (g', b))))) := by
  unfold doWrite at h
  split at h
  · cases h
  rename_i hc
  have h1 : key.length = g.nd := by
    by_contra hx; exact hc (Or.inl hx)
  have h2 : vals.length = g.dataSize := by
    by_contra hx; exact hc (Or.inr (Or.inl hx))
  have h3 : ∀ k ∈ key, I32 k := by
    by_contra hx; exact hc (Or.inr (Or.inr hx))
  obtain ⟨syms, h4, h⟩ := Res.bind_eq_ok.mp h
  obtain ⟨bad, h5, h⟩ := Res.bind_eq_ok.mp h
  refine ⟨h1, h2, h3, syms, bad, need_ok h4, h5, ?_⟩
  split at h
  · rename_i hb
    cases h
    exact Or.inl ⟨hb, rfl, rfl⟩
  · rename_i hb
    obtain ⟨o, h6, h⟩ := Res.bind_eq_ok.mp h
    refine Or.inr ⟨by simpa using hb, o, h6, ?_⟩
    cases o with
    | dup => cases h; exact Or.inl ⟨rfl, rfl, rfl⟩
    | unsorted => cases h; exact Or.inr (Or.inl ⟨rfl, rfl, rfl⟩)
    | put bs l => exact Or.inr (Or.inr ⟨bs, l, rfl, h⟩)

theorem addErr_same (g : Gx) (k : List Int) (v : List Dbl) : ∃ l, addErr g k v = { g with errList := l } := by
  unfold addErr
  split
  · exact ⟨_, rfl⟩
  · split
    · exact ⟨g.errList, rfl⟩
    · exact ⟨_, rfl⟩

theorem addErrDom_same (g : Gx) (k : List Int) (v : List Dbl) : ∃ l, addErrDom g k v = { g with errList := l } := by
  unfold addErrDom
  dsimp only
  split
  · exact ⟨g.errList, rfl⟩
  · split <;> exact ⟨_, rfl⟩

/-- What happened to a record -/
inductive Fate where
  | put | dom | dup | unsorted
  deriving DecidableEq, Repr

/-- A record against the stored ones: the outcome of DoWrite. `bad`: an index is outside of its domain. -/
def fate (dim : Nat) (bad : Bool) (rs : List Rec) (key : List Int) : Fate :=
  if bad then .dom
  else if dim = 0 then .put
  else match lastKey none rs with
    | none => .put
    | some l => if l < key then .put else if key = l then .dup else .unsorted

theorem fate_put {dim : Nat} {bad : Bool} {rs : List Rec} {key : List Int} :
    fate dim bad rs key = .put ↔ bad = false ∧ (dim = 0 ∨ ∀ l, lastKey none rs = some l → l < key) := by
  unfold fate
  cases bad with
  | true => simp
  | false =>
    simp only [Bool.false_eq_true, if_false]
    by_cases hd : dim = 0
    · simp [hd]
    · rw [if_neg hd]
      cases lastKey none rs with
      | none => simp
      | some l =>
        simp only
        split
        · rename_i h
          simp [h]
        · rename_i h
          simp only [true_and]
          constructor
          · intro h'; split at h' <;> cases h'
          · rintro (h' | h')
            · exact absurd h' hd
            · exact absurd (h' l rfl) h

/-- the state after an accepted record -/
def Accepted (g : Gx) (m : Nat) (key : List Int) (vals : List Dbl) (g' : Gx) : Prop :=
  ∃ acros acros' syms s s' bs, g.acros = some acros ∧ checkAcros acros (vals.map (storeVal g.sv)) = .ok acros' ∧
    g.names = some syms ∧ syms[m]? = some s ∧ noteElem key vals s = .ok s' ∧
    g' = { g with blk := g.blk ++ bs ++ encSVals (vals.map (storeVal g.sv)), last := key, dataCount := g.dataCount + 1,
                  acros := some acros', names := some (syms.set m s') }

/-- the state after a record with this fate -/
def fateState (g : Gx) (m : Nat) (bad : List Bool) (key : List Int) (vals : List Dbl) : Fate → Gx → Prop
  | .put, g' => Accepted g m key vals g'
  | .dom, g' => g' = addErrDom (g.raise Err.domainViolation) (List.zipWith (fun b k => if b then -k else k) bad key) vals
  | .dup, g' => g' = addErr (g.raise Err.dataDuplicate) key vals
  | .unsorted, g' => g' = addErr (g.raise Err.rawNotSorted) key vals

theorem Blk.accept {g g' : Gx} {m : Nat} {rs : List Rec} (h : Blk g m rs) {key : List Int} {vals : List Dbl} {bs : List UInt8}
    (hkl : key.length = g.nd) (hvl : vals.length = g.dataSize) (hn : ∀ k ∈ key, KeyNum k)
    (hord : g.nd = 0 ∨ ∀ l, lastKey none rs = some l → l < key) (hd : KeyDec g.nd g.nd (g.bounds.map posDesc) (lastKey none rs) key bs)
    (hb : bs ≠ []) {b : Bool} (ha : acceptRec g key vals bs = .ok (g', b)) :
    b = true ∧ Accepted g m key vals g' ∧ Blk g' m (rs ++ [stored g.sv key vals]) := by
  obtain ⟨rfl, hmax, acros, acros', n, syms, s, s', e1, e2, e3, e4, e5, e6, rfl⟩ := acceptRec_cases ha
  rw [h.cur] at e3
  cases e3
  refine ⟨rfl, ⟨acros, acros', syms, s, s', bs, e1, e2, e4, e5, e6, rfl⟩, ?_⟩
  obtain ⟨bf, bm, _, rfl⟩ := noteElem_ok e6
  have hcnt := h.cnt
  refine ⟨h.cur, ?_, h.dim, h.bl, h.b32, ?_, ?_, ?_, ?_, h.next⟩
  · obtain ⟨syms', t, f1, f2, f3, f4, f5⟩ := h.sym
    rw [e4] at f1
    cases f1
    rw [e5] at f2
    cases f2
    refine ⟨_, { s with setText := bf, bitmap := bm }, rfl, ?_, f3, f4, f5⟩
    rw [List.getElem?_set, if_pos rfl, if_pos (List.getElem?_eq_some_iff.mp e5).1]
  · show LastSeen g.nd key (rs ++ [stored g.sv key vals]).length (lastKey none (rs ++ [stored g.sv key vals]))
    rw [lastKey_snoc]
    exact .seen hkl hn (by simp)
  · show g.dataCount + 1 = ((rs ++ [stored g.sv key vals]).length : Int)
    simp [hcnt]
  · rw [List.length_append, List.length_singleton]; push_cast; omega
  · obtain ⟨nr, out, i1, i2, i3⟩ := h.enc
    refine ⟨nr, out ++ (bs ++ encSVals (vals.map (storeVal g.sv))), i1, ?_, ?_⟩
    · show g.blk ++ bs ++ _ = _
      rw [i2]
      simp [List.append_assoc, Gx.nd]
    · refine i3.snoc hd hb ?_
      refine ⟨hkl, hn, ?_, ?_, hord⟩
      · show (vals.map (storeVal g.sv)).length = g.dataSize
        rw [List.length_map]; exact hvl
      · intro v hv
        obtain ⟨x, _, rfl⟩ := List.mem_map.mp hv
        exact storeVal_wf _ _

/-- DoWrite of a record whose indices are not negative. -/
theorem Blk.doWrite {g g' : Gx} {m : Nat} {rs : List Rec} (h : Blk g m rs) {key : List Int} {vals : List Dbl} {b : Bool}
    (hk : ∀ k ∈ key, 0 ≤ k) (hw : doWrite g key vals = .ok (g', b)) :
    ∃ syms bad, g.names = some syms ∧ domBad syms g.wrBits key = .ok bad ∧
      fateState g m bad key vals (fate g.nd (bad.any id) rs key) g' ∧ (b = true ↔ fate g.nd (bad.any id) rs key = .put) ∧
      Blk g' m (if b then rs ++ [stored g.sv key vals] else rs) := by
  obtain ⟨h1, h2, h3, syms, bad, h4, h5, hh⟩ := doWrite_cases hw
  refine ⟨syms, bad, h4, h5, ?_⟩
  have hn : ∀ k ∈ key, KeyNum k := fun k hk' => ⟨hk k hk', h3 k hk'⟩
  rcases hh with ⟨hb, rfl, rfl⟩ | ⟨hb, o, ho, hh⟩
  · have hf : fate g.nd (bad.any id) rs key = .dom := by unfold fate; rw [hb]; rfl
    rw [hf]
    refine ⟨rfl, by simp, ?_⟩
    obtain ⟨l, hl⟩ := addErrDom_same (g.raise Err.domainViolation) (List.zipWith (fun b k => if b then -k else k) bad key) vals
    rw [hl]
    exact h.congr rfl rfl rfl rfl rfl rfl rfl rfl rfl
  · have hcn : g.dataCount.toNat = rs.length := by rw [h.cnt]; rfl
    rw [hcn] at ho
    have hnd : g.nd ≤ 20 := by have := h.dim; unfold Gx.nd; omega
    have hbl : (g.bounds.map posDesc).length = g.nd := by rw [List.length_map]; exact h.bl
    rcases encKey_res (le_refl _) hnd (fun e => e) hbl h.last h1 hn ho with ⟨rfl, hd, hp⟩ | ⟨rfl, hd, l, hp, hlt⟩ |
      ⟨bs, rfl, hne, hord, hdec⟩
    · have hf : fate g.nd (bad.any id) rs key = .dup := by
        unfold fate
        rw [hb, hp, if_neg (by simp), if_neg hd]
        show (if key < key then Fate.put else if key = key then Fate.dup else .unsorted) = .dup
        rw [if_neg (List.lt_irrefl key), if_pos rfl]
      rw [hf]
      rcases hh with ⟨_, rfl, rfl⟩ | ⟨hc, _⟩ | ⟨_, _, hc, _⟩
      · refine ⟨rfl, by simp, ?_⟩
        obtain ⟨l, hl⟩ := addErr_same (g.raise Err.dataDuplicate) key vals
        rw [hl]
        exact h.congr rfl rfl rfl rfl rfl rfl rfl rfl rfl
      · cases hc
      · cases hc
    · have hf : fate g.nd (bad.any id) rs key = .unsorted := by
        unfold fate
        rw [hb, hp, if_neg (by simp), if_neg hd]
        simp only
        have h6 : ¬ l < key := fun hc => List.lt_irrefl key (List.lt_trans hlt hc)
        have h7 : key ≠ l := fun hc => by subst hc; exact List.lt_irrefl key hlt
        rw [if_neg h6, if_neg h7]
      rw [hf]
      rcases hh with ⟨hc, _⟩ | ⟨_, rfl, rfl⟩ | ⟨_, _, hc, _⟩
      · cases hc
      · refine ⟨rfl, by simp, ?_⟩
        obtain ⟨l, hl⟩ := addErr_same (g.raise Err.rawNotSorted) key vals
        rw [hl]
        exact h.congr rfl rfl rfl rfl rfl rfl rfl rfl rfl
      · cases hc
    · have hf : fate g.nd (bad.any id) rs key = .put := fate_put.mpr ⟨hb, hord⟩
      rw [hf]
      rcases hh with ⟨hc, _⟩ | ⟨hc, _⟩ | ⟨bs', l, hc, ha⟩
      · cases hc
      · cases hc
      · cases hc
        obtain ⟨rfl, h6, h7⟩ := h.accept h1 h2 hn hord hdec hne ha
        exact ⟨h6, by simp, h7⟩

end Gdx
