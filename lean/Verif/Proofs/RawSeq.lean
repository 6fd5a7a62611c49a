import Verif.Proofs.RawTotal
import Verif.Proofs.PhaseAll
import Verif.Spec.Writing

/-!
A sequence of gdxDataWriteRaw calls.
-/

namespace Gdx

open Spec

/-- call gdxDataWriteRaw for all the records; the results of the calls -/
def writesRaw : Gx → List Given → Res (Gx × List Bool)
  | g, [] => .ok (g, [])
  | g, x :: l => do
    let (g, b) ← dataWriteRaw g x.1 x.2
    let (g, bs) ← writesRaw g l
    pure (g, b :: bs)

/-- what a sequence of writes does not change -/
structure WrSame (g g' : Gx) : Prop where
  wrBits : g'.wrBits = g.wrBits
  bounds : g'.bounds = g.bounds
  dim : g'.curDim = g.curDim
  size : g'.dataSize = g.dataSize
  sv : g'.sv = g.sv
  acros : g.acros.isSome = true → g'.acros.isSome = true
  stat : g'.stat = g.stat
  next : g'.nextWrite = g.nextWrite
  major : g'.majorPos = g.majorPos

theorem WrSame.refl (g : Gx) : WrSame g g := ⟨rfl, rfl, rfl, rfl, rfl, id, rfl, rfl, rfl⟩

theorem WrSame.trans {a b c : Gx} (h : WrSame a b) (k : WrSame b c) : WrSame a c :=
  ⟨k.wrBits.trans h.wrBits, k.bounds.trans h.bounds, k.dim.trans h.dim, k.size.trans h.size, k.sv.trans h.sv,
   fun x => k.acros (h.acros x), k.stat.trans h.stat, k.next.trans h.next, k.major.trans h.major⟩

theorem fateState_same {g g' : Gx} {m : Nat} {bad : List Bool} {key : List Int} {vals : List Dbl} {f : Fate}
    (h : fateState g m bad key vals f g') : WrSame g g' := by
  cases f with
  | put =>
    obtain ⟨_, _, _, _, _, _, _, _, _, _, _, rfl⟩ := h
    exact ⟨rfl, rfl, rfl, rfl, rfl, fun _ => rfl, rfl, rfl, rfl⟩
  | dom =>
    have h : g' = _ := h
    obtain ⟨l, hl⟩ := addErrDom_same (g.raise Err.domainViolation) (List.zipWith (fun b k => if b then -k else k) bad key) vals
    rw [hl] at h
    subst h
    exact ⟨rfl, rfl, rfl, rfl, rfl, id, rfl, rfl, rfl⟩
  | dup =>
    have h : g' = _ := h
    obtain ⟨l, hl⟩ := addErr_same (g.raise Err.dataDuplicate) key vals
    rw [hl] at h
    subst h
    exact ⟨rfl, rfl, rfl, rfl, rfl, id, rfl, rfl, rfl⟩
  | unsorted =>
    have h : g' = _ := h
    obtain ⟨l, hl⟩ := addErr_same (g.raise Err.rawNotSorted) key vals
    rw [hl] at h
    subst h
    exact ⟨rfl, rfl, rfl, rfl, rfl, id, rfl, rfl, rfl⟩

/-- the fate that belongs to a verdict -/
def _root_.Gdx.Spec.Verdict.fate : Verdict → Fate
  | .stored => .put
  | .outside => .dom
  | .duplicate => .dup
  | .unsorted => .unsorted

theorem fate_eq (doms : List Dom) (dim : Nat) (rs : List Rec) (key : List Int) :
    fate dim ((outsides doms key).any id) rs key = (verdict doms dim (lastKey none rs) key).fate := by
  unfold fate verdict
  have : (outsides doms key).any id = true ↔ true ∈ outsides doms key := by simp
  by_cases hc : true ∈ outsides doms key
  · rw [if_pos (this.mpr hc), if_pos hc]; rfl
  · rw [if_neg (fun h => hc (this.mp h)), if_neg hc]
    split
    · rfl
    · cases lastKey none rs with
      | none => rfl
      | some l =>
        dsimp only
        split
        · rfl
        · split <;> rfl

theorem outsides_nil (key : List Int) : outsides [] key = key.map fun _ => false := by
  induction key with
  | nil => rfl
  | cons k ks ih => rw [outsides, ih]; rfl

theorem outsides_length : ∀ (doms : List Dom) (key : List Int), (outsides doms key).length = key.length
  | doms, [] => by cases doms <;> rfl
  | [], k :: ks => by rw [outsides]; simp [outsides_length [] ks]
  | none :: ds, k :: ks => by rw [outsides]; simp [outsides_length ds ks]
  | some f :: ds, k :: ks => by rw [outsides]; simp [outsides_length ds ks]

/-! ### the domains of the symbol that is being written -/

/-- The domains that are checked are `doms`: each is the bit map of a symbol. It can be the symbol that is written (when an alias of
    it is named); then no element is admitted. -/
structure DomsFix (g : Gx) (m : Nat) (doms : List Dom) : Prop where
  free : ∀ d : Nat, g.wrBits[d]?.join = none → doms[d]?.join = none
  set : ∀ (d t : Nat), d < g.nd → g.wrBits[d]? = some (some t) → 1 ≤ t ∧ ∃ syms s b, g.names = some syms ∧ syms[t - 1]? = some s ∧
    s.bitmap = some b ∧ doms[d]? = some (some b.get) ∧ (t = m + 1 → ∀ k, b.get k = false)

theorem DomsFix.none {g : Gx} {m : Nat} (h : ∀ w ∈ g.wrBits, w = none) : DomsFix g m [] where
  free := by simp
  set := by
    intro d t _ hd
    have := h _ (List.mem_of_getElem? hd)
    cases this

theorem outsides_free (doms : List Dom) (k : Int) (ks : List Int) (h : doms.head?.join = none) :
    outsides doms (k :: ks) = false :: outsides doms.tail ks := by
  cases doms with
  | nil => rfl
  | cons d ds =>
    cases d with
    | none => rfl
    | some f => cases h

theorem domBad_free (syms : List Sym) (ws : List (Option Nat)) (k : Int) (ks : List Int) (h : ws.head?.join = none) :
    domBad syms ws (k :: ks) = (domBad syms ws.tail ks >>= fun r => pure (false :: r)) := by
  cases ws with
  | nil => rfl
  | cons d ds =>
    cases d with
    | none => rfl
    | some f => cases h

theorem domBad_of {syms : List Sym} : ∀ (key : List Int) (ws : List (Option Nat)) (doms : List Dom),
    (∀ d : Nat, ws[d]?.join = none → doms[d]?.join = none) →
    (∀ (d t : Nat), d < key.length → ws[d]? = some (some t) → 1 ≤ t ∧ ∃ s b, syms[t - 1]? = some s ∧ s.bitmap = some b ∧ doms[d]? = some (some b.get)) →
    domBad syms ws key = .ok (outsides doms key) := by
  intro key
  induction key with
  | nil => intro ws doms _ _; cases ws <;> cases doms <;> rfl
  | cons k ks ih =>
    intro ws doms hf hs
    have ih := ih ws.tail doms.tail (fun d h => by simpa using hf (d + 1) (by simpa using h))
      (fun d t hd h => by simpa using hs (d + 1) t (by simpa using hd) (by simpa using h))
    cases hw : ws.head?.join with
    | none =>
      have h0 := hf 0 (by rw [← List.head?_eq_getElem?]; exact hw)
      rw [domBad_free syms ws k ks hw, outsides_free doms k ks (by rw [List.head?_eq_getElem?]; exact h0), ih]
      rfl
    | some t =>
      obtain ⟨w, rfl⟩ : ∃ w, ws = some t :: w := by
        cases ws with
        | nil => cases hw
        | cons a l => have hw : a = some t := hw; exact ⟨l, by rw [hw]⟩
      obtain ⟨ht, s, b, h1, h2, h3⟩ := hs 0 t (by simp) rfl
      obtain ⟨ds, rfl⟩ : ∃ ds, doms = some b.get :: ds := by
        cases doms with
        | nil => cases h3
        | cons a l => exact ⟨l, by rw [List.getElem?_cons_zero] at h3; rw [Option.some.inj h3]⟩
      unfold domBad
      have e1 : at1 syms (t : Int) = .ok s := by
        obtain ⟨n, rfl⟩ : ∃ n, t = n + 1 := ⟨t - 1, by omega⟩
        rw [show ((n + 1 : Nat) : Int) = (n : Int) + 1 by push_cast; rfl]
        exact at1_nat h1
      rw [e1]
      simp only [Res.bind_ok]
      rw [h2]
      simp only [need, Res.bind_ok]
      rw [show (some t :: w).tail = w from rfl] at ih
      rw [ih]
      rfl

theorem DomsFix.bad {g : Gx} {m : Nat} {doms : List Dom} (h : DomsFix g m doms) {syms : List Sym} (hs : g.names = some syms) {key : List Int}
    (hk : key.length = g.nd) : domBad syms g.wrBits key = .ok (outsides doms key) := by
  refine domBad_of key g.wrBits doms h.free ?_
  intro d t hlt hd
  obtain ⟨h1, syms', s, b, h2, h3, h4, h5, _⟩ := h.set d t (hk ▸ hlt) hd
  rw [hs] at h2
  cases h2
  exact ⟨h1, s, b, h3, h4, h5⟩

theorem DomsFix.congr {g g' : Gx} {m : Nat} {doms : List Dom} (h : DomsFix g m doms) (h1 : g'.wrBits = g.wrBits) (hd : g'.curDim = g.curDim)
    (h2 : g'.names = g.names ∨ ((∃ syms s', g.names = some syms ∧ g'.names = some (syms.set m s')) ∧
      ∀ d : Nat, d < g.nd → g.wrBits[d]? ≠ some (some (m + 1)))) : DomsFix g' m doms := by
  have hnd : g'.nd = g.nd := by unfold Gx.nd; rw [hd]
  refine ⟨by rw [h1]; exact h.free, ?_⟩
  rw [h1, hnd]
  intro d t hlt hd
  obtain ⟨a2, syms, s, b, a3, a4, a5, a6, a7⟩ := h.set d t hlt hd
  refine ⟨a2, ?_⟩
  rcases h2 with h2 | ⟨⟨syms', s', h2, h3⟩, h4⟩
  · exact ⟨syms, s, b, h2.trans a3, a4, a5, a6, a7⟩
  · rw [a3] at h2
    cases h2
    have hne : t ≠ m + 1 := fun e => h4 d hlt (e ▸ hd)
    refine ⟨_, s, b, h3, ?_, a5, a6, a7⟩
    rw [List.getElem?_set_ne (by omega)]
    exact a4

/-- a record that is not outside of the domains: the symbol is not its own domain -/
theorem DomsFix.inside {g : Gx} {m : Nat} {doms : List Dom} (h : DomsFix g m doms) {key : List Int} (hk : key.length = g.nd)
    (ho : ¬ true ∈ outsides doms key) : ∀ d : Nat, d < g.nd → g.wrBits[d]? ≠ some (some (m + 1)) := by
  intro d hd he
  obtain ⟨_, _, _, b, _, _, _, h5, h6⟩ := h.set d (m + 1) hd he
  apply ho
  have : ∀ (key : List Int) (doms : List Dom) (d : Nat), d < key.length → doms[d]? = some (some b.get) → true ∈ outsides doms key := by
    intro key
    induction key with
    | nil => intro _ _ h _; exact absurd h (by simp)
    | cons k ks ih =>
      intro doms d hd hx
      cases doms with
      | nil => simp at hx
      | cons x doms =>
        cases d with
        | zero =>
          rw [List.getElem?_cons_zero] at hx
          rw [Option.some.inj hx, outsides, h6 rfl k]
          simp
        | succ d =>
          have := ih doms d (by simpa using hd) (by simpa using hx)
          cases x with
          | none => rw [outsides]; simp [this]
          | some f => rw [outsides]; simp [this]
  exact this key doms d (hk ▸ hd) h5

theorem fateState_names {g g' : Gx} {m : Nat} {bad : List Bool} {key : List Int} {vals : List Dbl} {f : Fate}
    (h : fateState g m bad key vals f g') : g'.names = g.names ∨ (f = .put ∧ ∃ syms s', g.names = some syms ∧ g'.names = some (syms.set m s')) := by
  cases f with
  | put =>
    obtain ⟨_, _, syms, _, s', _, _, _, hs, _, _, rfl⟩ := h
    exact Or.inr ⟨rfl, syms, s', hs, rfl⟩
  | dom =>
    have h : g' = _ := h
    obtain ⟨l, hl⟩ := addErrDom_same (g.raise Err.domainViolation) (List.zipWith (fun b k => if b then -k else k) bad key) vals
    rw [hl] at h
    subst h
    exact Or.inl rfl
  | dup =>
    have h : g' = _ := h
    obtain ⟨l, hl⟩ := addErr_same (g.raise Err.dataDuplicate) key vals
    rw [hl] at h
    subst h
    exact Or.inl rfl
  | unsorted =>
    have h : g' = _ := h
    obtain ⟨l, hl⟩ := addErr_same (g.raise Err.rawNotSorted) key vals
    rw [hl] at h
    subst h
    exact Or.inl rfl

/-! ### errors -/

/-- errors counted, raised, and records kept in the error list -/
structure Errs (doms : List Dom) (g g' : Gx) (l : List (Verdict × Given)) : Prop where
  cnt : g'.errCnt = g.errCnt + l.length
  total : g'.errTotal = g.errTotal + l.length
  raised : g'.raised = g.raised ++ l.map fun r => r.1.code
  list : NoteAll doms (g.errList.getD []) l (g'.errList.getD [])

theorem Errs.nil (doms : List Dom) (g : Gx) : Errs doms g g [] := ⟨by simp, by simp, by simp, .nil _⟩

theorem NoteAll.append {doms : List Dom} {l1 l2 l3 : List Given} {a b : List (Verdict × Given)} (h1 : NoteAll doms l1 a l2)
    (h2 : NoteAll doms l2 b l3) : NoteAll doms l1 (a ++ b) l3 := by
  induction h1 with
  | nil _ => exact h2
  | cons h _ ih => exact .cons h (ih h2)

theorem Errs.add {doms : List Dom} {g g1 g2 : Gx} {l1 l2 : List (Verdict × Given)} (h1 : Errs doms g g1 l1) (h2 : Errs doms g1 g2 l2) :
    Errs doms g g2 (l1 ++ l2) where
  cnt := by rw [h2.cnt, h1.cnt]; simp; omega
  total := by rw [h2.total, h1.total]; simp; omega
  raised := by rw [h2.raised, h1.raised]; simp
  list := NoteAll.append h1.list h2.list

theorem addErr_notes (doms : List Dom) (g : Gx) (k : List Int) (v : List Dbl) (n : Int) {vd : Verdict} (hv : vd ≠ .outside)
    (hl : (g.errList.getD []).length ≤ 11) :
    NoteOne doms (g.errList.getD []) (vd, (k, v)) ((addErr (g.raise n) k v).errList.getD []) := by
  unfold addErr
  have e : (g.raise n).errList = g.errList := rfl
  rw [e]
  cases h : g.errList with
  | none => exact NoteOne.plain (by simp) hv
  | some l =>
    rw [h] at hl
    have hl : l.length ≤ 11 := hl
    dsimp only
    split
    · rename_i hc
      rw [e, h]
      exact NoteOne.full hc
    · rename_i hc
      exact NoteOne.plain (l := l) (by omega) hv

theorem domFresh_iff (l : List Given) (key : List Int) : domFresh l key = true ↔ NewMark l key := by
  unfold domFresh NewMark
  rw [List.any_eq_true]
  constructor
  · rintro ⟨d, _, hd⟩
    split at hd
    · rename_i k hk
      simp only [Bool.and_eq_true, decide_eq_true_eq, Bool.not_eq_true', List.any_eq_false, beq_iff_eq] at hd
      exact ⟨d, k, hk, hd.1, fun r hr => hd.2 r hr⟩
    · cases hd
  · rintro ⟨d, k, hk, h0, h1⟩
    refine ⟨d, List.mem_range.mpr (List.getElem?_eq_some_iff.mp hk).1, ?_⟩
    rw [hk]
    simp only [Bool.and_eq_true, decide_eq_true_eq, Bool.not_eq_true', List.any_eq_false, beq_iff_eq]
    exact ⟨h0, h1⟩

theorem addErrDom_notes (doms : List Dom) (g : Gx) (k : List Int) (v : List Dbl) (n : Int) :
    NoteOne doms (g.errList.getD []) (.outside, (k, v)) ((addErrDom (g.raise n) (mark doms k) v).errList.getD []) := by
  unfold addErrDom
  dsimp only
  have e : (g.raise n).errList = g.errList := rfl
  rw [e]
  split
  · rename_i hc
    rw [e]
    exact NoteOne.full hc
  · rename_i hc
    split
    · rename_i hf
      exact NoteOne.domain (by omega) ((domFresh_iff _ _).mp hf)
    · rename_i hf
      exact NoteOne.known (by omega) (fun h => hf ((domFresh_iff _ _).mpr h))

theorem NoteOne.length {doms : List Dom} {l l' : List Given} {r : Verdict × Given} (h : NoteOne doms l r l') (hl : l.length ≤ 11) :
    l'.length ≤ 11 := by
  cases h with
  | full h => exact hl
  | plain h _ => simp; omega
  | domain h _ => simp; omega
  | known h _ => omega

theorem NoteAll.length {doms : List Dom} {l l' : List Given} {r : List (Verdict × Given)} (h : NoteAll doms l r l') : l.length ≤ 11 → l'.length ≤ 11 := by
  induction h with
  | nil _ => exact id
  | cons h _ ih => exact fun hl => ih (NoteOne.length h hl)

theorem Errs.one {doms : List Dom} {g g' : Gx} {r : Verdict × Given} {n : Int} {l : Option (List (List Int × List Dbl))}
    (hg : g' = { g.raise n with errList := l }) (hc : r.1.code = n) (hn : NoteOne doms (g.errList.getD []) r (g'.errList.getD [])) :
    Errs doms g g' [r] := by
  refine ⟨by rw [hg]; rfl, by rw [hg]; rfl, ?_, .cons hn (.nil _)⟩
  rw [hg, List.map_singleton, hc]
  rfl

theorem fateState_errs {doms : List Dom} {g g' : Gx} {m : Nat} {key : List Int} {vals : List Dbl} {v : Verdict}
    (h : fateState g m (outsides doms key) key vals v.fate g') (hl : (g.errList.getD []).length ≤ 11) :
    Errs doms g g' (if v = .stored then [] else [(v, (key, vals))]) := by
  cases v with
  | stored =>
    obtain ⟨_, _, _, _, _, _, _, _, _, _, _, rfl⟩ := h
    exact ⟨by simp, by simp, by simp, .nil _⟩
  | outside =>
    have h : g' = addErrDom (g.raise Err.domainViolation) (mark doms key) vals := h
    obtain ⟨l, hl'⟩ := addErrDom_same (g.raise Err.domainViolation) (mark doms key) vals
    exact Errs.one (h.trans hl') rfl (by rw [h]; exact addErrDom_notes doms g key vals _)
  | duplicate =>
    have h : g' = addErr (g.raise Err.dataDuplicate) key vals := h
    obtain ⟨l, hl'⟩ := addErr_same (g.raise Err.dataDuplicate) key vals
    exact Errs.one (h.trans hl') rfl (by rw [h]; exact addErr_notes doms g key vals _ (by decide) hl)
  | unsorted =>
    have h : g' = addErr (g.raise Err.rawNotSorted) key vals := h
    obtain ⟨l, hl'⟩ := addErr_same (g.raise Err.rawNotSorted) key vals
    exact Errs.one (h.trans hl') rfl (by rw [h]; exact addErr_notes doms g key vals _ (by decide) hl)

/-- without domains: the first eleven refused records, unmarked -/
theorem noted_plain {doms : List Dom} {l l' : List Given} {r : List (Verdict × Given)} (h : NoteAll doms l r l') :
    (∀ x ∈ r, x.1 ≠ .outside) → l.length ≤ 11 → l' = (l ++ r.map Prod.snd).take 11 := by
  induction h with
  | nil l => intro _ hl; simp [List.take_of_length_le hl]
  | cons h ht ih =>
    rename_i l1 l2 l3 x xs
    intro hv hl
    have h2 := ih (fun x hx => hv x (by simp [hx])) (NoteOne.length h hl)
    rw [h2]
    cases h with
    | full h =>
      rw [List.take_append_of_le_length h, List.take_append_of_le_length h]
    | plain h _ => simp
    | domain h _ => exact absurd rfl (hv _ (List.mem_cons_self ..))
    | known h _ => exact absurd rfl (hv _ (List.mem_cons_self ..))

/-! ### sequences -/

/-- what is written about a sequence of records -/
def seqLog (sv : SVTab) (doms : List Dom) (dim : Nat) : Option (List Int) → List Given → List RawEntry
  | _, [] => []
  | last, (k, v) :: l =>
    ⟨k, v, sv, decide (verdict doms dim last k = .stored)⟩ ::
      seqLog sv doms dim (if verdict doms dim last k = .stored then some k else last) l

theorem seqLog_given (sv : SVTab) (doms : List Dom) (dim : Nat) : ∀ (last : Option (List Int)) (l : List Given),
    logGiven (seqLog sv doms dim last l) = storedOf doms dim last l
  | _, [] => rfl
  | last, (k, v) :: l => by
    unfold seqLog storedOf
    by_cases h : verdict doms dim last k = .stored
    · rw [if_pos h, if_pos h, ← seqLog_given sv doms dim (some k) l]
      simp [logGiven, h]
    · rw [if_neg h, if_neg h, ← seqLog_given sv doms dim last l]
      simp [logGiven, h]

theorem seqLog_recs (sv : SVTab) (doms : List Dom) (dim : Nat) : ∀ (last : Option (List Int)) (l : List Given),
    logRecs (seqLog sv doms dim last l) = (storedOf doms dim last l).map fun x => stored sv x.1 x.2
  | _, [] => rfl
  | last, (k, v) :: l => by
    unfold seqLog storedOf
    by_cases h : verdict doms dim last k = .stored
    · rw [if_pos h, if_pos h, List.map_cons, ← seqLog_recs sv doms dim (some k) l]
      simp [logRecs, h]
    · rw [if_neg h, if_neg h, ← seqLog_recs sv doms dim last l]
      simp [logRecs, h]

theorem seqLog_oks (sv : SVTab) (doms : List Dom) (dim : Nat) : ∀ (last : Option (List Int)) (l : List Given),
    (seqLog sv doms dim last l).map RawEntry.ok = (verdicts doms dim last l).map fun v => decide (v = .stored)
  | _, [] => rfl
  | last, (k, v) :: l => by
    unfold seqLog verdicts
    rw [List.map_cons, List.map_cons, seqLog_oks]

/-- a record that can be written into the symbol -/
structure GivenFits (g : Gx) (x : Given) : Prop where
  len : x.1.length = g.nd
  key : KeyFits g.bounds x.1
  vals : x.2.length = g.dataSize
  okk : ∀ k ∈ x.1, KeyOk k

theorem GivenFits.same {g g' : Gx} {x : Given} (h : GivenFits g x) (e : WrSame g g') : GivenFits g' x :=
  ⟨h.len.trans (by unfold Gx.nd; rw [e.dim]), by rw [e.bounds]; exact h.key, h.vals.trans e.size.symm, h.okk⟩

/-- DoWrite for all the records; the results -/
def doWriteAll : Gx → List Given → Res (Gx × List Bool)
  | g, [] => .ok (g, [])
  | g, x :: l => do
    let (g, b) ← doWrite g x.1 x.2
    let (g, bs) ← doWriteAll g l
    pure (g, b :: bs)

/-- DoWrite for all the records of a list -/
theorem Sess.all {m : Nat} {d : SymDesc} {doms : List Dom} : ∀ (xs : List Given) {g : Gx} {rs : List Rec} {l : List Given}, Sess g m d rs l →
    (∀ x ∈ xs, GivenFits g x) → DomsFix g m doms → g.acros.isSome = true →
    (∀ r ∈ rs, ∀ k ∈ r.key, KeyOk k) → ((rs.length + xs.length : Nat) : Int) ≤ intMax → (g.errList.getD []).length ≤ 11 →
    ∃ g', doWriteAll g xs = .ok (g', (verdicts doms g.nd (lastKey none rs) xs).map fun v => decide (v = .stored)) ∧
      g'.mode = g.mode ∧ WrSame g g' ∧ Errs doms g g' (refusals doms g.nd (lastKey none rs) xs) ∧
      Sess g' m d (rs ++ (storedOf doms g.nd (lastKey none rs) xs).map fun x => stored g.sv x.1 x.2)
        (l ++ storedOf doms g.nd (lastKey none rs) xs) := by
  intro xs
  induction xs with
  | nil => exact fun h _ _ _ _ _ _ => ⟨_, rfl, rfl, WrSame.refl _, Errs.nil _ _, by simpa [storedOf] using h⟩
  | cons x xs ih =>
    obtain ⟨k, v⟩ := x
    intro g rs l h hf hw ha hk hc hl
    have f0 := hf (k, v) (by simp)
    have hnn : ∀ x ∈ k, 0 ≤ x := fun x hx => (f0.okk x hx).1
    have hc0 : (rs.length : Int) < intMax := by
      simp only [List.length_cons] at hc; omega
    obtain ⟨⟨g1, b⟩, hx⟩ := h.doWriteTotal (key := k) (vals := v) f0.len f0.key f0.vals hk
      (fun syms hs => ⟨_, hw.bad hs f0.len⟩) ha hc0
    obtain ⟨syms, bad, h1, h2, h3, h4, h5⟩ := h.doWrite hnn hx
    rw [hw.bad h1 f0.len] at h2
    cases h2
    rw [fate_eq] at h3 h4
    have hb : b = decide (verdict doms g.nd (lastKey none rs) k = .stored) := by
      have e : ((verdict doms g.nd (lastKey none rs) k).fate = .put) ↔ verdict doms g.nd (lastKey none rs) k = .stored := by
        cases verdict doms g.nd (lastKey none rs) k <;> simp [Verdict.fate]
      rw [e] at h4
      exact Bool.eq_iff_iff.mpr (by rw [decide_eq_true_iff]; exact h4)
    have s1 : WrSame g g1 := fateState_same h3
    have e1 := fateState_errs h3 hl
    have d1 : DomsFix g1 m doms := by
      refine hw.congr s1.wrBits s1.dim ?_
      rcases fateState_names h3 with hx | ⟨hf, hx⟩
      · exact Or.inl hx
      · refine Or.inr ⟨hx, hw.inside f0.len ?_⟩
        intro ho
        unfold verdict at hf
        rw [if_pos ho] at hf
        cases hf
    have hnd : g1.nd = g.nd := by unfold Gx.nd; rw [s1.dim]
    have hrec : (stored g.sv k v).key = k := rfl
    obtain ⟨g2, i1, i2, i3, i4, i5⟩ := ih h5 (fun x hx => (hf x (by simp [hx])).same s1)
      d1 (s1.acros ha)
      (by
        intro r hr y hy
        cases b with
        | false => exact hk r hr y hy
        | true =>
          have hr : r ∈ rs ++ [stored g.sv k v] := hr
          rcases List.mem_append.mp hr with hr | hr
          · exact hk r hr y hy
          · rw [List.mem_singleton.mp hr] at hy
            exact f0.okk y hy)
      (by
        simp only [List.length_cons] at hc
        cases b <;> simp <;> omega)
      (NoteAll.length e1.list hl)
    have hlast : lastKey none (if b = true then rs ++ [stored g.sv k v] else rs) =
        (if verdict doms g.nd (lastKey none rs) k = .stored then some k else lastKey none rs) := by
      rw [hb]
      by_cases hv : verdict doms g.nd (lastKey none rs) k = .stored
      · simp [hv, lastKey_snoc, hrec]
      · simp [hv]
    rw [hnd, hlast] at i1 i4 i5
    rw [s1.sv] at i5
    refine ⟨g2, ?_, i2.trans (doWrite_mode hx), s1.trans i3, ?_, ?_⟩
    · unfold doWriteAll
      rw [hx, Res.bind_ok]
      dsimp only
      rw [i1, hb]
      rfl
    · have := e1.add i4
      unfold refusals
      by_cases hv : verdict doms g.nd (lastKey none rs) k = .stored
      · simpa [hv] using this
      · simpa [hv] using this
    · unfold storedOf
      by_cases hv : verdict doms g.nd (lastKey none rs) k = .stored
      · simpa [hv, hb] using i5
      · simpa [hv, hb] using i5

theorem writesRaw_all : ∀ (xs : List Given) {g : Gx}, g.mode = .wRaw → writesRaw g xs = doWriteAll g xs
  | [], _, _ => rfl
  | x :: xs, g, hm => by
    unfold writesRaw doWriteAll
    rw [dataWriteRaw_raw (Or.inl hm)]
    have : ({ g with mode := .wRaw } : Gx) = g := by rw [← hm]
    rw [this]
    cases h : doWrite g x.1 x.2 with
    | ub => rfl
    | ok r =>
      simp only [Res.bind_ok]
      rw [writesRaw_all xs ((doWrite_mode h).trans hm)]

theorem doWrite_sv {g g' : Gx} {k : List Int} {v : List Dbl} {b : Bool} (h : doWrite g k v = .ok (g', b)) : g'.sv = g.sv := by
  obtain ⟨_, _, _, syms, bad, _, _, hh⟩ := doWrite_cases h
  rcases hh with ⟨_, rfl, rfl⟩ | ⟨_, o, _, ⟨_, rfl, rfl⟩ | ⟨_, rfl, rfl⟩ | ⟨bs, l, _, hx⟩⟩
  · obtain ⟨l, hl⟩ := addErrDom_same (g.raise Err.domainViolation) (List.zipWith (fun b k => if b then -k else k) bad k) v
    rw [hl]; rfl
  · obtain ⟨l, hl⟩ := addErr_same (g.raise Err.dataDuplicate) k v
    rw [hl]; rfl
  · obtain ⟨l, hl⟩ := addErr_same (g.raise Err.rawNotSorted) k v
    rw [hl]; rfl
  · obtain ⟨_, _, _, _, _, _, _, _, _, _, _, _, _, _, rfl⟩ := acceptRec_cases hx
    rfl

theorem writesRaw_log (e : Env) (z : Cz) {doms : List Dom} {sv : SVTab} {dim : Nat} : ∀ (xs : List Given) {g g' : Gx} (last : Option (List Int)),
    writesRaw g xs = .ok (g', (verdicts doms dim last xs).map fun v => decide (v = .stored)) → RawMode g.mode → g.sv = sv →
    RawLog e z g (seqLog sv doms dim last xs) g'
  | [], g, g', last, h, _, _ => by
    cases h
    exact RawLog.nil _
  | (k, v) :: xs, g, g', last, h, hm, hs => by
    unfold writesRaw at h
    obtain ⟨⟨g1, b⟩, h1, h⟩ := Res.bind_eq_ok.mp h
    obtain ⟨⟨g2, bs⟩, h2, h⟩ := Res.bind_eq_ok.mp h
    unfold verdicts at h
    rw [List.map_cons] at h
    injection h with h
    injection h with ha hb
    injection hb with hb hc
    subst ha hb hc
    unfold seqLog
    rw [← hs]
    refine RawLog.write h1 ?_
    rw [dataWriteRaw_raw hm] at h1
    have hsv : g1.sv = g.sv := (doWrite_sv h1).trans rfl
    exact writesRaw_log e z xs _ h2 (Or.inl (doWrite_mode h1)) hsv

/-- gdxDataWriteRaw for all the records of a list -/
theorem Sess.writes (e : Env) (z : Cz) {m : Nat} {d : SymDesc} {doms : List Dom} (xs : List Given) {g : Gx} {rs : List Rec} {l : List Given}
    (h : Sess g m d rs l) (hr : RawMode g.mode) (hf : ∀ x ∈ xs, GivenFits g x) (hw : DomsFix g m doms) (ha : g.acros.isSome = true)
    (hk : ∀ r ∈ rs, ∀ k ∈ r.key, KeyOk k) (hc : ((rs.length + xs.length : Nat) : Int) ≤ intMax) (hl : (g.errList.getD []).length ≤ 11) :
    ∃ g', writesRaw g xs = .ok (g', (verdicts doms g.nd (lastKey none rs) xs).map fun v => decide (v = .stored)) ∧
      RawMode g'.mode ∧ RawLog e z g (seqLog g.sv doms g.nd (lastKey none rs) xs) g' ∧ WrSame g g' ∧
      Errs doms g g' (refusals doms g.nd (lastKey none rs) xs) := by
  have hmain : ∀ {g : Gx}, g.mode = .wRaw → Sess g m d rs l → (∀ x ∈ xs, GivenFits g x) → DomsFix g m doms → g.acros.isSome = true →
      (g.errList.getD []).length ≤ 11 →
      ∃ g', writesRaw g xs = .ok (g', (verdicts doms g.nd (lastKey none rs) xs).map fun v => decide (v = .stored)) ∧
        RawMode g'.mode ∧ WrSame g g' ∧ Errs doms g g' (refusals doms g.nd (lastKey none rs) xs) := by
    intro g hm h hf hw ha hl
    obtain ⟨g', a1, a2, a3, a4, a5⟩ := h.all xs hf hw ha hk hc hl
    exact ⟨g', by rw [writesRaw_all xs hm]; exact a1, Or.inl (a2.trans hm), a3, a4⟩
  cases xs with
  | nil => exact ⟨g, rfl, hr, RawLog.nil _, WrSame.refl _, Errs.nil _ _⟩
  | cons x xs =>
    obtain ⟨g', a1, a2, a3, a4⟩ := hmain (g := { g with mode := .wRaw }) rfl (h.mode _)
      (fun x hx => ⟨(hf x hx).len, (hf x hx).key, (hf x hx).vals, (hf x hx).okk⟩)
      (hw.congr rfl rfl (Or.inl rfl)) ha hl
    have e1 : writesRaw g (x :: xs) = writesRaw { g with mode := .wRaw } (x :: xs) := by
      unfold writesRaw
      rw [dataWriteRaw_raw hr, dataWriteRaw_raw (g := { g with mode := .wRaw }) (Or.inl rfl)]
    rw [← e1] at a1
    refine ⟨g', a1, a2, ?_, WrSame.trans (b := { g with mode := .wRaw }) ⟨rfl, rfl, rfl, rfl, rfl, id, rfl, rfl, rfl⟩ a3, ⟨a4.cnt, a4.total, a4.raised, a4.list⟩⟩
    exact writesRaw_log e z _ _ a1 hr rfl

end Gdx
