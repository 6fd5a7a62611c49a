import Verif.Proofs.Trace
import Verif.Proofs.IntMap
import Verif.Spec.MapRead

/-! The translation of one record by the mapped readers, in terms of `Spec/MapRead`. -/

namespace Gdx
open Gdx.Spec

/-- the numbers of a table -/
def Uel.users (u : Uel) : Users :=
  ⟨fun e => if 1 ≤ e then (((u.ents.map Prod.snd)[(e - 1).toNat]?).getD (-1)) else -1, u.usr.highest⟩

/-- the action of a position -/
def DAct.act : DAct → Act
  | .unmapped => .keep
  | .filter f => .only f.mem
  | .strict => .mapped
  | .expand => .grow

/-- element numbers of the table -/
def InTab (u : Uel) (es : List Int) : Prop := ∀ e ∈ es, 1 ≤ e ∧ e ≤ u.size

/-- the highest number there can be -/
def Uel.room (u : Uel) : Int := u.usr.highest + (u.ents.countP fun x => x.2 < 0 : Nat)

theorem userMap_num {u : Uel} {e : Int} (h1 : 1 ≤ e) (h2 : e ≤ u.size) : u.userMap e = .ok (u.users.num e) := by
  unfold Uel.size at h2
  have hlt : (e - 1).toNat < u.ents.length := by omega
  have : at1 u.ents e = .ok (u.ents[(e - 1).toNat]) := at1_of h1 (List.getElem?_eq_getElem hlt)
  unfold Uel.userMap Uel.users
  rw [this]
  simp only [Res.bind_ok, if_pos h1]
  rw [List.getElem?_map, List.getElem?_eq_getElem hlt]
  rfl

theorem num_out {u : Uel} {e : Int} (h : ¬ (1 ≤ e ∧ e ≤ u.size)) : u.users.num e = -1 := by
  show (if 1 ≤ e then _ else _) = (-1 : Int)
  split
  · rw [List.getElem?_eq_none]
    · rfl
    · unfold Uel.size at h
      rw [List.length_map]
      omega
  · rfl

theorem countP_set {α : Type} {p : α → Bool} : ∀ {l : List α} {n : Nat} {x y : α}, l[n]? = some x → p x = true → p y = false →
    (l.set n y).countP p + 1 = l.countP p
  | [], _, _, _, h, _, _ => by cases h
  | a :: l, 0, x, y, h, h1, h2 => by
    cases h
    simp [h1, h2]
  | a :: l, n + 1, x, y, h, h1, h2 => by
    rw [List.getElem?_cons_succ] at h
    have := countP_set h h1 h2
    rw [List.set_cons_succ, List.countP_cons, List.countP_cons]
    omega

theorem countP_pos {α : Type} {p : α → Bool} {l : List α} {n : Nat} {x : α} (h : l[n]? = some x) (hp : p x = true) : 1 ≤ l.countP p := by
  have := List.countP_pos_iff.mpr ⟨x, List.mem_of_getElem? h, hp⟩
  omega

/-- an element without number gets the next one -/
theorem newUsrUel_spec {u : Uel} {e : Int} (h1 : 1 ≤ e) (h2 : e ≤ u.size) (h0 : 0 ≤ u.usr.highest) (hr : u.room ≤ 2147483646)
    (hn : u.users.num e < 0) :
    ∃ u' v, u.newUsrUel e = .ok (u', v) ∧ u'.users = u.users.give e ∧ v = u.usr.highest + 1 ∧ u'.ents.length = u.ents.length ∧
      u'.room = u.room ∧ u'.usr.highest = u.usr.highest + 1 ∧ u'.stat = none ∧ u'.strs = u.strs := by
  have hlt : (e - 1).toNat < u.ents.length := by unfold Uel.size at h2; omega
  obtain ⟨x, hx⟩ : ∃ x, u.ents[(e - 1).toNat]? = some x := ⟨_, List.getElem?_eq_getElem hlt⟩
  have hxn : x.2 < 0 := by
    have : u.users.num e = x.2 := by
      show (if 1 ≤ e then _ else _) = _
      rw [if_pos h1, List.getElem?_map, hx]
      rfl
    omega
  have hc : 1 ≤ u.ents.countP fun x => decide (x.2 < 0) := countP_pos hx (by simpa using hxn)
  have hroom : u.usr.highest + 1 ≤ 2147483646 := by
    unfold Uel.room at hr
    omega
  obtain ⟨m, hm, hg, hh⟩ := IntMap.set_spec u.usr (u.usr.highest + 1) (e.toNat : Int) ⟨by omega, by rw [show maxCapacity = 2147483648 from rfl]; omega⟩
  have hset : u.setMap e.toNat (u.usr.highest + 1) = { u with ents := u.ents.set (e - 1).toNat (x.1, u.usr.highest + 1) } := by
    unfold Uel.setMap
    rw [show e.toNat - 1 = (e - 1).toNat by omega, modify_eq_set_of hx]
  refine ⟨{ u.setMap e.toNat (u.usr.highest + 1) with usr := m, stat := none }, u.usr.highest + 1, ?_, ?_, rfl, ?_, ?_, ?_, rfl, ?_⟩
  · unfold Uel.newUsrUel
    rw [userMap_num h1 h2]
    simp only [Res.bind_ok, if_pos hn]
    unfold Uel.newUsr
    dsimp only
    rw [hm]
    rfl
  · unfold Users.give
    rw [if_pos hn]
    unfold Uel.users
    rw [hset]
    congr 1
    · funext y
      simp only
      by_cases hy : y = e
      · subst hy
        rw [if_pos h1, if_pos rfl, List.getElem?_map, List.getElem?_set_self hlt]
        rfl
      · rw [if_neg hy]
        split
        · rw [List.getElem?_map, List.getElem?_set_ne (by omega), List.getElem?_map]
        · rfl
    · simp only
      rw [hh]
      omega
  · rw [hset]
    simp
  · unfold Uel.room
    rw [hset]
    simp only
    have := countP_set (p := fun x : Str × Int => decide (x.2 < 0)) (y := (x.1, u.usr.highest + 1)) hx (by simpa using hxn) (by simp; omega)
    rw [hh]
    omega
  · simp only
    rw [hh]
    omega
  · unfold Uel.strs
    rw [hset]
    simp only
    rw [List.map_set]
    apply List.ext_getElem?
    intro i
    rw [List.getElem?_set]
    split
    · rename_i he
      subst he
      rw [List.getElem?_map, hx, List.length_map, if_pos hlt]
      rfl
    · rfl

/-! ### one position -/

/-- what the key array holds for an admitted element: its number, or the negated element if it must be given one -/
def code (us : Users) (a : Act) (e : Int) : Int :=
  match a with
  | .keep => e
  | .grow => if us.num e < 0 then -e else us.num e
  | _ => us.num e

def codes (us : Users) (as : List Act) (es : List Int) : List Int := List.zipWith (code us) as es

/-- needs a new number -/
def needsNew (us : Users) (a : Act) (e : Int) : Bool :=
  match a with
  | .grow => decide (us.num e < 0)
  | _ => false

theorem transPos_spec {u : Uel} {a : DAct} {e : Int} (h1 : 1 ≤ e) (h2 : e ≤ u.size) :
    transPos u a e = .ok (if a.act.admits u.users e then
      (if needsNew u.users a.act e then .new else .key (code u.users a.act e)) else .err) := by
  cases a with
  | unmapped => rfl
  | filter f =>
    simp only [transPos, userMap_num h1 h2, Res.bind_ok, DAct.act, Act.admits, needsNew, Bool.false_eq_true, if_false, code]
    rfl
  | strict =>
    simp only [transPos, userMap_num h1 h2, Res.bind_ok, DAct.act, Act.admits, needsNew, Bool.false_eq_true, if_false, code]
    by_cases h : 0 ≤ u.users.num e
    · simp [h]
    · simp [h]
  | expand =>
    simp only [transPos, userMap_num h1 h2, Res.bind_ok, DAct.act, Act.admits, needsNew, if_true, code]
    by_cases h : 0 ≤ u.users.num e
    · have h' : ¬ u.users.num e < 0 := by omega
      simp [h, h']
    · have h' : u.users.num e < 0 := by omega
      simp [h, h']

theorem code_new {us : Users} {a : Act} {e : Int} (h : needsNew us a e = true) : code us a e = -e := by
  cases a <;> simp_all [needsNew, code]

/-! ### the positions of a record -/

/-- the first position that is not admitted -/
def badAt (us : Users) : List Act → List Int → Option Nat
  | a :: as, e :: es => if a.admits us e then (badAt us as es).map (· + 1) else some 0
  | _, _ => none

/-- the key array after the positions have been translated up to the first bad one -/
def scanOut (us : Users) : List Act → List Int → List Int → List Int
  | a :: as, e :: es, o :: os => if a.admits us e then code us a e :: scanOut us as es os else o :: os
  | _, _, os => os

/-- some of them needs a new number -/
def newIn (us : Users) : List Act → List Int → Bool
  | a :: as, e :: es => if a.admits us e then needsNew us a e || newIn us as es else false
  | _, _ => false

theorem mapScan_spec {u : Uel} {hi : Bool} : ∀ (as : List DAct) (es os : List Int) (d : Nat), InTab u es → as.length = es.length → os.length = es.length →
    mapScan u hi d as es os = .ok (scanOut u.users (as.map DAct.act) es os, (badAt u.users (as.map DAct.act) es).map (fun k => (false, d + k)),
      newIn u.users (as.map DAct.act) es)
  | [], [], [], d, _, _, _ => by simp [mapScan, scanOut, badAt, newIn]
  | a :: as, e :: es, o :: os, d, ht, h1, h2 => by
    have hr := ht e (by simp)
    rw [mapScan, if_neg (by simp; omega), transPos_spec hr.1 hr.2]
    simp only [Res.bind_ok, List.map_cons, scanOut, badAt, newIn]
    have ih := mapScan_spec (u := u) (hi := hi) as es os (d + 1) (fun x hx => ht x (by simp [hx])) (by simpa using h1) (by simpa using h2)
    cases hadm : a.act.admits u.users e with
    | false => simp
    | true =>
      cases hnew : needsNew u.users a.act e with
      | true =>
        simp only [if_true, ih, Res.bind_ok, code_new hnew, Bool.true_or, Option.map_map]
        refine congrArg Res.ok (Prod.ext rfl (Prod.ext ?_ rfl))
        simp only [Function.comp_def]
        congr 1
        funext k
        rw [Nat.add_assoc, Nat.add_comm 1 k]
      | false =>
        simp only [if_true, Bool.false_eq_true, if_false, ih, Res.bind_ok, Bool.false_or, Option.map_map]
        refine congrArg Res.ok (Prod.ext rfl (Prod.ext ?_ rfl))
        simp only [Function.comp_def]
        congr 1
        funext k
        rw [Nat.add_assoc, Nat.add_comm 1 k]
  | [], [], _ :: _, _, _, _, h2 => by simp at h2
  | _ :: _, [], _, _, _, h1, _ => by simp at h1
  | [], _ :: _, _, _, _, h1, _ => by simp at h1
  | _ :: _, _ :: _, [], _, _, _, h2 => by simp at h2

theorem badAt_none {us : Users} : ∀ {as : List Act} {es : List Int}, badAt us as es = none ↔ allAdmit us as es = true
  | [], es => by simp [badAt, allAdmit]
  | a :: as, [] => by simp [badAt, allAdmit]
  | a :: as, e :: es => by
    have ih := badAt_none (us := us) (as := as) (es := es)
    simp only [badAt, allAdmit]
    cases a.admits us e <;> simp [ih]

theorem scanOut_none {us : Users} : ∀ {as : List Act} {es os : List Int}, badAt us as es = none → os.length = es.length → as.length = es.length →
    scanOut us as es os = codes us as es
  | [], [], [], _, _, _ => rfl
  | a :: as, e :: es, o :: os, h, h1, h2 => by
    unfold badAt at h
    split at h
    · rename_i ha
      simp only [scanOut, ha, if_true, codes, List.zipWith_cons_cons]
      rw [scanOut_none (by simpa using h) (by simpa using h1) (by simpa using h2)]
      rfl
    · cases h
  | [], [], _ :: _, _, h2, _ => by simp at h2
  | _ :: _, [], _, _, _, h1 => by simp at h1
  | [], _ :: _, _, _, _, h1 => by simp at h1
  | _ :: _, _ :: _, [], _, h2, _ => by simp at h2

theorem scanOut_some {us : Users} : ∀ {as : List Act} {es os : List Int} {k : Nat}, badAt us as es = some k → os.length = es.length → as.length = es.length →
    (scanOut us as es os).length = es.length ∧ (scanOut us as es os).take k = (codes us as es).take k ∧
      allAdmit us (as.take k) (es.take k) = true ∧ k < es.length
  | a :: as, e :: es, o :: os, k, h, h1, h2 => by
    unfold badAt at h
    split at h
    · rename_i ha
      obtain ⟨j, hj, rfl⟩ := Option.map_eq_some_iff.mp h
      obtain ⟨e1, e2, e3, e4⟩ := scanOut_some hj (os := os) (by simpa using h1) (by simpa using h2)
      simp only [scanOut, ha, if_true, codes, List.zipWith_cons_cons, List.length_cons, List.take_succ_cons, allAdmit, Bool.true_and, e3]
      exact ⟨by omega, by rw [e2]; rfl, trivial, by omega⟩
    · rename_i ha
      cases h
      simp only [scanOut, ha, List.take_zero, allAdmit]
      exact ⟨by simpa using h1, trivial, trivial, by simp⟩
  | [], _, _, _, h, _, _ => by cases h
  | _ :: _, [], _, _, h, _, _ => by cases h
  | _ :: _, _ :: _, [], _, _, h2, _ => by simp at h2

/-- filters admit only numbers -/
def ActOk (a : Act) : Prop := ∀ p, a = .only p → ∀ v, p v = true → 0 ≤ v

theorem DAct.ok (a : DAct) : ActOk a.act := by
  intro p hp v hv
  cases a with
  | filter f =>
    cases hp
    unfold Filt.mem at hv
    simp only [Bool.and_eq_true, decide_eq_true_eq] at hv
    exact hv.1.1
  | _ => cases hp

theorem code_nonneg {us : Users} {a : Act} {e : Int} (ha : ActOk a) (he : 1 ≤ e) (hadm : a.admits us e = true) (hn : needsNew us a e = false) :
    0 ≤ code us a e := by
  cases a with
  | keep => show 0 ≤ e; omega
  | only p => exact ha p rfl _ hadm
  | mapped => simpa [Act.admits, code] using hadm
  | grow =>
    simp only [needsNew, decide_eq_false_iff_not] at hn
    unfold code
    simp only [if_neg hn]
    omega

theorem newIn_none {us : Users} : ∀ {as : List Act} {es : List Int}, newIn us as es = false → badAt us as es = none → (∀ a ∈ as, ActOk a) →
    (∀ e ∈ es, 1 ≤ e) → ∀ x ∈ codes us as es, 0 ≤ x
  | [], _, _, _, _, _, x, hx => by simp [codes] at hx
  | _ :: _, [], _, _, _, _, x, hx => by simp [codes] at hx
  | a :: as, e :: es, h, hb, ha, he, x, hx => by
    unfold newIn at h
    unfold badAt at hb
    split at h
    · rename_i hadm
      rw [if_pos hadm] at hb
      rw [Bool.or_eq_false_iff] at h
      simp only [codes, List.zipWith_cons_cons, List.mem_cons] at hx
      rcases hx with rfl | hx
      · exact code_nonneg (ha a (by simp)) (he e (by simp)) hadm h.1
      · exact newIn_none h.2 (by simpa using hb) (fun b hb => ha b (by simp [hb])) (fun b hb => he b (by simp [hb])) x hx
    · rename_i hadm
      rw [if_neg hadm] at hb
      cases hb

theorem newIn_some {us : Users} : ∀ {as : List Act} {es : List Int} {k : Nat}, newIn us as es = false → badAt us as es = some k → (∀ a ∈ as, ActOk a) →
    (∀ e ∈ es, 1 ≤ e) → ∀ x ∈ (codes us as es).take k, 0 ≤ x
  | [], _, _, _, _, _, _, x, hx => by simp [codes] at hx
  | _ :: _, [], _, _, _, _, _, x, hx => by simp [codes] at hx
  | a :: as, e :: es, k, h, hb, ha, he, x, hx => by
    unfold newIn at h
    unfold badAt at hb
    split at h
    · rename_i hadm
      rw [if_pos hadm] at hb
      obtain ⟨j, hj, rfl⟩ := Option.map_eq_some_iff.mp hb
      rw [Bool.or_eq_false_iff] at h
      simp only [codes, List.zipWith_cons_cons, List.take_succ_cons, List.mem_cons] at hx
      rcases hx with rfl | hx
      · exact code_nonneg (ha a (by simp)) (he e (by simp)) hadm h.1
      · exact newIn_some h.2 hj (fun b hb => ha b (by simp [hb])) (fun b hb => he b (by simp [hb])) x hx
    · rename_i hadm
      rw [if_neg hadm] at hb
      cases hb
      simp at hx

theorem allAdmit_append {us : Users} : ∀ {as bs : List Act} {es fs : List Int}, as.length = es.length →
    allAdmit us (as ++ bs) (es ++ fs) = (allAdmit us as es && allAdmit us bs fs)
  | [], bs, [], fs, _ => by simp [allAdmit]
  | a :: as, bs, e :: es, fs, h => by
    simp only [List.cons_append, allAdmit, allAdmit_append (show as.length = es.length by simpa using h), Bool.and_assoc]
  | _ :: _, _, [], _, h => by simp at h
  | [], _, _ :: _, _, h => by simp at h

/-- numbers once given stay -/
structure ULe (us us' : Users) : Prop where
  keep : ∀ e, 0 ≤ us.num e → us'.num e = us.num e
  hi : us.hi ≤ us'.hi

theorem ULe.refl (us : Users) : ULe us us := ⟨fun _ _ => rfl, Int.le_refl _⟩

theorem ULe.trans {a b c : Users} (h1 : ULe a b) (h2 : ULe b c) : ULe a c :=
  ⟨fun e he => by rw [h2.keep e (by rw [h1.keep e he]; exact he), h1.keep e he], Int.le_trans h1.hi h2.hi⟩

theorem give_le (us : Users) (e : Int) : ULe us (us.give e) := by
  unfold Users.give
  split
  · refine ⟨fun x hx => ?_, by show us.hi ≤ us.hi + 1; omega⟩
    show (if x = e then _ else _) = _
    rw [if_neg]
    rintro rfl
    omega
  · exact .refl us

theorem giveAll_le : ∀ (as : List Act) (es : List Int) (us : Users), ULe us (giveAll as es us)
  | [], es, us => by simp only [giveAll]; exact .refl us
  | a :: as, [], us => by cases a <;> (simp only [giveAll]; exact .refl us)
  | a :: as, e :: es, us => by
    cases a with
    | grow => simp only [giveAll]; exact (give_le us e).trans (giveAll_le as es _)
    | _ => simp only [giveAll]; exact giveAll_le as es us

/-- the codes of a record after an element has been given a number -/
theorem codes_give {us : Users} {e : Int} (h0 : 0 ≤ us.hi) (he : 1 ≤ e) (hn : us.num e < 0) : ∀ {as : List Act} {es : List Int}, (∀ a ∈ as, ActOk a) →
    (∀ x ∈ es, 1 ≤ x) → allAdmit us as es = true →
    (codes us as es).map (fun x => if x = -e then us.hi + 1 else x) = codes (us.give e) as es
  | [], es, _, _, _ => by simp [codes]
  | _ :: _, [], _, _, _ => by simp [codes]
  | a :: as, x :: es, ha, hx, hadm => by
    simp only [allAdmit, Bool.and_eq_true] at hadm
    have ih := codes_give h0 he hn (as := as) (es := es) (fun b hb => ha b (by simp [hb])) (fun b hb => hx b (by simp [hb])) hadm.2
    have hx1 := hx x (by simp)
    unfold codes at ih ⊢
    rw [List.zipWith_cons_cons, List.map_cons, ih, List.zipWith_cons_cons]
    congr 1
    have hg : us.give e = ⟨fun x => if x = e then us.hi + 1 else us.num x, us.hi + 1⟩ := by unfold Users.give; rw [if_pos hn]
    rw [hg]
    cases a with
    | keep =>
      show (if x = -e then _ else x) = x
      rw [if_neg (by omega)]
    | only p =>
      have h0 := ha (.only p) (by simp) p rfl _ hadm.1
      show (if us.num x = -e then _ else us.num x) = if x = e then _ else us.num x
      rw [if_neg (by omega), if_neg]
      rintro rfl
      omega
    | mapped =>
      have h0 : 0 ≤ us.num x := by simpa [Act.admits] using hadm.1
      show (if us.num x = -e then _ else us.num x) = if x = e then _ else us.num x
      rw [if_neg (by omega), if_neg]
      rintro rfl
      omega
    | grow =>
      show (if (if us.num x < 0 then -x else us.num x) = -e then us.hi + 1 else (if us.num x < 0 then -x else us.num x)) =
        if (if x = e then us.hi + 1 else us.num x) < 0 then -x else (if x = e then us.hi + 1 else us.num x)
      by_cases hxe : x = e
      · subst hxe
        rw [if_pos hn, if_pos rfl, if_pos rfl]
        rw [if_neg (by omega)]
      · rw [if_neg hxe]
        by_cases hx0 : us.num x < 0
        · rw [if_pos hx0, if_neg (by omega)]
        · rw [if_neg hx0, if_neg (by omega)]

theorem admits_le {us us' : Users} (h : ULe us us') {a : Act} (ha : ActOk a) {e : Int} (hadm : a.admits us e = true) : a.admits us' e = true := by
  cases a with
  | keep => rfl
  | only p =>
    have h0 := ha p rfl _ hadm
    show p (us'.num e) = true
    rw [h.keep e h0]
    exact hadm
  | mapped =>
    have h0 : 0 ≤ us.num e := by simpa [Act.admits] using hadm
    simp only [Act.admits, h.keep e h0, h0, decide_true]
  | grow => rfl

theorem allAdmit_le {us us' : Users} (h : ULe us us') : ∀ {as : List Act} {es : List Int}, (∀ a ∈ as, ActOk a) → allAdmit us as es = true →
    allAdmit us' as es = true
  | [], es, _, _ => by simp [allAdmit]
  | _ :: _, [], _, _ => by simp [allAdmit]
  | a :: as, e :: es, ha, hadm => by
    simp only [allAdmit, Bool.and_eq_true] at hadm ⊢
    exact ⟨admits_le h (ha a (by simp)) hadm.1, allAdmit_le h (fun b hb => ha b (by simp [hb])) hadm.2⟩

theorem key_le {us us' : Users} (h : ULe us us') {a : Act} (ha : ActOk a) {e : Int} (hadm : a.admits us e = true) (hn : needsNew us a e = false) :
    a.key us' e = code us a e := by
  cases a with
  | keep => rfl
  | only p => exact h.keep e (ha p rfl _ hadm)
  | mapped => exact h.keep e (by simpa [Act.admits] using hadm)
  | grow =>
    simp only [needsNew, decide_eq_false_iff_not] at hn
    show us'.num e = if us.num e < 0 then -e else us.num e
    rw [if_neg hn, h.keep e (by omega)]

/-- new numbers for the elements of a record -/
theorem resolveNew_spec : ∀ (as : List Act) (es : List Int) (u : Uel), as.length = es.length → InTab u es → 0 ≤ u.usr.highest → u.room ≤ 2147483646 →
    (∀ a ∈ as, ActOk a) → allAdmit u.users as es = true →
    ∃ u' n, resolveNew u (codes u.users as es) = .ok (u', mapKeys u'.users as es, n) ∧ u'.users = giveAll as es u.users ∧
      u'.ents.length = u.ents.length ∧ u'.room = u.room ∧ u'.usr.highest = u.usr.highest + (n : Nat) ∧ u'.strs = u.strs
  | [], [], u, _, _, _, _, _, _ => ⟨u, 0, by simp [codes, resolveNew, mapKeys], by simp [giveAll], rfl, rfl, by simp, rfl⟩
  | a :: as, e :: es, u, hl, ht, h0, hr, ha, hadm => by
    have he := ht e (by simp)
    have hl' : as.length = es.length := by simpa using hl
    have ht' : InTab u es := fun x hx => ht x (by simp [hx])
    have ha' : ∀ b ∈ as, ActOk b := fun b hb => ha b (by simp [hb])
    have hadm0 := hadm
    simp only [allAdmit, Bool.and_eq_true] at hadm
    have hc : codes u.users (a :: as) (e :: es) = code u.users a e :: codes u.users as es := rfl
    rw [hc, resolveNew]
    cases hn : needsNew u.users a e with
    | true =>
      have hgrow : a = .grow ∧ u.users.num e < 0 := by
        cases a <;> simp [needsNew] at hn
        exact ⟨rfl, hn⟩
      obtain ⟨rfl, hneg⟩ := hgrow
      rw [code_new hn, if_pos (by omega)]
      obtain ⟨u1, v, q1, q2, q3, q4, q5, q6, _, q8⟩ := newUsrUel_spec he.1 he.2 h0 hr hneg
      rw [show - -e = e by omega, q1]
      simp only [Res.bind_ok]
      have hcg := codes_give (us := u.users) h0 he.1 hneg ha' (fun x hx => (ht' x hx).1) hadm.2
      rw [q3, show u.usr.highest + 1 = u.users.hi + 1 from rfl, hcg, ← q2]
      have hsz : u1.size = u.size := by unfold Uel.size; rw [q4]
      obtain ⟨u', n, p1, p2, p3, p4, p5, p6⟩ := resolveNew_spec as es u1 hl' (fun x hx => by rw [hsz]; exact ht' x hx) (by omega) (by omega) ha'
        (by rw [q2]; exact allAdmit_le (give_le _ _) ha' hadm.2)
      rw [p1]
      simp only [Res.bind_ok]
      refine ⟨u', n + 1, ?_, ?_, by omega, by omega, by push_cast; omega, p6.trans q8⟩
      · have hk : u'.users.num e = u.users.hi + 1 := by
          have hle : ULe u1.users u'.users := by rw [p2]; exact giveAll_le _ _ _
          have h1 : u1.users.num e = u.users.hi + 1 := by
            rw [q2]
            unfold Users.give
            rw [if_pos hneg]
            simp
          have hhi : u.users.hi = u.usr.highest := rfl
          rw [hle.keep e (by rw [h1]; omega), h1]
        show Res.ok (u', (u.users.hi + 1) :: mapKeys u'.users as es, n + 1) = Res.ok (u', u'.users.num e :: mapKeys u'.users as es, n + 1)
        rw [hk]
      · rw [p2, q2]
        simp only [giveAll]
    | false =>
      have hcn := code_nonneg (ha a (by simp)) he.1 hadm.1 hn
      rw [if_neg (by omega)]
      obtain ⟨u', n, p1, p2, p3, p4, p5, p6⟩ := resolveNew_spec as es u hl' ht' h0 hr ha' hadm.2
      rw [p1]
      simp only [Res.bind_ok]
      have hle : ULe u.users u'.users := by rw [p2]; exact giveAll_le _ _ _
      refine ⟨u', n, ?_, ?_, p3, p4, p5, p6⟩
      · show Res.ok (u', code u.users a e :: mapKeys u'.users as es, n) = Res.ok (u', a.key u'.users e :: mapKeys u'.users as es, n)
        rw [key_le hle (ha a (by simp)) hadm.1 hn]
      · rw [p2]
        cases a with
        | grow =>
          simp only [needsNew, decide_eq_false_iff_not] at hn
          simp only [giveAll]
          unfold Users.give
          rw [if_neg hn]
        | _ => simp only [giveAll]
  | _ :: _, [], _, h, _, _, _, _, _ => by simp at h
  | [], _ :: _, _, h, _, _, _, _, _ => by simp at h

/-- nothing to do -/
theorem resolve_none {us : Users} : ∀ {as : List Act} {es : List Int}, as.length = es.length → (∀ a ∈ as, ActOk a) → (∀ e ∈ es, 1 ≤ e) →
    allAdmit us as es = true → (∀ x ∈ codes us as es, 0 ≤ x) → giveAll as es us = us ∧ mapKeys us as es = codes us as es
  | [], [], _, _, _, _, _ => by simp [giveAll, mapKeys, codes]
  | a :: as, e :: es, hl, ha, he, hadm, hc => by
    simp only [allAdmit, Bool.and_eq_true] at hadm
    have hcs : codes us (a :: as) (e :: es) = code us a e :: codes us as es := rfl
    rw [hcs] at hc ⊢
    obtain ⟨p1, p2⟩ := resolve_none (us := us) (show as.length = es.length by simpa using hl) (fun b hb => ha b (by simp [hb])) (fun b hb => he b (by simp [hb])) hadm.2
      (fun x hx => hc x (by simp [hx]))
    have hn : needsNew us a e = false := by
      cases hn : needsNew us a e with
      | false => rfl
      | true =>
        have := hc (code us a e) (by simp)
        rw [code_new hn] at this
        have := he e (by simp)
        omega
    refine ⟨?_, ?_⟩
    · cases a with
      | grow =>
        simp only [needsNew, decide_eq_false_iff_not] at hn
        simp only [giveAll]
        unfold Users.give
        rw [if_neg hn]
        exact p1
      | _ => simp only [giveAll]; exact p1
    · show a.key us e :: mapKeys us as es = _
      rw [p2, key_le (.refl us) (ha a (by simp)) hadm.1 hn]
  | _ :: _, [], h, _, _, _, _ => by simp at h
  | [], _ :: _, h, _, _, _, _ => by simp at h

/-- after the numbers have been given the codes are the delivered key -/
theorem codes_done {us : Users} : ∀ {as : List Act} {es : List Int}, as.length = es.length → (∀ a ∈ as, ActOk a) → (∀ e ∈ es, 1 ≤ e) → 0 ≤ us.hi →
    allAdmit us as es = true → codes (giveAll as es us) as es = mapKeys (giveAll as es us) as es ∧ ∀ x ∈ mapKeys (giveAll as es us) as es, 0 ≤ x
  | [], [], _, _, _, _, _ => by simp [giveAll, mapKeys, codes]
  | a :: as, e :: es, hl, ha, he, h0, hadm => by
    simp only [allAdmit, Bool.and_eq_true] at hadm
    have hl' : as.length = es.length := by simpa using hl
    have ha' : ∀ b ∈ as, ActOk b := fun b hb => ha b (by simp [hb])
    have he' : ∀ b ∈ es, 1 ≤ b := fun b hb => he b (by simp [hb])
    have he1 := he e (by simp)
    -- the users after the first position
    obtain ⟨us1, hg, hle1, h01, hnum⟩ : ∃ us1, giveAll (a :: as) (e :: es) us = giveAll as es us1 ∧ ULe us us1 ∧ 0 ≤ us1.hi ∧
        (a = .grow → 0 ≤ us1.num e) := by
      cases a with
      | grow =>
        refine ⟨us.give e, rfl, give_le _ _, Int.le_trans h0 (give_le us e).hi, fun _ => ?_⟩
        unfold Users.give
        split
        · show 0 ≤ (if e = e then us.hi + 1 else us.num e)
          rw [if_pos rfl]
          omega
        · omega
      | _ => exact ⟨us, rfl, .refl us, h0, by rintro ⟨⟩⟩
    rw [hg]
    have hadm' := allAdmit_le hle1 ha' hadm.2
    obtain ⟨p1, p2⟩ := codes_done (us := us1) hl' ha' he' h01 hadm'
    have hle2 := giveAll_le as es us1
    have hn : needsNew us1 a e = false := by
      cases a with
      | grow => have := hnum rfl; simp only [needsNew, decide_eq_false_iff_not]; omega
      | _ => rfl
    have hn2 : needsNew (giveAll as es us1) a e = false := by
      cases a with
      | grow =>
        have := hnum rfl
        simp only [needsNew, decide_eq_false_iff_not]
        rw [hle2.keep e this]
        omega
      | _ => rfl
    have hadm1 := admits_le (hle1.trans hle2) (ha a (by simp)) hadm.1
    have hk := key_le (.refl (giveAll as es us1)) (ha a (by simp)) hadm1 hn2
    refine ⟨?_, ?_⟩
    · show code _ a e :: codes _ as es = a.key _ e :: mapKeys _ as es
      rw [p1, hk]
    · intro x hx
      rcases List.mem_cons.mp hx with rfl | hx
      · rw [hk]
        exact code_nonneg (ha a (by simp)) he1 hadm1 hn2
      · exact p2 x hx
  | _ :: _, [], h, _, _, _, _ => by simp at h
  | [], _ :: _, h, _, _, _, _ => by simp at h

end Gdx
