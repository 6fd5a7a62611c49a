import Verif.Model.StrHash
import Verif.Spec.Names
import Mathlib.Data.List.Basic
import Mathlib.Data.List.Induction
import Mathlib.Tactic.IntervalCases

/-! Helper lemmas for C15. -/

namespace Gdx
open Gdx.Spec

theorem upC_toNat (c : UInt8) : (upC c).toNat = if 97 ≤ c.toNat ∧ c.toNat ≤ 122 then c.toNat - 32 else c.toNat := by
  unfold upC
  by_cases h : 97 ≤ c ∧ c ≤ 122
  · have h' : 97 ≤ c.toNat ∧ c.toNat ≤ 122 := h
    rw [if_pos h, if_pos h']
    rw [UInt8.toNat_xor]
    obtain ⟨h1, h2⟩ := h'
    generalize c.toNat = n at *
    interval_cases n <;> rfl
  · have h' : ¬ (97 ≤ c.toNat ∧ c.toNat ≤ 122) := h
    rw [if_neg h, if_neg h']

theorem loC_toNat (c : UInt8) : (loC c).toNat = if 65 ≤ c.toNat ∧ c.toNat ≤ 90 then c.toNat + 32 else c.toNat := by
  unfold loC
  by_cases h : 65 ≤ c ∧ c ≤ 90
  · have h' : 65 ≤ c.toNat ∧ c.toNat ≤ 90 := h
    rw [if_pos h, if_pos h']
    rw [UInt8.toNat_xor]
    obtain ⟨h1, h2⟩ := h'
    generalize c.toNat = n at *
    interval_cases n <;> rfl
  · have h' : ¬ (65 ≤ c.toNat ∧ c.toNat ≤ 90) := h
    rw [if_neg h, if_neg h']

theorem lower_toNat (c : UInt8) :
    (lower c).toNat = if 65 ≤ c.toNat ∧ c.toNat ≤ 90 then c.toNat + 32 else c.toNat := by
  unfold lower
  by_cases h : 65 ≤ c ∧ c ≤ 90
  · have h' : 65 ≤ c.toNat ∧ c.toNat ≤ 90 := h
    rw [if_pos h, if_pos h', UInt8.toNat_add]
    have : (32 : UInt8).toNat = 32 := rfl
    omega
  · have h' : ¬ (65 ≤ c.toNat ∧ c.toNat ≤ 90) := h
    rw [if_neg h, if_neg h']

theorem loC_eq_lower : loC = lower := by
  funext c
  apply UInt8.toNat_inj.mp
  rw [loC_toNat, lower_toNat]

theorem upC_eq_of_loC {a b : UInt8} (h : loC a = loC b) : upC a = upC b := by
  have h1 := congrArg UInt8.toNat h
  rw [loC_toNat, loC_toNat] at h1
  apply UInt8.toNat_inj.mp
  rw [upC_toNat, upC_toNat]
  split at h1 <;> split at h1 <;> split <;> split <;> omega

theorem sameText_iff (cs : Bool) (a b : Str) : sameText cs a b = true ↔ SameName cs a b := by
  unfold sameText SameName SameNoCase
  cases cs <;> simp [loC_eq_lower]

theorem map_upC_of_map_loC : ∀ {a b : Str}, a.map loC = b.map loC → a.map upC = b.map upC
  | [], [], _ => rfl
  | [], _ :: _, h => by simp at h
  | _ :: _, [], h => by simp at h
  | x :: a, y :: b, h => by
    simp only [List.map_cons, List.cons.injEq] at h ⊢
    exact ⟨upC_eq_of_loC h.1, map_upC_of_map_loC h.2⟩

theorem foldl_map_upC (f : Nat → UInt8 → Nat) (s : Str) (r : Nat) :
    s.foldl (fun r c => f r (upC c)) r = (s.map upC).foldl f r := by
  rw [List.foldl_map]

theorem hashStr_congr {cs : Bool} {size : Nat} {a b : Str} (h : SameName cs a b) :
    hashStr cs size a = hashStr cs size b := by
  unfold SameName at h
  cases cs with
  | true => simp at h; rw [h]
  | false =>
    simp only [Bool.false_eq_true, if_false, SameNoCase, ← loC_eq_lower] at h
    have h2 := map_upC_of_map_loC h
    unfold hashStr
    simp only [Bool.false_eq_true, if_false]
    rw [foldl_map_upC (fun r c => (211 * r + charVal c) % 4294967296) a 0,
      foldl_map_upC (fun r c => (211 * r + charVal c) % 4294967296) b 0, h2]

variable {α : Type}

/-- chain `h` holds exactly the numbers of the entries with hash value `h`, each once -/
def HTab.Good (cs : Bool) (ents : List (Str × α)) (t : HTab) : Prop :=
  (∀ h, (t.chain h).Nodup) ∧
    ∀ h n, n ∈ t.chain h ↔ ∃ e, ents[n]? = some e ∧ hashStr cs t.size e.1 = h

theorem HTab.Good.push {cs : Bool} {ents : List (Str × α)} {t : HTab} (h : t.Good cs ents) (e : Str × α) :
    (t.push (hashStr cs t.size e.1) ents.length).Good cs (ents ++ [e]) := by
  have hsz : ∀ k n, (t.push k n).size = t.size := fun _ _ => rfl
  constructor
  · intro i
    simp only [HTab.push]
    split
    · refine List.nodup_cons.mpr ⟨?_, h.1 i⟩
      intro hm
      obtain ⟨e', he, _⟩ := (h.2 i ents.length).mp hm
      simp at he
    · exact h.1 i
  · intro i n
    rw [hsz]
    simp only [HTab.push]
    by_cases hn : n = ents.length
    · subst hn
      have hno : ∀ i, ents.length ∉ t.chain i := by
        intro i hm
        obtain ⟨e', he, _⟩ := (h.2 i ents.length).mp hm
        simp at he
      by_cases hi : i = hashStr cs t.size e.1
      · simp [hi]
      · simp [hi, hno i, Ne.symm hi]
    · have h1 : (if i = hashStr cs t.size e.1 then ents.length :: t.chain i else t.chain i) = t.chain i ∨
          (if i = hashStr cs t.size e.1 then ents.length :: t.chain i else t.chain i) = ents.length :: t.chain i := by
        split <;> simp
      have h2 : n ∈ (if i = hashStr cs t.size e.1 then ents.length :: t.chain i else t.chain i) ↔ n ∈ t.chain i := by
        rcases h1 with h1 | h1 <;> rw [h1]
        simp [hn]
      rw [h2, h.2 i n]
      rcases lt_or_ge n ents.length with hl | hl
      · rw [List.getElem?_append_left hl]
      · have : ents.length < n := by omega
        rw [List.getElem?_eq_none hl, List.getElem?_eq_none (by simp; omega)]

theorem hashAll_good_aux (cs : Bool) (ents : List (Str × α)) (sz : Nat × Nat) :
    ((ents.zipIdx).foldl (fun t e => t.push (hashStr cs t.size e.1.1) e.2)
      ({ size := sz.1, reHash := sz.2, chain := fun _ => [] } : HTab)).Good cs ents := by
  induction ents using List.reverseRecOn with
  | nil => exact ⟨fun h => by simp, fun h n => by simp⟩
  | append_singleton ents e ih =>
    rw [List.zipIdx_append, List.foldl_append]
    simpa using ih.push e

theorem HList.hashAll_good (cs : Bool) (l : HList α) : (l.hashAll cs).Good cs l.ents :=
  hashAll_good_aux cs l.ents _

/-- invariant: an existing table is a partition of the entries by hash value -/
def HList.Inv (cs : Bool) (l : HList α) : Prop := ∀ t, l.tab = some t → t.Good cs l.ents

theorem HList.walk_spec (cs : Bool) (l : HList α) (s : Str) (ns : List Nat) (h : ∀ n ∈ ns, n < l.ents.length) :
    ∃ r, l.walk cs s ns = .ok r ∧
      (∀ n, r = some n → n ∈ ns ∧ ∃ e, l.ents[n]? = some e ∧ SameName cs e.1 s) ∧
      (r = none → ∀ n ∈ ns, ∀ e, l.ents[n]? = some e → ¬ SameName cs e.1 s) := by
  induction ns with
  | nil => exact ⟨none, rfl, by simp, by simp⟩
  | cons n ns ih =>
    have hn := h n (by simp)
    obtain ⟨r, h1, h2, h3⟩ := ih fun m hm => h m (by simp [hm])
    rw [HList.walk, List.getElem?_eq_getElem hn]
    by_cases hs : sameText cs l.ents[n].1 s
    · refine ⟨some n, by simp [hs], ?_, by simp⟩
      intro m hm
      cases hm
      exact ⟨by simp, _, List.getElem?_eq_getElem hn, (sameText_iff _ _ _).mp hs⟩
    · refine ⟨r, by simp [hs, h1], ?_, ?_⟩
      · intro m hm
        obtain ⟨a, b⟩ := h2 m hm
        exact ⟨by simp [a], b⟩
      · intro hr m hm e he
        rcases List.mem_cons.mp hm with rfl | hm
        · rw [List.getElem?_eq_getElem hn] at he
          cases he
          rw [← sameText_iff]
          exact hs
        · exact h3 hr m hm e he

/-- Searching the chain of the hash value is the same as searching everywhere. -/
theorem HList.walk_chain (cs : Bool) (l : HList α) (t : HTab) (ht : t.Good cs l.ents) (s : Str) :
    ∃ r, l.walk cs s (t.chain (hashStr cs t.size s)) = .ok r ∧
      (∀ n, r = some n → ∃ e, l.ents[n]? = some e ∧ SameName cs e.1 s) ∧
      (r = none → ∀ e ∈ l.ents, ¬ SameName cs e.1 s) := by
  obtain ⟨r, h1, h2, h3⟩ := l.walk_spec cs s (t.chain (hashStr cs t.size s)) (by
    intro n hn
    obtain ⟨e, he, _⟩ := (ht.2 _ n).mp hn
    exact (List.getElem?_eq_some_iff.mp he).1)
  refine ⟨r, h1, fun n hn => (h2 n hn).2, ?_⟩
  intro hr e he hsame
  obtain ⟨n, hn, hne⟩ := List.getElem_of_mem he
  have hg : l.ents[n]? = some e := by rw [List.getElem?_eq_getElem hn, hne]
  refine h3 hr n ?_ e hg hsame
  exact (ht.2 _ n).mpr ⟨e, hg, hashStr_congr hsame⟩

theorem HList.lookupTab_good (cs : Bool) (l : HList α) (hl : l.Inv cs) : (l.lookupTab cs).Good cs l.ents := by
  unfold HList.lookupTab
  cases h : l.tab with
  | none => exact l.hashAll_good cs
  | some t => exact hl t h

theorem HList.addTab_good (cs : Bool) (l : HList α) (hl : l.Inv cs) : (l.addTab cs).Good cs l.ents := by
  unfold HList.addTab
  cases h : l.tab with
  | none => exact l.hashAll_good cs
  | some t =>
    simp only
    split
    · exact l.hashAll_good cs
    · exact hl t h

theorem HList.indexOf_spec (cs : Bool) (l : HList α) (hl : l.Inv cs) (s : Str) :
    ∃ l' r, l.indexOf cs s = .ok (l', r) ∧ l'.Inv cs ∧ l'.ents = l.ents ∧ l'.sortMap = l.sortMap ∧
      (∀ n, r = some n → ∃ e, l.ents[n]? = some e ∧ SameName cs e.1 s) ∧
      (r = none → ∀ e ∈ l.ents, ¬ SameName cs e.1 s) := by
  have hgood := l.lookupTab_good cs hl
  obtain ⟨r, h1, h2, h3⟩ := l.walk_chain cs _ hgood s
  refine ⟨{ l with tab := some (l.lookupTab cs) }, r, ?_, ?_, rfl, rfl, h2, h3⟩
  · unfold HList.indexOf
    simp only [h1, Res.bind_ok, Res.pure_eq]
  · intro t' ht'
    cases ht'
    exact hgood

theorem HList.addObject_spec (cs : Bool) (l : HList α) (hl : l.Inv cs) (s : Str) (a : α) :
    (∃ l' n, l.addObject cs s a = .ok (l', n) ∧ l'.Inv cs ∧ l'.ents = l.ents ∧ l'.sortMap = l.sortMap ∧
      ∃ e, l.ents[n]? = some e ∧ SameName cs e.1 s) ∨
    ((∀ e ∈ l.ents, ¬ SameName cs e.1 s) ∧ l.sortMap = true ∧ l.addObject cs s a = .ub) ∨
    ((∀ e ∈ l.ents, ¬ SameName cs e.1 s) ∧ l.sortMap = false ∧
      ∃ l', l.addObject cs s a = .ok (l', l.ents.length) ∧ l'.Inv cs ∧ l'.ents = l.ents ++ [(s, a)] ∧
        l'.sortMap = false) := by
  have hgood := l.addTab_good cs hl
  obtain ⟨r, h1, h2, h3⟩ := l.walk_chain cs _ hgood s
  cases r with
  | some n =>
    left
    refine ⟨{ l with tab := some (l.addTab cs) }, n, ?_, ?_, rfl, rfl, h2 n rfl⟩
    · unfold HList.addObject
      simp only [h1, Res.bind_ok, Res.pure_eq]
    · intro t' ht'
      cases ht'
      exact hgood
  | none =>
    right
    cases hs : l.sortMap with
    | true =>
      left
      refine ⟨h3 rfl, rfl, ?_⟩
      unfold HList.addObject
      simp [h1, hs]
    | false =>
      right
      refine ⟨h3 rfl, rfl, ⟨l.ents ++ [(s, a)],
        some ((l.addTab cs).push (hashStr cs (l.addTab cs).size s) l.ents.length), false⟩, ?_, ?_, rfl, rfl⟩
      · unfold HList.addObject
        simp [h1, hs]
      · intro t' ht'
        cases ht'
        exact hgood.push (s, a)

theorem HTab.Good.rename {cs : Bool} {ents : List (Str × α)} {t : HTab} (h : t.Good cs ents) {n : Nat} {e : Str × α}
    (he : ents[n]? = some e) (s : Str) (hne : hashStr cs t.size e.1 ≠ hashStr cs t.size s) :
    ((t.remove (hashStr cs t.size e.1) n).push (hashStr cs t.size s) n).Good cs (ents.set n (s, e.2)) := by
  have hlen : n < ents.length := (List.getElem?_eq_some_iff.mp he).1
  have hother : ∀ i, i ≠ hashStr cs t.size e.1 → n ∉ t.chain i := by
    intro i hi hm
    obtain ⟨e', he', hh⟩ := (h.2 i n).mp hm
    rw [he] at he'
    cases he'
    exact hi hh.symm
  constructor
  · intro i
    simp only [HTab.push, HTab.remove]
    by_cases h1 : i = hashStr cs t.size s
    · have h2 : ¬ (i = hashStr cs t.size e.1) := fun h3 => hne (h3.symm.trans h1)
      rw [if_pos h1, if_neg h2]
      exact List.nodup_cons.mpr ⟨hother i h2, h.1 i⟩
    · rw [if_neg h1]
      split
      · exact (h.1 i).erase n
      · exact h.1 i
  · intro i m
    simp only [HTab.push, HTab.remove]
    by_cases hm : m = n
    · subst hm
      have hget : (ents.set m (s, e.2))[m]? = some (s, e.2) := by
        rw [List.getElem?_set_self hlen]
      rw [hget]
      by_cases h1 : i = hashStr cs t.size s
      · rw [if_pos h1]
        simp [h1]
      · rw [if_neg h1]
        constructor
        · intro hx
          exfalso
          split at hx
          · exact (List.Nodup.not_mem_erase (h.1 i)) hx
          · rename_i h2
            exact hother i h2 hx
        · rintro ⟨e', he', hh⟩
          cases he'
          exact absurd hh.symm h1
    · rw [List.getElem?_set_ne (Ne.symm hm), ← h.2 i m]
      by_cases h1 : i = hashStr cs t.size s
      · have h2 : ¬ (i = hashStr cs t.size e.1) := fun h3 => hne (h3.symm.trans h1)
        rw [if_pos h1, if_neg h2]
        simp [hm]
      · rw [if_neg h1]
        split
        · exact List.mem_erase_of_ne hm
        · rfl

theorem HTab.Good.same {cs : Bool} {ents : List (Str × α)} {t : HTab} (h : t.Good cs ents) {n : Nat} {e : Str × α}
    (he : ents[n]? = some e) (s : Str) (hne : hashStr cs t.size e.1 = hashStr cs t.size s) :
    t.Good cs (ents.set n (s, e.2)) := by
  have hlen : n < ents.length := (List.getElem?_eq_some_iff.mp he).1
  refine ⟨h.1, ?_⟩
  intro i m
  rw [h.2 i m]
  by_cases hm : m = n
  · subst hm
    rw [List.getElem?_set_self hlen, he]
    simp [hne]
  · rw [List.getElem?_set_ne (Ne.symm hm)]

theorem HList.rename_spec (cs : Bool) (l : HList α) (hl : l.Inv cs) (n : Nat) (s : Str) :
    (l.ents[n]? = none ∧ l.rename cs true n s = .ub) ∨
    ∃ e l', l.ents[n]? = some e ∧ l.rename cs true n s = .ok l' ∧ l'.Inv cs ∧ l'.ents = l.ents.set n (s, e.2) ∧
      l'.sortMap = false := by
  unfold HList.rename
  simp only [if_true]
  cases he : l.ents[n]? with
  | none => left; exact ⟨rfl, rfl⟩
  | some e =>
    right
    cases ht : l.tab with
    | none =>
      refine ⟨e, _, rfl, rfl, ?_, rfl, rfl⟩
      intro t h
      cases h
    | some t =>
      have hg := hl t ht
      by_cases hh : hashStr cs t.size e.1 = hashStr cs t.size s
      · refine ⟨e, { ents := l.ents.set n (s, e.2), tab := some t, sortMap := false }, rfl, by simp [hh], ?_, rfl, rfl⟩
        intro t' h
        cases h
        exact hg.same he s hh
      · have hm : n ∈ t.chain (hashStr cs t.size e.1) := (hg.2 _ n).mpr ⟨e, he, rfl⟩
        refine ⟨e, ⟨l.ents.set n (s, e.2),
          some ((t.remove (hashStr cs t.size e.1) n).push (hashStr cs t.size s) n), false⟩, rfl, by simp [hh, hm], ?_, rfl, rfl⟩
        intro t' h
        cases h
        exact hg.rename he s hh

/-- operations of the specification as operations of the model -/
def toHOp : TOp α → HOp α
  | .add s a => .add s a
  | .store s a => .store s a
  | .rename n s => .rename n s
  | .lookup s => .lookup s
  | .sort => .sort
  | .clear => .clear

def HList.abs (l : HList α) : Table α := { ents := l.ents, sortMap := l.sortMap }

theorem HList.step_spec (cs : Bool) (l : HList α) (hl : l.Inv cs) (o : TOp α) :
    (l.abs.step cs o = none ∧ l.step cs true (toHOp o) = .ub) ∨
    ∃ l', l.step cs true (toHOp o) = .ok l' ∧ l'.Inv cs ∧ l.abs.step cs o = some l'.abs := by
  cases o with
  | add s a =>
    rcases l.addObject_spec cs hl s a with ⟨l', n, h1, h2, h3, h4, e, h5, h6⟩ | ⟨h1, h2, h3⟩ | ⟨h1, h2, l', h3, h4, h5, h6⟩
    · right
      have hex : ∃ e ∈ l.ents, SameName cs e.1 s := ⟨e, List.mem_of_getElem? h5, h6⟩
      refine ⟨l', by simp [HList.step, toHOp, h1], h2, ?_⟩
      show Table.step cs ⟨l.ents, l.sortMap⟩ (.add s a) = some ⟨l'.ents, l'.sortMap⟩
      simp only [Table.step, h3, h4]
      rw [if_pos hex]
    · left
      have hex : ¬ ∃ e ∈ l.ents, SameName cs e.1 s := fun ⟨e, he, hs⟩ => h1 e he hs
      refine ⟨?_, by simp [HList.step, toHOp, h3]⟩
      show Table.step cs ⟨l.ents, l.sortMap⟩ (.add s a) = none
      simp only [Table.step]
      rw [if_neg hex, if_pos h2]
    · right
      have hex : ¬ ∃ e ∈ l.ents, SameName cs e.1 s := fun ⟨e, he, hs⟩ => h1 e he hs
      refine ⟨l', by simp [HList.step, toHOp, h3], h4, ?_⟩
      show Table.step cs ⟨l.ents, l.sortMap⟩ (.add s a) = some ⟨l'.ents, l'.sortMap⟩
      simp only [Table.step, h5, h6]
      rw [if_neg hex, if_neg (by simp [h2])]
      simp [h2]
  | store s a =>
    cases hs : l.sortMap with
    | true => left; simp [HList.step, toHOp, HList.storeObject, hs, Table.step, HList.abs]
    | false =>
      right
      refine ⟨{ l with ents := l.ents ++ [(s, a)], tab := none },
        by simp [HList.step, toHOp, HList.storeObject, hs], ?_, by simp [Table.step, HList.abs, hs]⟩
      intro t h
      cases h
  | rename n s =>
    rcases l.rename_spec cs hl n s with ⟨h1, h2⟩ | ⟨e, l', h1, h2, h3, h4, h5⟩
    · left
      exact ⟨by simp [Table.step, HList.abs, h1], by simp [HList.step, toHOp, h2]⟩
    · right
      exact ⟨l', by simp [HList.step, toHOp, h2], h3, by simp [Table.step, HList.abs, h1, h4, h5]⟩
  | lookup s =>
    obtain ⟨l', r, h1, h2, h3, h4, _⟩ := l.indexOf_spec cs hl s
    right
    exact ⟨l', by simp [HList.step, toHOp, h1], h2, by simp [Table.step, HList.abs, h3, h4]⟩
  | sort =>
    right
    exact ⟨l.sort, rfl, hl, rfl⟩
  | clear =>
    right
    exact ⟨HList.empty, rfl, fun t h => (nomatch h), rfl⟩

theorem HList.run_spec (cs : Bool) (l : HList α) (hl : l.Inv cs) (os : List (TOp α)) :
    (l.abs.run cs os = none ∧ l.run cs true (os.map toHOp) = .ub) ∨
    ∃ l', l.run cs true (os.map toHOp) = .ok l' ∧ l'.Inv cs ∧ l.abs.run cs os = some l'.abs := by
  induction os generalizing l with
  | nil => right; exact ⟨l, rfl, hl, rfl⟩
  | cons o os ih =>
    rcases l.step_spec cs hl o with ⟨h1, h2⟩ | ⟨l1, h1, h2, h3⟩
    · left
      simp [HList.run, Table.run, h1, h2]
    · rcases ih l1 h2 with ⟨h4, h5⟩ | ⟨l2, h4, h5, h6⟩
      · left
        simp [HList.run, Table.run, h1, h3, h4, h5]
      · right
        exact ⟨l2, by simp [HList.run, h1, h4], h5, by simp [Table.run, h3, h6]⟩

end Gdx
