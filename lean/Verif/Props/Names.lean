import Verif.Proofs.StrHash

/-! C15: name lookup does not depend on the hash table. -/

namespace Gdx.Props
open Gdx Gdx.Spec

variable {α : Type}

/-- what a lookup must answer: nothing is found exactly if no entry has the same name, what is found has the same name,
    and when the entries are pairwise different the answer is the one of a linear search -/
structure LookupOk (cs : Bool) (ents : List (Str × α)) (s : Str) (r : Option Nat) : Prop where
  none_iff : r = none ↔ ∀ e ∈ ents, ¬ SameName cs e.1 s
  found : ∀ n, r = some n → ∃ e, ents[n]? = some e ∧ SameName cs e.1 s
  linear : ents.Pairwise (fun a b => ¬ SameName cs a.1 b.1) → r = ents.findIdx? fun e => decide (SameName cs e.1 s)

theorem sameName_symm {cs : Bool} {a b : Str} (h : SameName cs a b) : SameName cs b a := by
  unfold SameName SameNoCase at *
  cases cs <;> simp_all

theorem sameName_trans {cs : Bool} {a b c : Str} (h : SameName cs a b) (h' : SameName cs b c) : SameName cs a c := by
  unfold SameName SameNoCase at *
  cases cs <;> simp_all

theorem lookupOk_of {cs : Bool} {ents : List (Str × α)} {s : Str} {r : Option Nat}
    (h1 : ∀ n, r = some n → ∃ e, ents[n]? = some e ∧ SameName cs e.1 s)
    (h2 : r = none → ∀ e ∈ ents, ¬ SameName cs e.1 s) : LookupOk cs ents s r := by
  have hn : r = none ↔ ∀ e ∈ ents, ¬ SameName cs e.1 s := by
    refine ⟨h2, ?_⟩
    intro h
    cases r with
    | none => rfl
    | some n =>
      obtain ⟨e, he, hs⟩ := h1 n rfl
      exact absurd hs (h e (List.mem_of_getElem? he))
  refine ⟨hn, h1, ?_⟩
  intro hp
  cases r with
  | none =>
    symm
    rw [List.findIdx?_eq_none_iff]
    intro e he
    simpa using h2 rfl e he
  | some n =>
    obtain ⟨e, he, hs⟩ := h1 n rfl
    obtain ⟨hl, hne⟩ := List.getElem?_eq_some_iff.mp he
    symm
    rw [List.findIdx?_eq_some_iff_getElem]
    refine ⟨hl, by simp [hne, hs], ?_⟩
    intro j hj
    have hd := List.pairwise_iff_getElem.mp hp j n (by omega) hl hj
    simp only [decide_eq_true_eq]
    intro hjs
    rw [hne] at hd
    exact hd (sameName_trans hjs (sameName_symm hs))

/-- C15: for every history of operations (1-based tables): the hash list goes wrong only where the specification forbids
    the operation (renaming a non-existing entry, adding a new entry while a sort map exists); otherwise it holds exactly
    the entries of the linear table and every lookup gives the answer of a linear search, whatever re-hashing happened
    before; the lookup itself changes no entry. -/
theorem C15_lookup (cs : Bool) (os : List (TOp α)) :
    match (Table.mk ([] : List (Str × α)) false).run cs os with
    | none => HList.empty.run cs true (os.map toHOp) = .ub
    | some t => ∃ l, HList.empty.run cs true (os.map toHOp) = .ok l ∧ l.ents = t.ents ∧
        ∀ s, ∃ l' r, l.indexOf cs s = .ok (l', r) ∧ l'.ents = t.ents ∧ LookupOk cs t.ents s r := by
  have hinv : (HList.empty : HList α).Inv cs := fun t h => (nomatch h)
  rcases HList.run_spec cs HList.empty hinv os with ⟨h1, h2⟩ | ⟨l, h1, h2, h3⟩
  · have h1' : (Table.mk ([] : List (Str × α)) false).run cs os = none := h1
    rw [h1']
    exact h2
  · have h3' : (Table.mk ([] : List (Str × α)) false).run cs os = some l.abs := h3
    rw [h3']
    refine ⟨l, h1, rfl, ?_⟩
    intro s
    obtain ⟨l', r, h4, _, h5, _, h6, h7⟩ := l.indexOf_spec cs h2 s
    exact ⟨l', r, h4, h5, lookupOk_of h6 h7⟩

/-- C15: the number returned when adding: an existing entry with the same name, else the next free number. -/
theorem C15_add (cs : Bool) (os : List (TOp α)) (l : HList α) (h : HList.empty.run cs true (os.map toHOp) = .ok l)
    (hs : l.sortMap = false) (s : Str) (a : α) :
    ∃ l' n, l.addObject cs s a = .ok (l', n) ∧
      ((∃ e, l.ents[n]? = some e ∧ SameName cs e.1 s ∧ l'.ents = l.ents) ∨
       ((∀ e ∈ l.ents, ¬ SameName cs e.1 s) ∧ n = l.ents.length ∧ l'.ents = l.ents ++ [(s, a)])) := by
  have hinv : (HList.empty : HList α).Inv cs := fun t h => (nomatch h)
  have hl : l.Inv cs := by
    rcases HList.run_spec cs HList.empty hinv os with ⟨_, h2⟩ | ⟨l2, h1, h2, _⟩
    · rw [h2] at h; cases h
    · rw [h1] at h; cases h; exact h2
  rcases l.addObject_spec cs hl s a with ⟨l', n, h1, _, h3, _, e, h5, h6⟩ | ⟨_, h2, _⟩ | ⟨h1, _, l', h3, _, h5, _⟩
  · exact ⟨l', n, h1, Or.inl ⟨e, h5, h6, h3⟩⟩
  · rw [hs] at h2; cases h2
  · exact ⟨l', _, h3, Or.inr ⟨h1, rfl, h5⟩⟩

-- "ab" added, "cd" added, the first one renamed to "Ef": the history is allowed and "eF" is found as entry 0
def exOps : List (TOp Nat) := [.add [97, 98] 1, .add [99, 100] 2, .lookup [97], .rename 0 [69, 102], .add [65, 66] 3]
example : ((Table.mk ([] : List (Str × Nat)) false).run false exOps).map Table.ents =
    some [([69, 102], 1), ([99, 100], 2), ([65, 66], 3)] := by decide
example : ([([69, 102], 1), ([99, 100], 2), ([65, 66], 3)] : List (Str × Nat)).Pairwise
    (fun a b => ¬ SameName false a.1 b.1) := by decide

/-- C15: the condition "pairwise different" is needed. After storing two equal strings (which only reading a damaged file
    does) the second one is found, a linear search finds the first one. -/
theorem C15_duplicates : ∃ l l' : HList Nat,
    HList.empty.run false true [.store [97] 1, .store [65] 2] = .ok l ∧ l.indexOf false [97] = .ok (l', some 1) ∧
    (l.ents.findIdx? fun e => decide (SameName false e.1 [97])) = some 0 :=
  ⟨⟨[([97], 1), ([65], 2)], none, false⟩, _, rfl, rfl, by decide⟩

/-- C15: the condition "1-based" is needed for renaming: in a 0-based table RenameEntry changes the entry behind. -/
theorem C15_rename_zero_based : ∃ l l' : HList Nat,
    HList.empty.run false false [.store [97] 1, .store [98] 2] = .ok l ∧ l.rename false false 0 [99] = .ok l' ∧
    l'.ents = [([97], 1), ([99], 2)] :=
  ⟨⟨[([97], 1), ([98], 2)], none, false⟩, _, rfl, rfl, rfl⟩

#print axioms C15_lookup
#print axioms C15_add
#print axioms C15_duplicates
#print axioms C15_rename_zero_based

end Gdx.Props
