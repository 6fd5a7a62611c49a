import Verif.Props.ClosingSorted

/-!
C88: records can always be given in mapped and in string mode.
-/

namespace Gdx.Props
open Gdx Gdx.Spec

/-- After every history of calls that left the object in mapped mode with a current symbol: gdxDataWriteMap is defined for every key with as many
    numbers as the symbol has dimensions. It accepts the record exactly if all numbers are mapped to elements; then there is one more record, otherwise
    one error is noted and the records are as before. -/
theorem C88_map_partial {e : Env} {z : Cz} (hz : z.Good) {g : Gx} (h : After e z g) (hm : g.mode = .wMap ∨ g.mode = .wDomMap) (hc : g.cur ≠ .none)
    (hu : ∀ u, g.uel = some u → u.ents.length ≤ 2147483391) {key : List Int} {vals : List Dbl} (hk : key.length = g.nd) (hv : vals.length = g.dataSize) :
    ∃ u g' b, g.uel = some u ∧ dataWriteMap g key vals = .ok (g', b) ∧ (b = true ↔ ∀ k ∈ key, u.usr.get k ≠ -1) ∧
      collected g' = collected g + (if b then 1 else 0) ∧ g'.raised = g.raised ++ (if b then [] else [Err.badElementIndex]) := by
  have f := h.fine hz
  have ht : TabFits g := fun u h => by have := hu u h; omega
  rcases h.sorted hz (Or.inl hm) with h0 | h0
  · exact absurd h0.1 hc
  obtain ⟨m, d, its, h1, _⟩ := h0 ht
  obtain ⟨⟨g', b⟩, h2⟩ := h1.mapTotal (key := key) (vals := vals) hm f.usr ht hk hv
  obtain ⟨_, _, h3, u, h4, h5, h6⟩ := h1.map hm f.usr ht h2
  refine ⟨u, g', b, h4, h2, h5, ?_, h3.raised⟩
  obtain ⟨s, s1, _, s3⟩ := h1.sort
  obtain ⟨s', t1, _, t3⟩ := h6.sort
  unfold collected
  rw [s1, t1]
  simp only [Option.map_some, Option.getD_some, s3, t3]
  cases b <;> simp

theorem strKey_refused : ∀ (ps : List StrPos) (ks : List Str) (u u' : Uel) (ps' : List StrPos), strKey u ps ks = .ok (u', ps', false) →
    ∃ k ∈ ks, goodUEL (trimRight k) = false
  | [], _, _, _, _, h => by cases h
  | _ :: _, [], _, _, _, h => by cases h
  | p :: ps, k :: ks, u, u', ps', h => by
    rw [strKey] at h
    obtain ⟨s, h1, h⟩ := Res.bind_eq_ok.mp h
    have hs := trimR_ok h1
    split at h
    · rename_i hp
      refine ⟨k, List.mem_cons_self .., ?_⟩
      rw [← hs]
      unfold strPos at hp
      split at hp
      · cases hp
      · dsimp only at hp
        split at hp
        · split at hp
          · cases hp
          · rename_i hx
            simpa using hx
        · cases hp
    · obtain ⟨⟨u1, ps1, ok1⟩, h2, h⟩ := Res.bind_eq_ok.mp h
      cases h
      obtain ⟨k', h3, h4⟩ := strKey_refused ps ks _ _ _ h2
      exact ⟨k', List.mem_cons_of_mem _ h3, h4⟩

theorem writeStr_counts {g g' : Gx} {key : List Str} {vals : List Dbl} {b : Bool} (hm : StrMode g.mode) (h : dataWriteStr g key vals = .ok (g', b)) :
    collected g' = collected g + (if b then 1 else 0) ∧ g'.raised = g.raised ++ (if b then [] else [Err.badUelStr]) ∧
      (b = false → ∃ k ∈ key, goodUEL (trimRight k) = false) := by
  rw [dataWriteStr_eq hm] at h
  unfold dataWriteStr at h
  rw [if_neg (by show ¬ (Mode.wStr = Mode.wDomStr); decide)] at h
  rcases chk_cases ({ g with mode := .wStr } : Gx) [.wStr] with ⟨_, hc⟩ | ⟨hc, _⟩
  swap
  · exact absurd (List.mem_singleton.mpr rfl) hc
  simp only [hc, Bool.true_eq_false, if_false] at h
  split at h
  · cases h
  obtain ⟨u, h1, h⟩ := Res.bind_eq_ok.mp h
  obtain ⟨⟨u', ps, ok⟩, h2, h⟩ := Res.bind_eq_ok.mp h
  dsimp only at h
  cases ok with
  | false =>
    simp only [if_true] at h
    cases h
    exact ⟨rfl, rfl, fun _ => strKey_refused _ _ _ _ _ h2⟩
  | true =>
    simp only [Bool.true_eq_false, if_false] at h
    obtain ⟨g3, h3, h⟩ := Res.bind_eq_ok.mp h
    cases h
    obtain ⟨_, _, _, s, s', e1, e2, rfl⟩ := sortAdd_ok h3
    refine ⟨?_, by simp, fun hx => nomatch hx⟩
    have e1 : g.sort = some s := e1
    unfold LData.add at e2
    split at e2
    · cases e2
    cases e2
    unfold collected
    rw [e1]
    simp

/-- The same in string mode: gdxDataWriteStr is defined for all strings that can be trimmed, also if elements were renamed (`C02_rename`). If it accepts
    the record, there is one more record; otherwise one error is noted, the records are as before, and one of the strings without its trailing blanks is
    no legal element. -/
theorem C88_str_partial {e : Env} {z : Cz} (hz : z.Good) {g : Gx} (h : After e z g) (hm : g.mode = .wStr ∨ g.mode = .wDomStr) (hc : g.cur ≠ .none)
    {key : List Str} {vals : List Dbl} (hu : ∀ u, g.uel = some u → u.ents.length + key.length ≤ 2147483391) (hk : key.length = g.nd)
    (ht : ∀ k ∈ key, ∃ t, trimR k = .ok t) (hv : vals.length = g.dataSize) :
    ∃ g' b, dataWriteStr g key vals = .ok (g', b) ∧ collected g' = collected g + (if b then 1 else 0) ∧
      g'.raised = g.raised ++ (if b then [] else [Err.badUelStr]) ∧ (b = false → ∃ k ∈ key, goodUEL (trimRight k) = false) := by
  rcases h.sorted hz (Or.inr hm) with h0 | h0
  · exact absurd h0.1 hc
  obtain ⟨m, d, its, h1, h2⟩ := h0 fun u h => by have := hu u h; omega
  obtain ⟨⟨g', b⟩, h3⟩ := h1.strInTotal (key := key) (vals := vals) (h2 hm) hm (fun u h => by exact_mod_cast hu u h) hk ht hv
  exact ⟨g', b, h3, writeStr_counts hm h3⟩

theorem need_sort {g g' : Gx} {key : List Int} {vals : List Dbl} (hs : g.sort = none) : sortAdd g key vals ≠ .ok g' := by
  intro h
  obtain ⟨_, _, _, s, _, h1, _⟩ := sortAdd_ok h
  rw [hs] at h1
  cases h1

/-- After a Start function that was refused no record is accepted any more: gdxDataWriteMap and gdxDataWriteStr return false or are undefined. -/
theorem C88_refused {e : Env} {z : Cz} (hz : z.Good) {g : Gx} (h : After e z g)
    (hm : g.mode = .wMap ∨ g.mode = .wDomMap ∨ g.mode = .wStr ∨ g.mode = .wDomStr) (hc : g.cur = .none)
    (hu : ∀ u, g.uel = some u → u.ents.length ≤ 2147483391) :
    (∀ key vals g', dataWriteMap g key vals ≠ .ok (g', true)) ∧ ∀ key vals g', dataWriteStr g key vals ≠ .ok (g', true) := by
  have hs : SortMode g.mode := by
    rw [sortMode_fam]
    rcases hm with h | h | h | h <;> rw [h] <;> decide
  have hn : g.sort = none := by
    rcases h.sorted hz hs with h0 | h0
    · exact h0.2
    · obtain ⟨m, d, its, h1, _⟩ := h0 fun u h => by have := hu u h; omega
      rw [h1.beg.cur] at hc
      cases hc
  constructor
  · intro key vals g' h1
    unfold dataWriteMap at h1
    generalize hg : (if g.mode = .wDomMap then ({ g with mode := .wMap } : Gx) else g) = g1 at h1
    have hn1 : g1.sort = none := by
      subst hg
      split <;> exact hn
    dsimp only at h1
    rcases chk_cases g1 [.wMap] with ⟨_, hk⟩ | ⟨_, hk⟩
    · rw [hk] at h1
      simp only [Bool.true_eq_false, if_false] at h1
      split at h1
      · cases h1
      obtain ⟨u, _, h1⟩ := Res.bind_eq_ok.mp h1
      split at h1
      · cases h1
      · obtain ⟨g3, h3, _⟩ := Res.bind_eq_ok.mp h1
        refine need_sort ?_ h3
        exact hn1
    · rw [hk] at h1
      cases h1
  · intro key vals g' h1
    unfold dataWriteStr at h1
    generalize hg : (if g.mode = .wDomStr then ({ g with mode := .wStr } : Gx) else g) = g1 at h1
    have hn1 : g1.sort = none := by
      subst hg
      split <;> exact hn
    dsimp only at h1
    rcases chk_cases g1 [.wStr] with ⟨_, hk⟩ | ⟨_, hk⟩
    · rw [hk] at h1
      simp only [Bool.true_eq_false, if_false] at h1
      split at h1
      · cases h1
      obtain ⟨u, _, h1⟩ := Res.bind_eq_ok.mp h1
      obtain ⟨⟨u', ps, ok⟩, _, h1⟩ := Res.bind_eq_ok.mp h1
      dsimp only at h1
      split at h1
      · cases h1
      · obtain ⟨g3, h3, _⟩ := Res.bind_eq_ok.mp h1
        refine need_sort ?_ h3
        exact hn1
    · rw [hk] at h1
      cases h1

def given88 (cs : List Call) (f : Gx → Res (Gx × Bool)) : Option (Bool × Nat) :=
  match run ⟨[]⟩ Cz.id Gx.new cs >>= f with
  | .ok (g, b) => some (b, collected g)
  | .ub => none

/-- The property is violated: a Start function that is refused while records are collected makes the next record undefined. -/
theorem C88_start :
    given88 [.openWrite false 0 [65] 0, .mapStart [112] [] 0 1 0, .writeMap [] [Dbl.zero]] (fun g => dataWriteMap g [] [Dbl.zero]) = some (true, 2) ∧
    given88 [.openWrite false 0 [65] 0, .mapStart [112] [] 0 1 0, .writeMap [] [Dbl.zero], .mapStart [113] [] 1 1 0]
      (fun g => dataWriteMap g [] [Dbl.zero]) = none ∧
    given88 [.openWrite false 0 [65] 0, .strStart [112] [] 1 1 0, .writeStr [[97]] [Dbl.zero], .rawStart [113] [] 1 1 0]
      (fun g => dataWriteStr g [[97]] [Dbl.zero]) = none := by
  refine ⟨?_, ?_, ?_⟩ <;> decide +kernel

/-- a number that is mapped and one that is not; a string after its element was renamed; a string that is no legal element -/
example :
    given88 [.openWrite false 0 [65] 0, .uelMapStart, .uelMap 7 [97], .uelDone, .mapStart [112] [] 1 1 0, .writeMap [7] [Dbl.zero]]
      (fun g => dataWriteMap g [7] [Dbl.zero]) = some (true, 2) ∧
    given88 [.openWrite false 0 [65] 0, .uelMapStart, .uelMap 7 [97], .uelDone, .mapStart [112] [] 1 1 0, .writeMap [7] [Dbl.zero]]
      (fun g => dataWriteMap g [8] [Dbl.zero]) = some (false, 1) ∧
    given88 [.openWrite false 0 [65] 0, .strStart [112] [] 1 1 0, .writeStr [[98]] [Dbl.zero], .renameUEL [98] [99]]
      (fun g => dataWriteStr g [[98]] [Dbl.zero]) = some (true, 2) ∧
    given88 [.openWrite false 0 [65] 0, .strStart [112] [] 1 1 0, .writeStr [[98]] [Dbl.zero]]
      (fun g => dataWriteStr g [List.replicate 64 97] [Dbl.zero]) = some (false, 1) := by
  refine ⟨?_, ?_, ?_, ?_⟩ <;> decide +kernel

#print axioms C88_map_partial
#print axioms C88_str_partial
#print axioms C88_refused
#print axioms C88_start

end Gdx.Props
