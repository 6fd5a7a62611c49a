import Verif.Proofs.DiffSyms
import Verif.Props.DiffFiles

/-!
`gdxdiff`: the difference file after all symbols.
-/

namespace Gdx.Diff
open Gdx Gdx.Spec Gdx.Props
open Gdx.Merge (Out namesOf textsOf GoodLabel HasText)

/-- what the comparison of a symbol gives: the symbol that is written and the entry in the table -/
abbrev Gives := Option (Sy × List Ev) × Option (Str × Status)

theorem all_diff {o : Opt} {e : Env} {z : Cz} (hz : z.Good) {a b : Gx} (ha : a.nextAuto ≤ 0) (ha0 : a.nrMapped = 0) (hb : b.nextAuto ≤ 0) (hb0 : b.nrMapped = 0) {fuel : Nat} {U : List Str}
    {S : Int → Int → Gives → Prop} (hS : ∀ p ∈ idTable o a, (findSymbol b p.1).1 = true → ∀ x N L T, Seen o z a none x.g1 → Seen o z b none x.g2 → Ground e z U N L T x →
      (∀ t ∈ N, ¬ SameNoCase t p.1) → ∃ x' c, compareSy o z fuel x p.2 (findSymbol b p.1).2 = .ok (x', c.2) ∧ S p.2 (findSymbol b p.1).2 c ∧ Leaves o e z U a b N L T x x' c.1 ∧
        ∀ q ∈ c.1, SameNoCase q.1.id p.1) :
    ∀ {l : List (Str × Int)} {x : Objs} {t : List (Str × Status)} {N L T : List Str}, (∀ p ∈ l, p ∈ idTable o a ∧ p.1 ≠ star) → (l.Pairwise fun p q => ¬ SameNoCase p.1 q.1) →
      (∀ s ∈ N, ∀ p ∈ l, ¬ SameNoCase s p.1) → Seen o z a none x.g1 → Seen o z b none x.g2 → Ground e z U N L T x →
      ∃ x' cs L' T', compareAll o z fuel l x t = .ok (x', (cs.map Prod.snd).foldl note t) ∧ Seen o z a none x'.g1 ∧ Seen o z b none x'.g2 ∧
        List.Forall₂ (fun (p : Str × Int) (c : Gives) => if (findSymbol b p.1).1 = true then S p.2 (findSymbol b p.1).2 c else c = (none, some (p.1, .notf2))) l cs ∧
        Ground e z U (N ++ (cs.filterMap Prod.fst).map fun q => q.1.id) L' T' x' ∧ StaysIn e z x.gd x'.gd ∧ L <+: L' ∧ T <+: T' ∧
        ∀ (i : Nat) q, (cs.filterMap Prod.fst)[i]? = some q → IsDiff o e z U a b L' T' x'.gd (N.length + i) q
  | [], x, t, N, L, T, _, _, _, h1, h2, hg => ⟨x, [], L, T, rfl, h1, h2, .nil, by simpa using hg, .refl _, List.prefix_refl _, List.prefix_refl _, by simp⟩
  | (id, n) :: l, x, t, N, L, T, hl, hp, hN, h1, h2, hg => by
    obtain ⟨hl1, hl2⟩ := hl _ (List.mem_cons_self ..)
    have hl' : ∀ p ∈ l, p ∈ idTable o a ∧ p.1 ≠ star := fun p hp => hl p (List.mem_cons_of_mem _ hp)
    rw [List.pairwise_cons] at hp
    unfold compareAll
    rw [find_fixed (h2.fixed hb hb0).1]
    by_cases hf : (findSymbol b id).1 = true
    · rw [if_pos hf]
      obtain ⟨x1, c, k1, k2, k3, k4⟩ := hS _ hl1 hf x N L T h1 h2 hg fun s hs => hN s hs _ (List.mem_cons_self ..)
      obtain ⟨j1, j2⟩ := compare_seen ha ha0 hb hb0 h1 h2 (symAt_table hl1) (find_some hl2 hf) k1
      obtain ⟨L1, T1, g1, g2, g3, g4⟩ := k3.next
      obtain ⟨x', cs, L', T', i1, i2, i3, i4, i5, i6, i7, i8, i9⟩ := all_diff hz ha ha0 hb hb0 hS (l := l) (t := note t c.2) hl' hp.2 (by
        intro s hs p hpl hc
        rcases List.mem_append.mp hs with hs | hs
        · exact hN s hs p (List.mem_cons_of_mem _ hpl) hc
        · obtain ⟨q, q1, q2⟩ := Option.map_eq_some_iff.mp (Option.mem_toList.mp hs)
          have := k4 q q1
          rw [q2] at this
          exact hp.1 p hpl (sameName_tr (cs := false) (sameName_comm (cs := false) this) hc)) j1 j2 g1
      refine ⟨x', c :: cs, L', T', ?_, i2, i3, .cons (by rw [if_pos hf]; exact k2) i4, ?_, k3.stays.trans i6, g2.trans i7, g3.trans i8, ?_⟩
      · show (compareSy o z fuel x n (findSymbol b id).2).bind _ = _
        have k1' : compareSy o z fuel x n (findSymbol b id).2 = .ok (x1, c.2) := k1
        rw [k1']
        exact i1
      · obtain ⟨q, r⟩ := c
        cases q with
        | none => simpa using i5
        | some q => simpa using i5
      · obtain ⟨q, r⟩ := c
        cases q with
        | none =>
          intro i y hy
          have := i9 i y (by simpa using hy)
          simpa using this
        | some q =>
          intro i y hy
          cases i with
          | zero =>
            simp only [List.filterMap_cons, List.getElem?_cons_zero, Option.some.injEq] at hy
            subst hy
            exact (g4 q rfl).more hz i7 i8 i6 g1.out.aft i5.out.names
          | succ i =>
            have := i9 i y (by simpa using hy)
            rw [List.length_append] at this
            rw [show N.length + (i + 1) = N.length + ((Option.map (fun p : Sy × List Ev => p.1.id) (some q)).toList).length + i by simp; omega]
            exact this
    · rw [if_neg hf]
      obtain ⟨x', cs, L', T', i1, i2, i3, i4, i5, i6, i7, i8, i9⟩ := all_diff hz ha ha0 hb hb0 hS (l := l) (t := insMap id .notf2 t) hl' hp.2
        (fun s hs p hp => hN s hs p (List.mem_cons_of_mem _ hp)) h1 h2 hg
      exact ⟨x', (none, some (id, .notf2)) :: cs, L', T', i1, i2, i3, .cons (by rw [if_neg hf]) i4, i5, i6, i7, i8, i9⟩

end Gdx.Diff
