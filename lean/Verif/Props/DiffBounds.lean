import Verif.Props.DiffSelf

/-!
C59: gdxdiff stays inside its tables, arrays and lists.
-/

namespace Gdx.Props
open Gdx Gdx.Diff Gdx.Spec

/-! ### what the program does with the two objects it reads -/

theorem next_seen {o : Opt} {z : Cz} {a : Gx} {c c' : Cmp} {k : List Int} {r : Option (RecOut Int)} (h : next1 o c k = .ok (c', r))
    (hs : Seen o z a (some k) c.o.g1) : Seen o z a (r.map RecOut.key) c'.o.g1 ∧ c'.o.g2 = c.o.g2 := by
  unfold next1 at h
  obtain ⟨⟨g, r'⟩, h1, h⟩ := Res.bind_eq_ok.mp h
  cases h
  exact ⟨.read hs h1, rfl⟩

theorem next_seen' {o : Opt} {z : Cz} {a : Gx} {c c' : Cmp} {k : List Int} {r : Option (RecOut Int)} (h : next2 o c k = .ok (c', r))
    (hs : Seen o z a (some k) c.o.g2) : Seen o z a (r.map RecOut.key) c'.o.g2 ∧ c'.o.g1 = c.o.g1 := by
  unfold next2 at h
  obtain ⟨⟨g, r'⟩, h1, h⟩ := Res.bind_eq_ok.mp h
  cases h
  exact ⟨.read hs h1, rfl⟩

theorem loop_seen {o : Opt} {z : Cz} {a b : Gx} {s : Sy} : ∀ {n : Nat} {c c' : Cmp} {r1 r2 : Option (RecOut Int)},
    Seen o z a (r1.map RecOut.key) c.o.g1 → Seen o z b (r2.map RecOut.key) c.o.g2 → cmpLoop o s n c r1 r2 = .ok c' →
      Seen o z a none c'.o.g1 ∧ Seen o z b none c'.o.g2
  | 0, _, _, _, _, _, _, h => by cases h
  | n + 1, c, c', none, none, h1, h2, h => by
    cases h
    exact ⟨h1, h2⟩
  | n + 1, c, c', some p, none, h1, h2, h => by
    unfold cmpLoop at h
    obtain ⟨c1, k1, h⟩ := Res.bind_eq_ok.mp h
    obtain ⟨⟨c2, r⟩, k2, h⟩ := Res.bind_eq_ok.mp h
    obtain ⟨_, _, k, _⟩ := showInsert_spec k1
    obtain ⟨j1, j2⟩ := next_seen k2 (by rw [k.g1]; exact h1)
    exact loop_seen j1 (by rw [j2, k.g2]; exact h2) h
  | n + 1, c, c', none, some p, h1, h2, h => by
    unfold cmpLoop at h
    obtain ⟨c1, k1, h⟩ := Res.bind_eq_ok.mp h
    obtain ⟨⟨c2, r⟩, k2, h⟩ := Res.bind_eq_ok.mp h
    obtain ⟨_, _, k, _⟩ := showInsert_spec k1
    obtain ⟨j1, j2⟩ := next_seen' k2 (by rw [k.g2]; exact h2)
    exact loop_seen (by rw [j2, k.g1]; exact h1) j1 h
  | n + 1, c, c', some p, some q, h1, h2, h => by
    unfold cmpLoop at h
    obtain ⟨d, _, h⟩ := Res.bind_eq_ok.mp h
    split at h
    · obtain ⟨c1, k1, h⟩ := Res.bind_eq_ok.mp h
      obtain ⟨⟨c2, r⟩, k2, h⟩ := Res.bind_eq_ok.mp h
      obtain ⟨⟨c3, r'⟩, k3, h⟩ := Res.bind_eq_ok.mp h
      obtain ⟨_, _, k, _⟩ := bothRecs_spec k1
      obtain ⟨j1, j2⟩ := next_seen k2 (by rw [k.g1]; exact h1)
      obtain ⟨i1, i2⟩ := next_seen' k3 (by rw [j2, k.g2]; exact h2)
      exact loop_seen (by rw [i2]; exact j1) i1 h
    · split at h
      · obtain ⟨c1, k1, h⟩ := Res.bind_eq_ok.mp h
        obtain ⟨⟨c2, r⟩, k2, h⟩ := Res.bind_eq_ok.mp h
        obtain ⟨_, _, k, _⟩ := showInsert_spec k1
        obtain ⟨j1, j2⟩ := next_seen k2 (by rw [k.g1]; exact h1)
        exact loop_seen j1 (by rw [j2, k.g2]; exact h2) h
      · obtain ⟨c1, k1, h⟩ := Res.bind_eq_ok.mp h
        obtain ⟨⟨c2, r⟩, k2, h⟩ := Res.bind_eq_ok.mp h
        obtain ⟨_, _, k, _⟩ := showInsert_spec k1
        obtain ⟨j1, j2⟩ := next_seen' k2 (by rw [k.g2]; exact h2)
        exact loop_seen (by rw [j2, k.g1]; exact h1) j1 h

theorem start_seen {o : Opt} {z : Cz} {g0 g g' : Gx} {n : Int} {d : Nat} {r : Option (RecOut Int)} (hs : Seen o z g0 none g)
    (hn : (g0.symAt n).isSome = true) (hd : d = (symbolInfo g0 n).dim.toNat) (h : startRead o z g n d = .ok (g', r)) :
    Seen o z g0 (r.map RecOut.key) g' := by
  have h' : (do
      let (g, (ok, _)) ← begins o z g n
      if ok then readRec o g (List.replicate d 0) else pure (g, none)) = .ok (g', r) := by
    unfold begins
    unfold startRead at h
    dsimp only at h
    split at h
    · rename_i hm
      rw [if_pos hm]
      exact h
    · rename_i hm
      rw [if_neg hm]
      exact h
  obtain ⟨⟨g2, bb, k⟩, j1, h'⟩ := Res.bind_eq_ok.mp h'
  have hs2 := Seen.start hs hn j1
  rw [hd] at h'
  dsimp only at h'
  split at h'
  · rename_i hbb
    rw [if_pos hbb] at hs2
    exact .read hs2 h'
  · rename_i hbb
    rw [if_neg hbb] at hs2
    cases h'
    exact hs2

/-- the names, types and dimensions in two objects that agree on what reading does not change -/
theorem info_fixed {g g' : Gx} (h : g'.fixed = g.fixed) (n : Int) : symbolInfo g' n = symbolInfo g n := by
  unfold symbolInfo Gx.symAt
  rw [show g'.names = g.names from congrArg Fixed.names h]

theorem infoX_fixed {g g' : Gx} (h : g'.fixed = g.fixed) (n : Int) : (symbolInfoX g' n).userInfo = (symbolInfoX g n).userInfo := by
  have h1 : g'.names = g.names := congrArg Fixed.names h
  unfold symbolInfoX Gx.symAt
  rw [h1]
  split <;> rfl

theorem find_fixed {g g' : Gx} (h : g'.fixed = g.fixed) (s : Str) : findSymbol g' s = findSymbol g s := by
  unfold findSymbol
  rw [show g'.names = g.names from congrArg Fixed.names h]

theorem doms_seen {o : Opt} {z : Cz} {a b : Gx} {x x' : Objs} {n m : Int} {d : Nat} {r : Bool} (h1 : Seen o z a none x.g1) (h2 : Seen o z b none x.g2)
    (h : domsDiffer o x n m d = .ok (x', r)) : Seen o z a none x'.g1 ∧ Seen o z b none x'.g2 := by
  unfold domsDiffer at h
  split at h
  · obtain ⟨⟨g1, k1, d1⟩, j1, h⟩ := Res.bind_eq_ok.mp h
    obtain ⟨⟨g2, k2, d2⟩, j2, h⟩ := Res.bind_eq_ok.mp h
    cases h
    exact ⟨.dom h1 j1, .dom h2 j2⟩
  · cases h
    exact ⟨h1, h2⟩

theorem compare_seen {o : Opt} {z : Cz} {a b : Gx} (ha : a.nextAuto ≤ 0) (ha0 : a.nrMapped = 0) (hb : b.nextAuto ≤ 0) (hb0 : b.nrMapped = 0)
    {fuel : Nat} {x x' : Objs} {n m : Int} {r : Option (Str × Status)} (h1 : Seen o z a none x.g1) (h2 : Seen o z b none x.g2)
    (hn : (a.symAt n).isSome = true) (hm : (b.symAt m).isSome = true) (h : compareSy o z fuel x n m = .ok (x', r)) :
    Seen o z a none x'.g1 ∧ Seen o z b none x'.g2 := by
  unfold compareSy at h
  dsimp only at h
  rw [info_fixed (h1.fixed ha ha0).1, info_fixed (h2.fixed hb hb0).1] at h
  split at h
  · cases h
    exact ⟨h1, h2⟩
  split at h
  · cases h
    exact ⟨h1, h2⟩
  rename_i _ hd
  obtain ⟨⟨x1, df⟩, k1, h⟩ := Res.bind_eq_ok.mp h
  obtain ⟨i1, i2⟩ := doms_seen h1 h2 k1
  dsimp only at h
  split at h
  · cases h
    exact ⟨i1, i2⟩
  obtain ⟨defs, k2, h⟩ := Res.bind_eq_ok.mp h
  obtain ⟨⟨g1, r1⟩, k3, h⟩ := Res.bind_eq_ok.mp h
  obtain ⟨⟨g2, r2⟩, k4, h⟩ := Res.bind_eq_ok.mp h
  obtain ⟨c1, k5, h⟩ := Res.bind_eq_ok.mp h
  obtain ⟨c2, k6, h⟩ := Res.bind_eq_ok.mp h
  cases h
  obtain ⟨j1, j2⟩ := loop_seen (start_seen i1 hn rfl k3) (start_seen i2 hm (by rw [not_not.mp hd]) k4) k5
  have k := symbClose_keeps k6
  rw [k.1, k.2.1]
  exact ⟨j1, j2⟩

theorem find_some {g : Gx} {s : Str} (hs : s ≠ star) (h : (findSymbol g s).1 = true) : (g.symAt (findSymbol g s).2).isSome = true := by
  unfold findSymbol at h ⊢
  unfold Gx.symAt
  cases hl : g.names with
  | none => rw [hl] at h; simp [if_neg hs] at h
  | some l =>
    rw [hl] at h
    simp only [if_neg hs, decide_eq_true_eq] at h ⊢
    unfold symIndex indexOf1 at h ⊢
    cases hk : lookup false s (l.map Sym.name) with
    | none => rw [hk] at h; simp at h
    | some i =>
      have hi := lookup_lt hk
      rw [List.length_map] at hi
      simp only
      rw [if_pos (by omega), show ((i : Int) + 1 - 1).toNat = i by omega, List.getElem?_eq_getElem hi]
      rfl

/-- the main loop comes to an end only if every comparison of two symbols does -/
theorem all_seen {o : Opt} {z : Cz} {a b : Gx} (ha : a.nextAuto ≤ 0) (ha0 : a.nrMapped = 0) (hb : b.nextAuto ≤ 0) (hb0 : b.nrMapped = 0) {fuel : Nat} :
    ∀ {l : List (Str × Int)} {x x' : Objs} {t t' : List (Str × Status)}, (∀ p ∈ l, p ∈ idTable o a ∧ p.1 ≠ star) → Seen o z a none x.g1 →
      Seen o z b none x.g2 → compareAll o z fuel l x t = .ok (x', t') →
      (Seen o z a none x'.g1 ∧ Seen o z b none x'.g2) ∧
      ∀ p ∈ l, (findSymbol b p.1).1 = true → ∃ y y' r, Seen o z a none y.g1 ∧ Seen o z b none y.g2 ∧
        compareSy o z fuel y p.2 (findSymbol b p.1).2 = .ok (y', r)
  | [], x, x', t, t', _, h1, h2, h => by
    cases h
    exact ⟨⟨h1, h2⟩, fun p hp => absurd hp (by simp)⟩
  | (id, n) :: l, x, x', t, t', hl, h1, h2, h => by
    unfold compareAll at h
    obtain ⟨hl1, hl2⟩ := hl _ (List.mem_cons_self ..)
    have hl' : ∀ p ∈ l, p ∈ idTable o a ∧ p.1 ≠ star := fun p hp => hl p (List.mem_cons_of_mem _ hp)
    rw [find_fixed (h2.fixed hb hb0).1] at h
    split at h
    · rename_i hf
      obtain ⟨⟨x1, r⟩, k1, h⟩ := Res.bind_eq_ok.mp h
      obtain ⟨j1, j2⟩ := compare_seen ha ha0 hb hb0 h1 h2 (symAt_table hl1) (find_some hl2 hf) k1
      obtain ⟨i1, i2⟩ := all_seen ha ha0 hb hb0 hl' j1 j2 h
      refine ⟨i1, fun p hp hp' => ?_⟩
      rcases List.mem_cons.mp hp with rfl | hp
      · exact ⟨x, x1, r, h1, h2, k1⟩
      · exact i2 p hp hp'
    · rename_i hf
      obtain ⟨i1, i2⟩ := all_seen ha ha0 hb hb0 hl' h1 h2 h
      refine ⟨i1, fun p hp hp' => ?_⟩
      rcases List.mem_cons.mp hp with rfl | hp
      · exact absurd hp' hf
      · exact i2 p hp hp'

/-- C59 is violated (gdxdiff.cpp:573-580): the table of default records of equations has rows 0 to 6, but the row is taken from UserInfo,
    which is the type of the equation, 53 to 59 (53 + type, gclgms.h:53-62). If two files contain an equation of the same name and dimension, and the UserInfo
    of the first is not in 0 to 6, the program reads outside of the table; this holds for all files. -/
theorem C59_equation {o : Opt} {e : Env} {z : Cz} {fuel : Nat} {f f' : List UInt8} {g g' : Gx} {us us' : List Str} {p : Str × Int}
    (hd : o.compDom = false) (hw : ∃ gd b, openWriteEx e Gx.new false 0 producer 0 = .ok (gd, (b, 0)))
    (h1 : openGDX z f (startUels o) = .ok (some (g, us))) (h2 : openGDX z f' us = .ok (some (g', us'))) (hstar : ∀ q ∈ idTable o g, q.1 ≠ star)
    (hp : p ∈ idTable o g) (hf : (findSymbol g' p.1).1 = true)
    (ht : (symbolInfo g p.2).typ = dtEqu) (ht' : (symbolInfo g' (findSymbol g' p.1).2).typ = dtEqu)
    (hdim : (symbolInfo g p.2).dim = (symbolInfo g' (findSymbol g' p.1).2).dim)
    (hu : (symbolInfoX g p.2).userInfo < 0 ∨ 6 < (symbolInfoX g p.2).userInfo) : statusTable o e z fuel f f' = .ub := by
  cases h : statusTable o e z fuel f f' with
  | ub => rfl
  | ok r =>
    exfalso
    obtain ⟨gd, b, hw⟩ := hw
    unfold statusTable prepare at h
    simp only [hw, h1, h2, Res.bind_ok, Res.pure_eq, ne_eq, not_true, if_false] at h
    obtain ⟨⟨x1, t1⟩, h3, h⟩ := Res.bind_eq_ok.mp h
    obtain ⟨a1, a2⟩ := openGDX_still h1
    obtain ⟨b1, b2⟩ := openGDX_still h2
    obtain ⟨_, k⟩ := all_seen a1 a2 b1 b2 (fun p hp => ⟨hp, hstar p hp⟩) .init .init h3
    obtain ⟨y, y', r, s1, s2, k⟩ := k p hp hf
    have e1 := (s1.fixed a1 a2).1
    have e2 := (s2.fixed b1 b2).1
    unfold compareSy domsDiffer at k
    simp only [info_fixed e1, info_fixed e2, infoX_fixed e1, ht, ht', hdim, hd] at k
    simp only [ne_eq, not_true, if_false, Bool.false_eq_true, false_and, Res.bind_ok] at k
    obtain ⟨defs, k, _⟩ := Res.bind_eq_ok.mp k
    unfold defRecord symTyp at k
    rw [if_neg (by decide), if_pos (by decide), if_neg (by omega)] at k
    cases k

/-! ### witnesses -/

/-- one equation `e` of type =E= (UserInfo 53) with one record -/
def exEq : List Call :=
  [.openWrite false 0 [65] 0, .uelRawStart, .uelRaw [97], .uelDone, .rawStart [101] [] 1 3 53, .writeRaw [1] [0, 0, 0, 0, 0], .writeDone]

/-- C59 is violated: a file with one equation cannot be compared, not even with itself. -/
theorem C59_equation_file : tableOf {} exEq exEq = .ub := by decide +kernel

/-- one positive variable `x` with 19 dimensions and one record with level `v` -/
def ex19 (v : Dbl) : List Call :=
  [.openWrite false 0 [65] 0, .uelRawStart, .uelRaw [97], .uelDone, .rawStart [120] [] 19 2 3,
   .writeRaw (List.replicate 19 1) [v, 0, 0, 0, 0], .writeDone]

/-- without the option DiffOnly the difference of the two files is found … -/
example : tableOf {} (ex19 dbl03) (ex19 dblSum) = .ok (some [([120], .data)]) := by decide +kernel
/-- … C59 is violated (gdxdiff.cpp:582): with the option two more indices are needed, the key and the field, but the test is
    `Dim - 1 >= 20` where `Dim + 1 >= 20` is meant. The array of strings has 20 entries. -/
theorem C59_diffonly : tableOf { diffOnly := true } (ex19 dbl03) (ex19 dblSum) = .ub := by decide +kernel

/-- a parameter `p` with one record for `a`, and a scalar parameter `q` without record; `b` is another element -/
def exSt (a b : Str) : List Call :=
  [.openWrite false 0 [65] 0, .uelRawStart, .uelRaw a, .uelRaw b, .uelDone, .rawStart [112] [] 1 1 0, .writeRaw [1] [dbl03], .writeDone,
   .rawStart [113] [] 0 1 0, .writeDone]

/-- files with the same elements in the same order … -/
example : tableOf {} (exSt [97] [98]) (exSt [97] [98]) = .ok (some []) := by decide +kernel
/-- … C59 is violated (gxfile.cpp:2807-2810, called at gdxdiff.cpp:587-606): if the orders of the elements are different, the records of `p` in
    file 2 are sorted, and reading the scalar without record, for which there is no list, uses the list of `p`, which is deleted. -/
theorem C59_scalar : tableOf {} (exSt [97] [98]) (exSt [98] [97]) = .ub := by decide +kernel

#print axioms C59_equation
#print axioms C59_equation_file
#print axioms C59_diffonly
#print axioms C59_scalar

end Gdx.Props
