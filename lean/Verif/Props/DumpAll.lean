import Verif.Model.DumpAll
import Verif.Proofs.GamsProg
import Verif.Props.DumpGams

/-!
C80: what gdxdump writes for a whole file is a GAMS program with a statement for every symbol.
-/

namespace Gdx.Props
open Gdx Gdx.Dump Gdx.DblStr Gdx.Diff Gdx.Gams

/-! ## what must be read -/

/-- the statement for a symbol with these records: the declaration as in C70, or the alias with the name of the other symbol; the universe is `*` -/
def StmtOf (o : GOpt) (a : Gx) (s : Sym) (outs : List (RecOut Int)) : Stmt → Prop
  | .decl D => s.typ ≤ 3 ∧ ∃ ess, List.Forall₂ (EntriesOf o a s.typ s.dim s.userInfo) outs ess ∧ D.kind = kindOf s.typ s.dim s.userInfo ∧ D.name = s.name ∧
      List.Forall₂ (DomNamed a) (s.domSyms.getD (List.replicate s.dim.toNat 0)) D.doms ∧ (∃ i j, s.expl = List.replicate i 32 ++ D.text ++ List.replicate j 32) ∧
      D.data = ess.flatten
  | .alias x y => s.typ = dtAlias ∧ x = s.name ∧ (s.userInfo = 0 ∧ y = [42] ∨ s.userInfo ≠ 0 ∧ ∃ q, a.symAt s.userInfo = some q ∧ y = q.name)
  | .acronym _ => False

/-! ## pieces of the program -/

/-- a text is read as a statement, whatever follows it -/
def Reads (t : Str) (st : Stmt) : Prop :=
  t ≠ [] ∧ ∀ (f : Nat) (x : Str), stmts (f + 1) true true (uncomment true false (t ++ x)) = (stmts f true true (uncomment true false x)).map (st :: ·)

theorem stmts_newline (f : Nat) (b e : Bool) (s : Str) : stmts f b e (10 :: s) = stmts f true e s := by
  cases f with
  | zero => rfl
  | succ f =>
    unfold stmts
    rfl

theorem kindOf_head {typ : Nat} (dim user : Int) : (kindOf typ dim user).head? ≠ some wAlias ∧ (kindOf typ dim user).head? ≠ some wAcronym := by
  unfold kindOf
  split
  · split <;> decide
  · split <;> decide
  · split
    · decide
    · unfold varWord
      split <;> decide
  · split <;> decide

theorem reads_decl {t t0 : Str} (ht : t = t0 ++ [10]) {D : Decl} (h : decl (uncomment true false t) = some (D, [10])) (h1 : D.kind.head? ≠ some wAlias) (h2 : D.kind.head? ≠ some wAcronym) :
    Reads t (.decl D) := by
  subst ht
  refine ⟨by simp, fun f x => ?_⟩
  rw [List.append_assoc, List.singleton_append, unc_append, stmts_decl h h1 h2]
  show (stmts f false true (10 :: uncomment true false x)).map _ = _
  rw [stmts_newline]

theorem aliasOf_eq {v w x : Str} (hv : isGoodIdent v = true) (hw : IsDom w) : aliasOf ([32, 40] ++ v ++ [44, 32] ++ w ++ [41, 59, 10] ++ x) = some ((v, w), 10 :: x) := by
  have e : [32, 40] ++ v ++ [44, 32] ++ w ++ [41, 59, 10] ++ x = 32 :: 40 :: (v ++ 44 :: 32 :: (w ++ 41 :: 59 :: 10 :: x)) := by simp
  rw [e]
  have hd1 : domain (skip (v ++ 44 :: 32 :: (w ++ 41 :: 59 :: 10 :: x))) = some (v, 44 :: 32 :: (w ++ 41 :: 59 :: 10 :: x)) :=
    IsDom.read (Or.inr hv) (by intro c hc; cases hc; decide)
  have hd2 : domain (skip (w ++ 41 :: 59 :: 10 :: x)) = some (w, 41 :: 59 :: 10 :: x) := IsDom.read hw (by intro c hc; cases hc; decide)
  have hd3 : domain (skip (32 :: (w ++ 41 :: 59 :: 10 :: x))) = some (w, 41 :: 59 :: 10 :: x) := hd2
  show ((domain (skip (v ++ 44 :: 32 :: (w ++ 41 :: 59 :: 10 :: x)))).bind _) = _
  rw [hd1]
  show ((domain (skip (32 :: (w ++ 41 :: 59 :: 10 :: x)))).bind _) = _
  rw [hd3]
  rfl

theorem dom_line {w : Str} (hw : IsDom w) : (10 : UInt8) ∉ w := by
  rcases hw with rfl | hw
  · decide
  · intro hc
    have := (ident_chars hw).2 _ hc
    revert this
    decide

theorem reads_alias {v w : Str} (hv : isGoodIdent v = true) (hw : IsDom w) : Reads ([10, 65, 108, 105, 97, 115, 32, 40] ++ v ++ [44, 32] ++ w ++ [41, 59, 10]) (.alias v w) := by
  refine ⟨by simp, fun f x => ?_⟩
  have e : [10, 65, 108, 105, 97, 115, 32, 40] ++ v ++ [44, 32] ++ w ++ [41, 59, 10] ++ x =
      10 :: (([65, 108, 105, 97, 115, 32, 40] ++ v ++ [44, 32] ++ w ++ [41, 59]) ++ 10 :: x) := by simp
  rw [e, unc_cons, if_neg (by decide), stmts_newline]
  rw [show ((10 : UInt8) == 10) = true from rfl, unc_line (by
    intro hc
    simp only [List.mem_append] at hc
    rcases hc with (((hc | hc) | hc) | hc) | hc
    · revert hc; decide
    · exact dom_line (Or.inr hv) hc
    · revert hc; decide
    · exact dom_line hw hc
    · revert hc; decide) true (by intro _; simp)]
  generalize uncomment true false x = y
  have e2 : [65, 108, 105, 97, 115, 32, 40] ++ v ++ [44, 32] ++ w ++ [41, 59] ++ 10 :: y = 65 :: ([108, 105, 97, 115] ++ ([32, 40] ++ v ++ [44, 32] ++ w ++ [41, 59, 10] ++ y)) := by simp
  rw [e2]
  have hn : name (65 :: ([108, 105, 97, 115] ++ ([32, 40] ++ v ++ [44, 32] ++ w ++ [41, 59, 10] ++ y))) = some (wAlias, [32, 40] ++ v ++ [44, 32] ++ w ++ [41, 59, 10] ++ y) := rfl
  conv => lhs; unfold stmts
  rw [show skipL true (65 :: ([108, 105, 97, 115] ++ ([32, 40] ++ v ++ [44, 32] ++ w ++ [41, 59, 10] ++ y))) =
    (true, 65 :: ([108, 105, 97, 115] ++ ([32, 40] ++ v ++ [44, 32] ++ w ++ [41, 59, 10] ++ y))) from rfl]
  dsimp only
  rw [if_neg (by decide), hn]
  simp only [Option.bind_eq_bind, Option.bind_some]
  rw [if_pos trivial, aliasOf_eq hv hw]
  simp only [Option.bind_some]
  rw [stmts_newline]
  cases stmts f true true y <;> rfl

theorem reads_all {ts : List Str} {sts : List Stmt} (h : List.Forall₂ Reads ts sts) (f : Nat) (x : Str) :
    stmts (ts.length + f) true true (uncomment true false (ts.flatten ++ x)) = (stmts f true true (uncomment true false x)).map (sts ++ ·) := by
  induction h with
  | nil =>
    simp only [List.length_nil, Nat.zero_add, List.flatten_nil, List.nil_append]
    cases stmts f true true (uncomment true false x) <;> rfl
  | @cons t st ts sts h1 _ ih =>
    rw [List.flatten_cons, List.append_assoc, show (t :: ts).length + f = ts.length + f + 1 by simp; omega, h1.2, ih]
    cases stmts f true true (uncomment true false x) <;> rfl

/-- the program -/
theorem reads_program {ts : List Str} {sts : List Stmt} (h : List.Forall₂ Reads ts sts) : program (sOnEmpty ++ ts.flatten ++ sOffEmpty) = some sts := by
  have hlen : ts.length ≤ ts.flatten.length := by
    induction h with
    | nil => simp
    | @cons t st ts sts h1 _ ih =>
      rw [List.flatten_cons, List.length_append, List.length_cons]
      have := List.length_pos_iff.mpr h1.1
      omega
  have key : stmts (ts.length + 2 + 1) true false (uncomment true false (sOnEmpty ++ ts.flatten ++ sOffEmpty)) = some sts := by
    have hu : uncomment true false (sOnEmpty ++ ts.flatten ++ sOffEmpty) = wOnEmpty ++ 10 :: uncomment true false (ts.flatten ++ sOffEmpty) := by
      rw [List.append_assoc]
      exact unc_line (s := wOnEmpty) (by decide) true (by decide) (ts.flatten ++ sOffEmpty)
    rw [hu]
    generalize hy : uncomment true false (ts.flatten ++ sOffEmpty) = y
    have hs : stmts (ts.length + 2 + 1) true false (wOnEmpty ++ 10 :: y) = stmts (ts.length + 2) false true (10 :: y) := by
      conv => lhs; unfold stmts
      rw [show skipL true (wOnEmpty ++ 10 :: y) = (true, 36 :: ([111, 110, 69, 109, 112, 116, 121] ++ 10 :: y)) from rfl]
      dsimp only
      rw [if_pos rfl, if_pos ⟨rfl, rfl⟩]
      rfl
    rw [hs, stmts_newline, ← hy, reads_all h 2 sOffEmpty]
    have : stmts 2 true true (uncomment true false sOffEmpty) = some [] := by decide +kernel
    rw [this]
    simp
  unfold program
  apply stmts_mono key
  rw [List.length_append, List.length_append]
  have : sOnEmpty.length = 9 := rfl
  omega

/-! ## all symbols -/

/-- what is written for symbol `nr`, whatever was read before -/
def DumpSym (o : GOpt) (z : Cz) (fuel : Nat) (a : Gx) (P : Int → Stmt → Prop) (nr : Int) : Prop :=
  ∀ g : Gx, g.fixed = a.fixed → Reading g.mode → ∃ g' t st, writeSymbol o z fuel g nr = .ok (g', t) ∧ g'.fixed = a.fixed ∧ Reading g'.mode ∧ Reads t st ∧ P nr st

theorem written_all {o : GOpt} {z : Cz} {fuel : Nat} {a : Gx} {P : Int → Stmt → Prop} : ∀ (k : Nat) (n : Int), (∀ i : Nat, i < k → DumpSym o z fuel a P (n + i)) → ∀ g : Gx, g.fixed = a.fixed → Reading g.mode →
    ∃ g' ts sts, allSymbols o z fuel k g n = .ok (g', ts.flatten) ∧ List.Forall₂ Reads ts sts ∧ sts.length = k ∧ ∀ i : Nat, i < k → ∃ st, sts[i]? = some st ∧ P (n + i) st := by
  intro k
  induction k with
  | zero =>
    intro n _ g _ _
    exact ⟨g, [], [], rfl, .nil, rfl, fun i hi => absurd hi (by omega)⟩
  | succ k ih =>
    intro n h g hg hm
    obtain ⟨g1, t, st, h1, h2, h3, h4, h5⟩ := h 0 (by omega) g hg hm
    rw [show n + ((0 : Nat) : Int) = n by simp] at h1 h5
    obtain ⟨g2, ts, sts, i1, i2, i3, i4⟩ := ih (n + 1) (by
      intro i hi
      have := h (i + 1) (by omega)
      rw [show n + ((i + 1 : Nat) : Int) = n + 1 + i by push_cast; omega] at this
      exact this) g1 h2 h3
    refine ⟨g2, t :: ts, st :: sts, ?_, .cons h4 i2, by simp [i3], ?_⟩
    · unfold allSymbols
      rw [h1, Res.bind_ok]
      dsimp only
      rw [i1]
      rfl
    · intro i hi
      cases i with
      | zero => exact ⟨st, rfl, by rw [show n + ((0 : Nat) : Int) = n by simp]; exact h5⟩
      | succ i =>
        obtain ⟨st', e1, e2⟩ := i4 i (by omega)
        exact ⟨st', e1, by rw [show n + ((i + 1 : Nat) : Int) = n + 1 + i by push_cast; omega]; exact e2⟩

/-- C80 for files of the library without acronyms, in whatever way they were written: gdxdump without options writes a program, and a reader of GAMS finds in it one statement for every
    symbol, in the order of the file. What is missing: as in C70 (sets without index, scalars with comments, comments with a newline, some texts); aliases of a set without index; files with
    acronyms (see `C80_acronyms`); that aliases have no records of their own is an assumption. -/
theorem C80_own_partial {o : GOpt} (ho : GOptOk o) {e : Env} {z : Cz} (hz : z.Good) {g : Gx} {syms : List Sym} {R : Nat → List RawEntry} {f : List UInt8} (h : OwnFile e z g syms R f)
    (hacr : g.acros = some [])
    (htx : ∀ l, g.texts = some l → ∀ p ∈ l, p.1.head? = some 39 ∨ p.1.head? = some 34 ∨ p.1.head? = some 46 → ∃ c ∈ p.1, c = 32 ∨ c = 44 ∨ c = 59 ∨ c = 47 ∨ c = 36 ∨ c = 61 ∨ c = 42)
    (hsy : ∀ (n : Nat) (s : Sym), syms[n]? = some s → (s.typ ≤ 3 ∧ (∃ cs : List Str, s.comments = cs.map some ∧ ∀ c ∈ cs, (10 : UInt8) ∉ c) ∧ (s.dim = 0 → s.typ ≠ 0 ∧ s.comments = [])) ∨
      (s.typ = dtAlias ∧ s.dim ≠ 0 ∧ s.dataCount = 0)) :
    ∃ a, ∃ outs : Nat → List (RecOut Int), openRead z Gx.new (.content f) = .ok (a, (true, 0)) ∧ a.uel.map Uel.strs = g.uel.map Uel.strs ∧
      (∀ (n : Nat) (s : Sym), syms[n]? = some s → s.typ ≤ 3 → Delivered SVTab.default (acrOf a) (contentOf syms R ((n : Int) + 1)).1 (contentOf syms R ((n : Int) + 1)).2 (outs n)) ∧
      ((∀ (n : Nat) (s : Sym), syms[n]? = some s → s.typ ≤ 3 → (∀ r ∈ outs n, ∀ v ∈ r.vals, ∃ q, v.fv = .fin q ∧ (q ≠ 0 → Nearest15 (o.dtoa v) q)) ∧
          (s.typ = 0 → ∀ r ∈ outs n, ∀ v ∈ r.vals, Diff.roundInt v ≠ .ub)) →
       ∀ fuel, (∀ (n : Nat) (s : Sym), syms[n]? = some s → s.typ ≤ 3 → (outs n).length < fuel ∧ s.comments.length < fuel) → ∀ input : Str,
        ∃ g' t sts, dumpAll o z fuel input a = .ok (g', t) ∧ program t = some sts ∧ sts.length = syms.length ∧
          ∀ (n : Nat) (s : Sym), syms[n]? = some s → ∃ st, sts[n]? = some st ∧ StmtOf o a s (outs n) st) := by
  obtain ⟨a, a1, a4, ⟨af, a3, ars, l, al1, al2⟩, hall⟩ := own_decl (o := o) hz h (by
    intro l hl x hx
    rw [hacr] at hl
    cases hl
    cases hx) htx
  rw [hacr] at al1
  cases al1
  have hex : ∀ n : Nat, ∃ outs, ∀ s, syms[n]? = some s → s.typ ≤ 3 → ∃ cs : List Str, s.comments = cs.map some ∧
      Delivered SVTab.default (acrOf a) (contentOf syms R ((n : Int) + 1)).1 (contentOf syms R ((n : Int) + 1)).2 outs ∧
      ((∀ r ∈ outs, ∀ v ∈ r.vals, ∃ q, v.fv = .fin q ∧ (q ≠ 0 → Nearest15 (o.dtoa v) q)) → (s.typ = 0 → ∀ r ∈ outs, ∀ v ∈ r.vals, Diff.roundInt v ≠ .ub) →
        DeclOk a ((n : Int) + 1) s.reopened cs ∧ ∃ d xs, HoldsSym z a ((n : Int) + 1) d xs ∧ xs.length = outs.length ∧
          ∀ outs', Delivered a.rsv (acrOf a) d xs outs' → outs' = outs ∧ ∀ r ∈ outs', CanDeclare o a s.reopened.typ r) := by
    intro n
    cases hs : syms[n]? with
    | none => exact ⟨[], fun s hc => by cases hc⟩
    | some s =>
      rcases hsy n s hs with ⟨h1, ⟨cs, h2, h3⟩, h4⟩ | ⟨h1, _⟩
      · obtain ⟨outs, o1, o2⟩ := hall n s hs h1 cs h2 h3 (fun hd => by
          refine ⟨(h4 hd).1, ?_⟩
          have := (h4 hd).2
          rw [h2] at this
          exact List.map_eq_nil_iff.mp this)
        refine ⟨outs, fun s' hs' _ => ?_⟩
        cases hs'
        exact ⟨cs, h2, o1, o2⟩
      · refine ⟨[], fun s' hs' ht => ?_⟩
        cases hs'
        exfalso
        rw [h1] at ht
        exact absurd ht (by decide)
  choose outs hout using hex
  refine ⟨a, outs, a1, a4, ?_, ?_⟩
  · intro n s hs ht
    obtain ⟨cs, _, h2, _⟩ := hout n s hs ht
    exact h2
  intro hval fuel hfu input
  have fi := h.hist.fine hz
  have hsyms := fi.inv.tab.syms syms h.full.names
  have hat : ∀ {k : Nat} {y : Sym}, syms[k]? = some y → a.symAt ((k : Int) + 1) = some y.reopened := by
    intro k y hk
    have hlt := (List.getElem?_eq_some_iff.mp hk).1
    unfold Gx.symAt
    rw [a3]
    simp only [List.length_map]
    rw [if_pos (by omega), show ((k : Int) + 1 - 1).toNat = k by omega, List.getElem?_map, hk]
    rfl
  have hw : ∀ i : Nat, i < syms.length → DumpSym o z fuel a (fun nr st => ∀ s, syms[(nr - 1).toNat]? = some s → StmtOf o a s (outs (nr - 1).toNat) st) (1 + (i : Int)) := by
    intro i hi g hg hm
    have hs := List.getElem?_eq_getElem hi
    generalize syms[i] = s at hs
    have hi1 : (1 + (i : Int) - 1).toNat = i := by omega
    rw [show 1 + (i : Int) = (i : Int) + 1 by omega] at hi1 ⊢
    dsimp only
    rw [hi1]
    rcases hsy i s hs with ⟨h1, _⟩ | ⟨h1, h2, h3⟩
    · obtain ⟨cs, c1, _, c3⟩ := hout i s hs h1
      obtain ⟨v1, v2⟩ := hval i s hs h1
      obtain ⟨hd, d, xs, hold, hlen, hcan⟩ := c3 v1 v2
      obtain ⟨f1, f2⟩ := hfu i s hs h1
      obtain ⟨outs', ess, g', t, D, q1, q2, q3, ⟨p1, p2, t0, p3⟩, q4, q5, q6, q7, q8, q9⟩ := decl_full ho hz af hd hold (fun outs' ho' => (hcan outs' ho').2) (fuel := fuel) (by omega) (by
        rw [c1, List.length_map] at f2
        exact f2) hg hm
      rw [(hcan _ q1).1] at q2
      obtain ⟨k1, k2⟩ := kindOf_head (typ := s.typ) s.dim s.userInfo
      have q5' : D.kind = kindOf s.typ s.dim s.userInfo := q5
      refine ⟨g', t, .decl D, q3, p1, p2, reads_decl p3 q4 (by rw [q5']; exact k1) (by rw [q5']; exact k2), ?_⟩
      intro s' hs'
      rw [hs] at hs'
      cases hs'
      exact ⟨h1, ess, q2, q5, q6, q7, q8, q9⟩
    · have hsat : ∀ n, g.symAt n = a.symAt n := fun n => by unfold Gx.symAt; rw [show g.names = a.names from congrArg Fixed.names hg]
      have hok := hsyms.each i s hs
      have hw : ∃ w, IsDom w ∧ (s.userInfo = 0 ∧ w = [42] ∨ s.userInfo ≠ 0 ∧ ∃ q, a.symAt s.userInfo = some q ∧ w = q.name) := by
        rcases hok.ali h1 with ⟨u1, _⟩ | ⟨m, t, m1, m2, m3, _⟩
        · exact ⟨[42], Or.inl rfl, Or.inl ⟨u1, rfl⟩⟩
        · refine ⟨t.name, Or.inr (hsyms.each m t m3).good, Or.inr ⟨by omega, t.reopened, ?_, rfl⟩⟩
          rw [m2]
          exact hat m3
      obtain ⟨w, w1, w2⟩ := hw
      refine ⟨g, _, .alias s.name w, C70_alias ho (s := s.reopened) (by rw [hsat]; exact hat hs) h1 h2 h3 (w := w) (by
        rcases w2 with w2 | ⟨w2, q, w3, w4⟩
        · exact Or.inl w2
        · exact Or.inr ⟨w2, q, by rw [hsat]; exact w3, w4⟩) fuel, hg, hm, reads_alias hok.good w1, ?_⟩
      intro s' hs'
      rw [hs] at hs'
      cases hs'
      exact ⟨h1, rfl, w2⟩
  obtain ⟨g', ts, sts, r1, r2, r3, r4⟩ := written_all syms.length 1 hw a rfl (Or.inl af.mode)
  refine ⟨g', sOnEmpty ++ ts.flatten ++ sOffEmpty, sts, ?_, reads_program r2, r3, ?_⟩
  · have hn : (systemInfo a).1.toNat = syms.length := by
      unfold systemInfo
      rw [a3]
      simp
    have hac : writeAcronyms a = .ok [] := by
      unfold writeAcronyms
      rw [if_pos (by rw [al2]; simp)]
    unfold dumpAll
    rw [hac, Res.bind_ok, hn, r1]
    simp [Res.pure_eq, ho.data]
  · intro n s hs
    have hlt := (List.getElem?_eq_some_iff.mp hs).1
    obtain ⟨st, e1, e2⟩ := r4 n hlt
    refine ⟨st, e1, ?_⟩
    have hi1 : (1 + (n : Int) - 1).toNat = n := by omega
    have := e2 s (by rw [hi1]; exact hs)
    rw [hi1] at this
    exact this

/-- C80 fails for files with acronyms: the first declaration of an acronym has no name (C71), and no program is read. -/
theorem C80_acronyms {o : GOpt} (hd : o.data = true) {z : Cz} {fuel : Nat} {input : Str} {a g' : Gx} {t : Str} (hc : acronymCount a > 0) (h : dumpAll o z fuel input a = .ok (g', t)) :
    program t = none := by
  unfold dumpAll at h
  obtain ⟨acr, h1, h⟩ := Res.bind_eq_ok.mp h
  obtain ⟨⟨g1, t1⟩, _, h⟩ := Res.bind_eq_ok.mp h
  dsimp only at h
  rw [if_pos hd, if_pos hd, Res.pure_eq] at h
  injection h with h
  injection h with _ h
  unfold writeAcronyms at h1
  rw [if_neg (by omega)] at h1
  obtain ⟨s, h2, h3⟩ := Res.bind_eq_ok.mp h1
  rw [Res.pure_eq] at h3
  injection h3 with h3
  obtain ⟨n, hn⟩ : ∃ n, (acronymCount a).toNat = n + 1 := ⟨(acronymCount a).toNat - 1, by omega⟩
  rw [hn] at h2
  unfold acroLines at h2
  obtain ⟨i, h4, h5⟩ := Res.bind_eq_ok.mp h2
  have hi : i = none := by
    unfold acronymGetInfo at h4
    obtain ⟨l, _, h4⟩ := Res.bind_eq_ok.mp h4
    rw [if_pos (by omega), Res.pure_eq] at h4
    injection h4 with h4
    exact h4.symm
  subst hi
  obtain ⟨r, h6, h7⟩ := Res.bind_eq_ok.mp h5
  rw [Res.pure_eq] at h7
  injection h7 with h7
  have ht : ∃ x, t = 10 :: ([65, 99, 114, 111, 110, 121, 109, 32, 59] ++ 10 :: x) := by
    refine ⟨r ++ sOnEmpty ++ t1 ++ sOffEmpty, ?_⟩
    rw [← h, ← h3, ← h7]
    simp
  obtain ⟨x, rfl⟩ := ht
  unfold program
  rw [unc_cons, if_neg (by decide), stmts_newline, show ((10 : UInt8) == 10) = true from rfl, unc_line (by decide) true (by intro _; decide)]
  unfold stmts
  rfl

/-! ## examples -/

/-- what gdxdump writes for the file that the calls write -/
def dumpOf (o : GOpt) (cs : List Call) : Res Str := do
  let f ← fileOf cs
  let (a, _) ← openRead Cz.id Gx.new (.content f)
  let (_, t) ← dumpAll o Cz.id 100 [] a
  pure t

/-- the file of C70 with an alias, an empty parameter and a comment -/
def exDumpAll : List Call := exGams ++ [.addAlias [106] [105], .strStart [113] [] 1 1 0, .writeDone, .addComment 6 [110, 111, 110, 101]]

example : (do
    let t ← dumpOf exGOpt exDumpAll
    pure (program t)) = .ok (some
      [.decl ⟨[[83, 101, 116]], [105], [[42]], [116, 104, 101, 32, 115, 101, 116], [([[97, 32, 98]], [105, 116, 39, 115]), ([[99, 39, 100]], [])]⟩,
       .decl ⟨[[80, 97, 114, 97, 109, 101, 116, 101, 114]], [112], [[105], [42]], [53, 47, 54], [([[97, 32, 98], [120]], [49, 46, 53]), ([[99, 39, 100], [120]], [69, 112, 115])]⟩,
       .decl ⟨[[112, 111, 115, 105, 116, 105, 118, 101], [86, 97, 114, 105, 97, 98, 108, 101]], [118], [], [], [([[76]], [49, 46, 53])]⟩,
       .decl ⟨[[83, 99, 97, 108, 97, 114]], [115], [], [40, 111, 110, 101, 41], [([], [48])]⟩,
       .alias [106] [105],
       .decl ⟨[[80, 97, 114, 97, 109, 101, 116, 101, 114]], [113], [[42]], [], []⟩]) := by decide +kernel

/-- the program that is read from what gdxdump writes -/
def programOf (o : GOpt) (cs : List Call) : Res (Option (List Stmt)) := do
  let t ← dumpOf o cs
  pure (program t)

/-- the set `s` without index and its alias `t` -/
def exAlias0 : List Call := [.openWrite false 0 [65] 0, .strStart [115] [] 0 0 0, .writeStr [] [0], .writeDone, .addAlias [116] [115]]

/-- C80 fails for the alias of a set without index: after `Alias (t, s);` there is an empty list ` / /;`, and no program is read. -/
theorem C80_alias0 : dumpOf exGOpt exAlias0 = .ok (sOnEmpty ++ [10, 83, 101, 116, 32, 115, 32, 47, 32, 47, 59, 10] ++ [10, 65, 108, 105, 97, 115, 32, 40, 116, 44, 32, 115, 41, 59, 10] ++
    [32, 47, 32, 47, 59, 10] ++ sOffEmpty) ∧ programOf exGOpt exAlias0 = .ok none := by decide +kernel

/-- C80 fails with DecimalSep=comma, which gdxdump accepts: `1,5` is not one number in GAMS. -/
theorem C80_sep : programOf { exGOpt with sep := 44 } exGams = .ok none := by decide +kernel

/-- two acronyms -/
example : programOf exGOpt [.openWrite false 0 [65] 0, .acronymAdd [97, 98] [] 1, .acronymAdd [99, 100] [] 2] = .ok none := by decide +kernel

#print axioms C80_own_partial
#print axioms C80_acronyms
#print axioms C80_alias0
#print axioms C80_sep

end Gdx.Props
