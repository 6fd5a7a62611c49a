import Verif.Props.DumpAll
import Verif.Proofs.GamsLoad

/-!
C83: what gdxdump writes with the option NoData is a GAMS program that declares every symbol and loads its data from the file.
-/

namespace Gdx.Props
open Gdx Gdx.Dump Gdx.DblStr Gdx.Diff Gdx.Gams

/-! ## what must be read -/

/-- the statements for a symbol: its declaration and the loading of its data, or the alias -/
def LoadsOf (a : Gx) (s : Sym) (l : List LStmt) : Prop :=
  (s.typ ≤ 3 ∧ ∃ D, l = [.decl D, .load s.name] ∧ D.kind = kindOf s.typ s.dim s.userInfo ∧ D.name = s.name ∧
    List.Forall₂ (DomNamed a) (s.domSyms.getD (List.replicate s.dim.toNat 0)) D.doms ∧ (∃ i j, s.expl = List.replicate i 32 ++ D.text ++ List.replicate j 32) ∧ D.data = []) ∨
  (s.typ = dtAlias ∧ ∃ y, l = [.alias s.name y] ∧ (s.userInfo = 0 ∧ y = [42] ∨ s.userInfo ≠ 0 ∧ ∃ q, a.symAt s.userInfo = some q ∧ y = q.name))

/-! ## pieces of the program -/

/-- a text is read as these statements, whatever follows it -/
def LReads (t : Str) (l : List LStmt) : Prop :=
  l.length ≤ t.length ∧ ∀ (f : Nat) (x : Str), loads (f + l.length) true true (noEol false (uncomment true false (t ++ x))) = (loads f true true (noEol false (uncomment true false x))).map (l ++ ·)

theorem lreads_all {ts : List Str} {ls : List (List LStmt)} (h : List.Forall₂ LReads ts ls) : LReads ts.flatten ls.flatten := by
  induction h with
  | nil => exact ⟨by simp, fun f x => by simp⟩
  | @cons t l ts ls h1 _ ih =>
    refine ⟨?_, fun f x => ?_⟩
    · simp only [List.flatten_cons, List.length_append]
      have := h1.1
      have := ih.1
      omega
    · rw [List.flatten_cons, List.flatten_cons, List.append_assoc, List.length_append, show f + (l.length + ls.flatten.length) = f + ls.flatten.length + l.length by omega, h1.2, ih.2]
      cases loads f true true (noEol false (uncomment true false x)) <;> simp

theorem kind_plain {typ : Nat} (ht : typ ≤ 3) (dim user : Int) :
    (33 : UInt8) ∉ (if dim = 0 ∧ typ = dtPar then sScalar else (if (subType typ user).2 = [] then [] else (subType typ user).2 ++ [32]) ++ typName typ) := by
  have hs : (33 : UInt8) ∉ (subType typ user).2 := by
    interval_cases typ
    · show (33 : UInt8) ∉ if user = 1 then sSingleton else []
      split <;> decide
    · show (33 : UInt8) ∉ ([] : Str)
      decide
    · show (33 : UInt8) ∉ if (if user < 0 ∨ user > 9 then 5 else user) = 0 then [] else varTyp (if user < 0 ∨ user > 9 then 5 else user)
      by_cases hu : user < 0 ∨ user > 9
      · rw [if_pos hu]
        decide
      · rw [if_neg hu]
        have h0 : 0 ≤ user := by omega
        have h9 : user ≤ 9 := by omega
        interval_cases user <;> decide
    · show (33 : UInt8) ∉ if (if user < 0 ∨ user > 6 then 0 else user) = 6 then sLogic else []
      generalize (if user < 0 ∨ user > 6 then 0 else user) = u
      by_cases hu : u = 6
      · rw [if_pos hu]
        decide
      · rw [if_neg hu]
        decide
  have hn : (33 : UInt8) ∉ typName typ := by
    interval_cases typ <;> decide
  split
  · decide
  · intro hc
    rcases List.mem_append.mp hc with hc | hc
    · split at hc
      · cases hc
      · rcases List.mem_append.mp hc with hc | hc
        · exact hs hc
        · revert hc; decide
    · exact hn hc

theorem ident_plain {w : Str} (h : isGoodIdent w = true) : (33 : UInt8) ∉ w ∧ (32 : UInt8) ∉ w ∧ (10 : UInt8) ∉ w ∧ w ≠ [] := by
  obtain ⟨h1, h2⟩ := ident_chars h
  refine ⟨?_, ?_, ?_, h1⟩
  all_goals
    intro hc
    have := h2 _ hc
    revert this
    decide

theorem dom_plain {w : Str} (h : IsDom w) : (33 : UInt8) ∉ w := by
  rcases h with rfl | h
  · decide
  · exact (ident_plain h).1

theorem joined_plain {ds : List Str} (h : ∀ d ∈ ds, (33 : UInt8) ∉ d) : (33 : UInt8) ∉ Dump.joined 44 ds := by
  induction ds with
  | nil => intro hc; cases hc
  | cons d ds ih =>
    have ih := ih fun x hx => h x (by simp [hx])
    have hd := h d (by simp)
    cases ds with
    | nil => exact hd
    | cons e ds =>
      intro hc
      unfold Dump.joined at hc
      simp only [List.mem_append, List.mem_cons, List.not_mem_nil, or_false] at hc
      rcases hc with (hc | hc) | hc
      · exact hd hc
      · exact absurd hc (by decide)
      · exact ih hc

/-- the text of a symbol does not get the marks of a comment when it is written -/
theorem qtext_plain {s : Str} (h : ∀ a b, s ≠ a ++ 33 :: 33 :: b) (paren : Bool) : ∀ a b, (if s = [] then [] else writeQText s paren) ≠ a ++ 33 :: 33 :: b := by
  have hq : ∀ a b, [32] ++ writeUEL s ≠ a ++ 33 :: 33 :: b := by
    have h2 : qq s ≠ 33 := by
      unfold qq
      split <;> decide
    have : [32] ++ writeUEL s = [32, qq s] ++ (s ++ [qq s]) := by simp [writeUEL]
    rw [this]
    refine noMark_append ?_ (noMark_snoc h2 h)
    intro hc
    simp only [List.mem_cons, List.not_mem_nil, or_false] at hc
    rcases hc with hc | hc
    · exact absurd hc (by decide)
    · exact h2 hc.symm
  have hb : ∀ a b, [32] ++ s ≠ a ++ 33 :: 33 :: b := noMark_append (by decide) h
  split
  · exact noMark_of (by simp)
  · unfold writeQText
    split
    · unfold writeQuoted
      split
      · exact hb
      · exact hq
    · unfold writeQuoted
      split
      · exact hb
      · exact hq

/-- ` ;` and the line that loads the data; ` !!empty` is a comment -/
theorem tail_eq (b : Bool) (name x : Str) : ∃ m : Str, noData b name ++ x = [32, 59] ++ m ++ 10 :: (wLoadDC ++ 32 :: (name ++ m) ++ 10 :: x) ∧ (10 : UInt8) ∉ m ∧
    ∀ y : Str, ∃ k, noEol false (m ++ 10 :: y) = List.replicate k 32 ++ 10 :: noEol false y := by
  cases b with
  | true =>
    refine ⟨[32, 33, 33, 101, 109, 112, 116, 121], by simp [noData, wLoadDC], by decide, fun y => ⟨1, ?_⟩⟩
    simp [noEol]
  | false =>
    refine ⟨[], by simp [noData, wLoadDC], by decide, fun y => ⟨0, ?_⟩⟩
    simp [noEol]

theorem loads_blanks (f : Nat) (b e : Bool) (k : Nat) (s : Str) : loads f b e (List.replicate k 32 ++ 10 :: s) = loads f true e s := by
  cases f with
  | zero => rfl
  | succ f =>
    unfold loads
    have : skipL b (List.replicate k 32 ++ 10 :: s) = skipL true s := by
      induction k generalizing b with
      | zero => rfl
      | succ k ih =>
        rw [List.replicate_succ, List.cons_append]
        conv => lhs; unfold skipL
        exact ih _
    rw [this]

/-- what is written for a symbol that is no alias and has no comments -/
theorem lreads_decl {a : Gx} {nr : Int} {s : Sym} (hs : HeadOk a nr s) (hx : ∀ a b, s.expl ≠ a ++ 33 :: 33 :: b) {ds : List Str} (h2 : List.Forall₂ (DomNamed a) (s.domSyms.getD (List.replicate s.dim.toNat 0)) ds)
    (h3 : ∀ d ∈ ds, IsDom d) (h4 : ds.length = s.dim.toNat) (b : Bool) :
    ∃ l, LReads ([10] ++ ((if s.dim = 0 ∧ s.typ = dtPar then sScalar else (if (subType s.typ s.userInfo).2 = [] then [] else (subType s.typ s.userInfo).2 ++ [32]) ++ typName s.typ) ++ 32 :: (s.name ++ (domText ds ++
        (if s.expl = [] then [] else writeQText s.expl (decide (s.dim = 0)))))) ++ noData b s.name) l ∧ LoadsOf a s l := by
  obtain ⟨tx, x1, x2, x3, x4⟩ := text_of hs.expl (p := ds = []) (paren := decide (s.dim = 0)) (by
    intro hds
    rw [hds] at h4
    have := hs.dim
    simp at h4
    simp
    omega)
  obtain ⟨q1, q2, q3⟩ := kind_text hs.typ s.dim s.userInfo
  have q4 := kind_plain hs.typ s.dim s.userInfo
  have x5 := qtext_plain hx (decide (s.dim = 0))
  obtain ⟨k1, k2⟩ := kindOf_head (typ := s.typ) s.dim s.userInfo
  generalize hkt : (if s.dim = 0 ∧ s.typ = dtPar then sScalar else (if (subType s.typ s.userInfo).2 = [] then [] else (subType s.typ s.userInfo).2 ++ [32]) ++ typName s.typ) = kt at *
  generalize htt : (if s.expl = [] then [] else writeQText s.expl (decide (s.dim = 0))) = tt at *
  obtain ⟨n1, n2, n3, n4⟩ := ident_plain hs.name
  have hdt : ∀ c : UInt8, c = 10 ∨ c = 33 → c ∉ domText ds := by
    intro c hc hm
    unfold domText at hm
    split at hm
    · cases hm
    · simp only [List.mem_append, List.mem_cons, List.not_mem_nil, or_false] at hm
      rcases hm with (hm | hm) | hm
      · rcases hc with rfl | rfl <;> exact absurd hm (by decide)
      · rcases hc with rfl | rfl
        · refine joined_chars (d := 44) (by decide) (ts := ds) ?_ 10 hm rfl
          rintro w hw c hc' rfl
          exact dom_line (h3 w hw) hc'
        · exact joined_plain (fun d hd => dom_plain (h3 d hd)) hm
      · rcases hc with rfl | rfl <;> exact absurd hm (by decide)
  refine ⟨[.decl ⟨kindOf s.typ s.dim s.userInfo, s.name, ds, tx, []⟩, .load s.name], ⟨?_, fun f x => ?_⟩, Or.inl ⟨hs.typ, _, rfl, rfl, rfl, h2, x4, rfl⟩⟩
  · simp
    omega
  · obtain ⟨m, m1, m2, m3⟩ := tail_eq b s.name x
    have e0 : [10] ++ (kt ++ 32 :: (s.name ++ (domText ds ++ tt))) ++ noData b s.name ++ x =
        10 :: (kt ++ 32 :: (s.name ++ (domText ds ++ tt)) ++ [32, 59] ++ m ++ 10 :: (wLoadDC ++ 32 :: (s.name ++ m) ++ 10 :: x)) := by
      rw [List.append_assoc _ (noData b s.name), m1]
      simp
    have hH10 : (10 : UInt8) ∉ kt ++ 32 :: (s.name ++ (domText ds ++ tt)) ++ [32, 59] ++ m := by
      intro hc
      simp only [List.mem_append, List.mem_cons, List.not_mem_nil, or_false] at hc
      rcases hc with ((hc | hc | hc | hc | hc) | hc | hc) | hc
      · exact q3.no10 hc
      · exact absurd hc (by decide)
      · exact n3 hc
      · exact hdt 10 (Or.inl rfl) hc
      · exact x3 hc
      · exact absurd hc (by decide)
      · exact absurd hc (by decide)
      · exact m2 hc
    have hL10 : (10 : UInt8) ∉ wLoadDC ++ 32 :: (s.name ++ m) := by
      intro hc
      simp only [List.mem_append, List.mem_cons] at hc
      rcases hc with hc | hc | hc | hc
      · revert hc; decide
      · exact absurd hc (by decide)
      · exact n3 hc
      · exact m2 hc
    have hh : ∀ q : Str, (kt ++ q).head? ≠ some 42 := by
      intro q
      cases hk : kt with
      | nil => exact absurd hk q3.ne
      | cons c w =>
        have := q3.head
        rw [hk] at this
        exact this
    rw [e0, unc_cons, if_neg (by decide), show ((10 : UInt8) == 10) = true from rfl, unc_line hH10 true (fun _ => by simp only [List.append_assoc]; exact hh _), unc_line hL10 true (fun _ => by simp [wLoadDC])]
    generalize uncomment true false x = y
    -- comments at the ends of lines
    have hp : ∀ a b, kt ++ 32 :: (s.name ++ (domText ds ++ tt)) ≠ a ++ 33 :: 33 :: b := by
      have e : kt ++ 32 :: (s.name ++ (domText ds ++ tt)) = (kt ++ 32 :: (s.name ++ domText ds)) ++ tt := by simp
      rw [e]
      refine noMark_append ?_ x5
      intro hc
      simp only [List.mem_append, List.mem_cons] at hc
      rcases hc with hc | hc | hc | hc
      · exact q4 hc
      · exact absurd hc (by decide)
      · exact n1 hc
      · exact hdt 33 (Or.inr rfl) hc
    obtain ⟨j1, hj1⟩ := m3 (wLoadDC ++ 32 :: (s.name ++ m) ++ 10 :: y)
    obtain ⟨j2, hj2⟩ := m3 y
    have hm33 : ∀ r : Str, (m ++ 10 :: r).head? ≠ some 33 := by
      intro r hc
      cases b with
      | true =>
        have := congrArg (fun t : Str => t.drop 2) m1
        cases m with
        | nil => cases hc
        | cons c m =>
          cases hc
          simp [noData] at this
      | false =>
        have := congrArg (fun t : Str => t.drop 2) m1
        cases m with
        | nil => cases hc
        | cons c m =>
          cases hc
          simp [noData] at this
    have hE : noEol false (10 :: (kt ++ 32 :: (s.name ++ (domText ds ++ tt)) ++ [32, 59] ++ m ++ 10 :: (wLoadDC ++ 32 :: (s.name ++ m) ++ 10 :: y))) =
        10 :: (kt ++ 32 :: (s.name ++ (domText ds ++ (tt ++ 32 :: 59 :: (List.replicate j1 32 ++ 10 :: (wLoadDC ++ 32 :: (s.name ++ List.replicate j2 32) ++ 10 :: noEol false y)))))) := by
      rw [noEol_newline]
      congr 1
      have e1 : kt ++ 32 :: (s.name ++ (domText ds ++ tt)) ++ [32, 59] ++ m ++ 10 :: (wLoadDC ++ 32 :: (s.name ++ m) ++ 10 :: y) =
          (kt ++ 32 :: (s.name ++ (domText ds ++ tt))) ++ ([32, 59] ++ (m ++ 10 :: (wLoadDC ++ 32 :: (s.name ++ m) ++ 10 :: y))) := by simp
      rw [e1, noEol_plain hp (by simp), noEol_plain (s := [32, 59]) (noMark_of (by decide)) (hm33 _), hj1]
      have e2 : wLoadDC ++ 32 :: (s.name ++ m) ++ 10 :: y = (wLoadDC ++ 32 :: s.name) ++ (m ++ 10 :: y) := by simp
      rw [e2, noEol_plain (noMark_of (by
        intro hc
        simp only [List.mem_append, List.mem_cons] at hc
        rcases hc with hc | hc | hc
        · revert hc; decide
        · exact absurd hc (by decide)
        · exact n1 hc)) (hm33 _), hj2]
      simp
    rw [hE]
    have hd := bareDecl_ok q1 hs.name h3 x1 x2 (List.replicate j1 32 ++ 10 :: (wLoadDC ++ 32 :: (s.name ++ List.replicate j2 32) ++ 10 :: noEol false y))
    rw [show f + [LStmt.decl ⟨kindOf s.typ s.dim s.userInfo, s.name, ds, tx, []⟩, LStmt.load s.name].length = f + 1 + 1 from rfl, loads_decl hd k1 k2, loads_blanks,
      loads_dollar (Or.inr ⟨rfl, rfl⟩) n4 n2 n3]
    cases loads f true true (noEol false y) <;> rfl

theorem lreads_alias {v w : Str} (hv : isGoodIdent v = true) (hw : IsDom w) : LReads ([10, 65, 108, 105, 97, 115, 32, 40] ++ v ++ [44, 32] ++ w ++ [41, 59, 10]) [.alias v w] := by
  refine ⟨by simp, fun f x => ?_⟩
  have e : [10, 65, 108, 105, 97, 115, 32, 40] ++ v ++ [44, 32] ++ w ++ [41, 59, 10] ++ x =
      10 :: (([65, 108, 105, 97, 115, 32, 40] ++ v ++ [44, 32] ++ w ++ [41, 59]) ++ 10 :: x) := by simp
  rw [e, unc_cons, if_neg (by decide)]
  rw [show ((10 : UInt8) == 10) = true from rfl, unc_line (by
    intro hc
    simp only [List.mem_append] at hc
    rcases hc with (((hc | hc) | hc) | hc) | hc
    · revert hc; decide
    · exact dom_line (Or.inr hv) hc
    · revert hc; decide
    · exact dom_line hw hc
    · revert hc; decide) true (by intro _; simp)]
  generalize uncomment true false x = y
  rw [noEol_newline, noEol_plain (noMark_of (by
    intro hc
    simp only [List.mem_append] at hc
    rcases hc with (((hc | hc) | hc) | hc) | hc
    · revert hc; decide
    · exact dom_plain (Or.inr hv) hc
    · revert hc; decide
    · exact dom_plain hw hc
    · revert hc; decide)) (by simp), noEol_newline, loads_newline]
  generalize noEol false y = y
  have e2 : [65, 108, 105, 97, 115, 32, 40] ++ v ++ [44, 32] ++ w ++ [41, 59] ++ 10 :: y = 65 :: ([108, 105, 97, 115] ++ ([32, 40] ++ v ++ [44, 32] ++ w ++ [41, 59, 10] ++ y)) := by simp
  rw [e2]
  have hn : name (65 :: ([108, 105, 97, 115] ++ ([32, 40] ++ v ++ [44, 32] ++ w ++ [41, 59, 10] ++ y))) = some (wAlias, [32, 40] ++ v ++ [44, 32] ++ w ++ [41, 59, 10] ++ y) := rfl
  conv => lhs; rw [show f + [LStmt.alias v w].length = f + 1 from rfl]; unfold loads
  rw [show skipL true (65 :: ([108, 105, 97, 115] ++ ([32, 40] ++ v ++ [44, 32] ++ w ++ [41, 59, 10] ++ y))) =
    (true, 65 :: ([108, 105, 97, 115] ++ ([32, 40] ++ v ++ [44, 32] ++ w ++ [41, 59, 10] ++ y))) from rfl]
  dsimp only
  rw [if_neg (by decide), hn]
  simp only [Option.bind_eq_bind, Option.bind_some]
  rw [if_pos trivial, aliasOf_eq hv hw]
  simp only [Option.bind_some]
  rw [loads_newline]
  cases loads f true true y <;> rfl

/-- the program -/
theorem lreads_program {t input : Str} {l : List LStmt} (h : LReads t l) (i0 : input ≠ []) (i32 : (32 : UInt8) ∉ input) (i10 : (10 : UInt8) ∉ input) :
    loadProgram (sGdxIn ++ input ++ [10] ++ sOnEmpty ++ sEolCom ++ t ++ sOffEmpty) = some (.gdxIn input :: l) := by
  have e : sGdxIn ++ input ++ [10] ++ sOnEmpty ++ sEolCom ++ t ++ sOffEmpty =
      10 :: ((wGdxIn ++ 32 :: input) ++ 10 :: (wOnEmpty ++ 10 :: (wOffEolCom ++ 10 :: (wEolCom ++ 10 :: (t ++ sOffEmpty))))) := by
    simp [sGdxIn, sOnEmpty, sEolCom, wGdxIn, wOnEmpty, wOffEolCom, wEolCom]
  have key : loads (2 + l.length + 1 + 1 + 1 + 1) true false (uncomment true false (sGdxIn ++ input ++ [10] ++ sOnEmpty ++ sEolCom ++ t ++ sOffEmpty)) = some (.gdxIn input :: l) := by
    have h1 := h.2 2 sOffEmpty
    have h2 : loads 2 true true (noEol false (uncomment true false sOffEmpty)) = some [] := by decide +kernel
    rw [h2] at h1
    rw [e, unc_cons, if_neg (by decide), show ((10 : UInt8) == 10) = true from rfl, unc_line (by
      intro hc
      simp only [List.mem_append, List.mem_cons] at hc
      rcases hc with hc | hc | hc
      · revert hc; decide
      · exact absurd hc (by decide)
      · exact i10 hc) true (fun _ => by simp [wGdxIn]), unc_line (s := wOnEmpty) (by decide) true (by decide), unc_line (s := wOffEolCom) (by decide) true (by decide),
      unc_line (s := wEolCom) (by decide) true (by decide)]
    generalize uncomment true false (t ++ sOffEmpty) = y at h1 ⊢
    have hg := loads_dollar (k := wGdxIn) (w := input) (st := .gdxIn input) (Or.inl ⟨rfl, rfl⟩) i0 i32 i10 0 (2 + l.length + 1 + 1 + 1) false (wOnEmpty ++ 10 :: (wOffEolCom ++ 10 :: (wEolCom ++ 10 :: y)))
    rw [List.replicate_zero, List.append_nil] at hg
    rw [loads_newline, hg]
    have s1 : ∀ r : Str, loads (2 + l.length + 1 + 1 + 1) true false (wOnEmpty ++ 10 :: r) = loads (2 + l.length + 1 + 1) false false (10 :: r) := by
      intro r
      obtain ⟨t1, t2⟩ := line_take (l := wOnEmpty) (r := r) (by decide)
      conv => lhs; unfold loads
      rw [show skipL true (wOnEmpty ++ 10 :: r) = (true, 36 :: ([111, 110, 69, 109, 112, 116, 121] ++ 10 :: r)) from rfl]
      dsimp only
      rw [if_pos rfl, if_neg (by decide)]
      have t1 : (36 :: ([111, 110, 69, 109, 112, 116, 121] ++ 10 :: r)).takeWhile (· != 10) = wOnEmpty := t1
      have t2 : (36 :: ([111, 110, 69, 109, 112, 116, 121] ++ 10 :: r)).dropWhile (· != 10) = 10 :: r := t2
      rw [t1, t2, if_pos (Or.inl rfl)]
    have s2 : ∀ r : Str, loads (2 + l.length + 1 + 1) true false (wOffEolCom ++ 10 :: r) = loads (2 + l.length + 1) false false (10 :: r) := by
      intro r
      obtain ⟨t1, t2⟩ := line_take (l := wOffEolCom) (r := r) (by decide)
      conv => lhs; unfold loads
      rw [show skipL true (wOffEolCom ++ 10 :: r) = (true, 36 :: ([111, 102, 102, 69, 111, 108, 67, 111, 109] ++ 10 :: r)) from rfl]
      dsimp only
      rw [if_pos rfl, if_neg (by decide)]
      have t1 : (36 :: ([111, 102, 102, 69, 111, 108, 67, 111, 109] ++ 10 :: r)).takeWhile (· != 10) = wOffEolCom := t1
      have t2 : (36 :: ([111, 102, 102, 69, 111, 108, 67, 111, 109] ++ 10 :: r)).dropWhile (· != 10) = 10 :: r := t2
      rw [t1, t2, if_neg (by decide), if_pos ⟨rfl, rfl⟩]
    have s3 : ∀ r : Str, loads (2 + l.length + 1) true false (wEolCom ++ 10 :: r) = loads (2 + l.length) false true (noEol false (10 :: r)) := by
      intro r
      obtain ⟨t1, t2⟩ := line_take (l := wEolCom) (r := r) (by decide)
      conv => lhs; unfold loads
      rw [show skipL true (wEolCom ++ 10 :: r) = (true, 36 :: ([101, 111, 108, 67, 111, 109, 32, 33, 33] ++ 10 :: r)) from rfl]
      dsimp only
      rw [if_pos rfl, if_neg (by decide)]
      have t1 : (36 :: ([101, 111, 108, 67, 111, 109, 32, 33, 33] ++ 10 :: r)).takeWhile (· != 10) = wEolCom := t1
      have t2 : (36 :: ([101, 111, 108, 67, 111, 109, 32, 33, 33] ++ 10 :: r)).dropWhile (· != 10) = 10 :: r := t2
      rw [t1, t2, if_neg (by decide), if_neg (by decide), if_pos ⟨rfl, rfl⟩]
    rw [s1, loads_newline, s2, loads_newline, s3, noEol_newline, loads_newline, h1]
    simp
  unfold loadProgram
  refine loads_mono key ?_
  rw [e]
  simp only [List.length_append, List.length_cons]
  have := h.1
  omega

theorem written_load {o : GOpt} {z : Cz} {fuel : Nat} {a : Gx} {P : Int → List LStmt → Prop} : ∀ (k : Nat) (n : Int),
    (∀ i : Nat, i < k → ∃ t l, writeSymbol o z fuel a (n + i) = .ok (a, t) ∧ LReads t l ∧ P (n + i) l) →
    ∃ ts ls, allSymbols o z fuel k a n = .ok (a, ts.flatten) ∧ List.Forall₂ LReads ts ls ∧ ls.length = k ∧ ∀ i : Nat, i < k → ∃ l, ls[i]? = some l ∧ P (n + i) l := by
  intro k
  induction k with
  | zero =>
    intro n _
    exact ⟨[], [], rfl, .nil, rfl, fun i hi => absurd hi (by omega)⟩
  | succ k ih =>
    intro n h
    obtain ⟨t, l, h1, h4, h5⟩ := h 0 (by omega)
    rw [show n + ((0 : Nat) : Int) = n by simp] at h1 h5
    obtain ⟨ts, ls, i1, i2, i3, i4⟩ := ih (n + 1) (by
      intro i hi
      have := h (i + 1) (by omega)
      rw [show n + ((i + 1 : Nat) : Int) = n + 1 + i by push_cast; omega] at this
      exact this)
    refine ⟨t :: ts, l :: ls, ?_, .cons h4 i2, by simp [i3], ?_⟩
    · unfold allSymbols
      rw [h1, Res.bind_ok]
      dsimp only
      rw [i1]
      rfl
    · intro i hi
      cases i with
      | zero => exact ⟨l, rfl, by rw [show n + ((0 : Nat) : Int) = n by simp]; exact h5⟩
      | succ i =>
        obtain ⟨l', e1, e2⟩ := i4 i (by omega)
        exact ⟨l', e1, by rw [show n + ((i + 1 : Nat) : Int) = n + 1 + i by push_cast; omega]; exact e2⟩

/-- C83 for files of the library without acronyms, in whatever way they were written: with NoData gdxdump writes a program that names the file, and then, for every symbol in the order of the
    file, declares it and loads its data from the file; an alias is only declared. What is missing: symbols with comments (`C83_comment`), explanatory texts with `!!` (`C83_bang`),
    files with acronyms (`C83_acronyms`), names of files with blanks. -/
theorem C83_own_partial {o : GOpt} (ho : o.showHdr = true) (hdat : o.data = false) {e : Env} {z : Cz} (hz : z.Good) {g : Gx} {syms : List Sym} {R : Nat → List RawEntry} {f : List UInt8}
    (h : OwnFile e z g syms R f) (hacr : g.acros = some [])
    (hsy : ∀ s ∈ syms, (s.typ ≤ 3 ∨ s.typ = dtAlias) ∧ s.comments = [] ∧ ∀ a b, s.expl ≠ a ++ 33 :: 33 :: b)
    {input : Str} (i0 : input ≠ []) (i32 : (32 : UInt8) ∉ input) (i10 : (10 : UInt8) ∉ input) :
    ∃ a, openRead z Gx.new (.content f) = .ok (a, (true, 0)) ∧ ∀ fuel, 0 < fuel →
      ∃ t ls, dumpAll o z fuel input a = .ok (a, t) ∧ loadProgram t = some (.gdxIn input :: ls.flatten) ∧ List.Forall₂ (LoadsOf a) syms ls := by
  obtain ⟨a, P, a1, _, a3, _⟩ := h.content hz
  refine ⟨a, a1, fun fuel hf => ?_⟩
  have fi := h.hist.fine hz
  have are : Reopened 0 g f a := by
    obtain ⟨g', k, hcl, rfl⟩ := h.close
    obtain ⟨a', b1, b2, b3⟩ := close_open hz fi.inv h.mode (fi.stat h.mode) hcl h.fits h.len Gx.new rfl 0
    rw [show openReadXX z Gx.new (.content g'.file) 0 = openRead z Gx.new (.content g'.file) from rfl, a1] at b1
    cases b1
    exact b2
  have hsyms := fi.inv.tab.syms syms h.full.names
  have hat : ∀ {k : Nat} {y : Sym}, syms[k]? = some y → a.symAt ((k : Int) + 1) = some y.reopened := by
    intro k y hk
    have hlt := (List.getElem?_eq_some_iff.mp hk).1
    unfold Gx.symAt
    rw [a3]
    simp only [List.length_map]
    rw [if_pos (by omega), show ((k : Int) + 1 - 1).toNat = k by omega, List.getElem?_map, hk]
    rfl
  have hw : ∀ i : Nat, i < syms.length → ∃ t l, writeSymbol o z fuel a (1 + (i : Int)) = .ok (a, t) ∧ LReads t l ∧ ∀ s, syms[(1 + (i : Int) - 1).toNat]? = some s → LoadsOf a s l := by
    intro i hi
    have hs := List.getElem?_eq_getElem hi
    have hmem : syms[i] ∈ syms := List.getElem_mem hi
    generalize syms[i] = s at hs hmem
    have hi1 : (1 + (i : Int) - 1).toNat = i := by omega
    rw [show 1 + (i : Int) = (i : Int) + 1 by omega] at hi1 ⊢
    rw [hi1]
    obtain ⟨s1, s2, s3⟩ := hsy s hmem
    have hok := hsyms.each i s hs
    have hnr : ((i : Int) + 1) ≠ 0 := by omega
    have hi0 : symbolInfo a ((i : Int) + 1) = ⟨true, s.name, s.dim, s.typ⟩ := by
      unfold symbolInfo
      rw [if_neg hnr, hat hs]
      rfl
    have hx0 : ∃ n, symbolInfoX a ((i : Int) + 1) = ⟨true, n, s.userInfo, s.expl⟩ := by
      unfold symbolInfoX
      rw [if_neg hnr, hat hs]
      exact ⟨_, rfl⟩
    obtain ⟨n, hx0⟩ := hx0
    have hcom : comments a ((i : Int) + 1) fuel 1 = .ok [] := by
      have := comments_ok (hat hs) (cs := []) (by exact s2) fuel 0 (by simpa using hf) (by simp)
      simpa using this
    rcases s1 with s1 | s1
    · have hh : HeadOk a ((i : Int) + 1) s.reopened := by
        refine ⟨hat hs, s1, hok.good, hok.dim, ?_, hok.expl.2.2⟩
        intro l hl
        obtain ⟨l1, l2⟩ := hok.dsy l hl
        refine ⟨l1, fun d hd => ?_⟩
        obtain ⟨d1, d2⟩ := l2 d hd
        by_cases hd0 : d ≤ 0
        · exact Or.inl hd0
        · right
          have hdl : (d - 1).toNat < syms.length := by omega
          have he : d = (((d - 1).toNat : Nat) : Int) + 1 := by omega
          refine ⟨(syms[(d - 1).toNat]).reopened, ?_, (hsyms.each _ _ (List.getElem?_eq_getElem hdl)).good⟩
          have := hat (List.getElem?_eq_getElem hdl)
          rw [← he] at this
          exact this
      obtain ⟨ds, e1, e2, e3, e4⟩ := head_of hh hi0 (by rw [hx0]; rfl) (sub := (subType s.typ s.userInfo).2)
      obtain ⟨l, r1, r2⟩ := lreads_decl hh s3 e2 e3 e4 (decide (n = 0))
      have hna : s.typ ≠ dtAlias := by
        unfold dtAlias
        omega
      refine ⟨_, l, ?_, r1, fun s' hs' => ?_⟩
      · unfold writeSymbol
        rw [hi0, hx0]
        dsimp only
        rw [if_pos ho, e1]
        simp only [Res.bind_ok, Res.pure_eq, hdat, and_false, Bool.false_eq_true, if_false]
        rw [hcom]
        simp only [Res.bind_ok, if_true, if_neg hna, List.append_nil]
        rfl
      · rw [hs] at hs'
        cases hs'
        exact r2
    · have hw : ∃ w, IsDom w ∧ (s.userInfo = 0 ∧ w = [42] ∨ s.userInfo ≠ 0 ∧ ∃ q, a.symAt s.userInfo = some q ∧ w = q.name) := by
        rcases hok.ali s1 with ⟨u1, _⟩ | ⟨m, t, m1, m2, m3, _⟩
        · exact ⟨[42], Or.inl rfl, Or.inl ⟨u1, rfl⟩⟩
        · refine ⟨t.name, Or.inr (hsyms.each m t m3).good, Or.inr ⟨by omega, t.reopened, ?_, rfl⟩⟩
          rw [m2]
          exact hat m3
      obtain ⟨w, w1, w2⟩ := hw
      have hw' : (if s.userInfo = 0 then star else (symbolInfo a s.userInfo).name) = w := by
        rcases w2 with ⟨h1, rfl⟩ | ⟨h1, q, h2, rfl⟩
        · rw [if_pos h1]; rfl
        · rw [if_neg h1]
          unfold symbolInfo
          rw [if_neg h1, h2]
      refine ⟨_, [.alias s.name w], ?_, lreads_alias hok.good w1, fun s' hs' => ?_⟩
      · unfold writeSymbol gHead
        rw [hi0, hx0, s1]
        dsimp only
        rw [if_pos ho, if_pos rfl, hw']
        simp only [Res.bind_ok, Res.pure_eq, hdat, and_false, Bool.false_eq_true, if_false]
        rw [hcom]
        simp [Res.bind_ok, subType, typName, dtAlias, dtSet, dtVar, dtEqu, dtPar]
      · rw [hs] at hs'
        cases hs'
        exact Or.inr ⟨s1, w, rfl, w2⟩
  obtain ⟨ts, ls, r1, r2, r3, r4⟩ := written_load (P := fun nr l => ∀ s, syms[(nr - 1).toNat]? = some s → LoadsOf a s l) syms.length 1 hw
  refine ⟨sGdxIn ++ input ++ [10] ++ sOnEmpty ++ sEolCom ++ ts.flatten ++ sOffEmpty, ls, ?_, lreads_program (lreads_all r2) i0 i32 i10, ?_⟩
  · have hn : (systemInfo a).1.toNat = syms.length := by
      unfold systemInfo
      rw [a3]
      simp
    have hac : writeAcronyms a = .ok [] := by
      obtain ⟨al, al1, al2⟩ := are.acros
      rw [hacr] at al1
      cases al1
      unfold writeAcronyms
      rw [if_pos (by unfold acronymCount; rw [al2]; simp)]
    unfold dumpAll
    rw [hac, Res.bind_ok, hn, r1]
    simp [Res.pure_eq, hdat]
  · rw [List.forall₂_iff_get]
    refine ⟨r3.symm, fun i h1 h2 => ?_⟩
    obtain ⟨l, e1, e2⟩ := r4 i h1
    have hi1 : (1 + (i : Int) - 1).toNat = i := by omega
    have := e2 syms[i] (by rw [hi1]; exact List.getElem?_eq_getElem h1)
    obtain ⟨_, e3⟩ := List.getElem?_eq_some_iff.mp e1
    simp only [List.get_eq_getElem]
    rw [e3]
    exact this

/-! ## examples -/

/-- what gdxdump writes for the file `a.gdx` that the calls write, and the program that is read from it -/
def loadOf (o : GOpt) (cs : List Call) : Res (Str × Option (List LStmt)) := do
  let f ← fileOf cs
  let (a, _) ← openRead Cz.id Gx.new (.content f)
  let (_, t) ← dumpAll o Cz.id 100 [97, 46, 103, 100, 120] a
  pure (t, loadProgram t)

/-- the set `i` (`the set!`) with an element; the parameter `p(i,*)` (`5/6`) without records; the scalar `s`; the alias `j` of `i` -/
def exLoad : List Call :=
  [.openWrite false 0 [65] 0, .strStart [105] [116, 104, 101, 32, 115, 101, 116, 33] 1 0 0, .writeStr [[97, 32, 98]] [0], .writeDone, .strStart [112] [53, 47, 54] 2 1 0, .setDomain [[105], [42]],
   .writeDone, .strStart [115] [] 0 1 0, .writeStr [] [0], .writeDone, .addAlias [106] [105]]

/-- `Set i(*) the set! ;`, `$loadDC i`; `Parameter p(i,*) '5/6' ; !!empty`, `$loadDC p !!empty`; `Scalar s ;`, `$loadDC s`; `Alias (j, i);` -/
example : loadOf { exGOpt with data := false } exLoad = .ok (sGdxIn ++ [97, 46, 103, 100, 120, 10] ++ sOnEmpty ++ sEolCom ++
      [10, 83, 101, 116, 32, 105, 40, 42, 41, 32, 116, 104, 101, 32, 115, 101, 116, 33, 32, 59, 10, 36, 108, 111, 97, 100, 68, 67, 32, 105, 10] ++
      [10, 80, 97, 114, 97, 109, 101, 116, 101, 114, 32, 112, 40, 105, 44, 42, 41, 32, 39, 53, 47, 54, 39, 32, 59, 32, 33, 33, 101, 109, 112, 116, 121, 10] ++
      [36, 108, 111, 97, 100, 68, 67, 32, 112, 32, 33, 33, 101, 109, 112, 116, 121, 10] ++
      [10, 83, 99, 97, 108, 97, 114, 32, 115, 32, 59, 10, 36, 108, 111, 97, 100, 68, 67, 32, 115, 10] ++
      [10, 65, 108, 105, 97, 115, 32, 40, 106, 44, 32, 105, 41, 59, 10] ++ sOffEmpty,
    some [.gdxIn [97, 46, 103, 100, 120],
      .decl ⟨[[83, 101, 116]], [105], [[42]], [116, 104, 101, 32, 115, 101, 116, 33], []⟩, .load [105],
      .decl ⟨[[80, 97, 114, 97, 109, 101, 116, 101, 114]], [112], [[105], [42]], [53, 47, 54], []⟩, .load [112],
      .decl ⟨[[83, 99, 97, 108, 97, 114]], [115], [], [], []⟩, .load [115],
      .alias [106] [105]]) := by decide +kernel

/-- the set `i` with the comment `c` -/
def exLoadComment : List Call := [.openWrite false 0 [65] 0, .strStart [105] [] 1 0 0, .writeStr [[97]] [0], .writeDone, .addComment 1 [99]]

/-- C83 fails for symbols with comments: a comment is written behind the header in the same line (`Set i(*)* c`), and then ` ;` begins the next line. What is read as the text of the set
    is `* c`, though the set has no text. -/
theorem C83_comment : loadOf { exGOpt with data := false } exLoadComment = .ok (sGdxIn ++ [97, 46, 103, 100, 120, 10] ++ sOnEmpty ++ sEolCom ++
      [10, 83, 101, 116, 32, 105, 40, 42, 41, 42, 32, 99, 10, 32, 59, 10, 36, 108, 111, 97, 100, 68, 67, 32, 105, 10] ++ sOffEmpty,
    some [.gdxIn [97, 46, 103, 100, 120], .decl ⟨[[83, 101, 116]], [105], [[42]], [42, 32, 99], []⟩, .load [105]]) := by decide +kernel

/-- the set `i` with the text `oh!! no` -/
def exLoadBang : List Call := [.openWrite false 0 [65] 0, .strStart [105] [111, 104, 33, 33, 32, 110, 111] 1 0 0, .writeStr [[97]] [0], .writeDone]

/-- C83 fails for explanatory texts with `!!`: gdxdump declares these two characters as the beginning of a comment, but does not quote a text with them. What follows in the line is a
    comment, also the `;`, and no program is read. -/
theorem C83_bang : loadOf { exGOpt with data := false } exLoadBang = .ok (sGdxIn ++ [97, 46, 103, 100, 120, 10] ++ sOnEmpty ++ sEolCom ++
      [10, 83, 101, 116, 32, 105, 40, 42, 41, 32, 111, 104, 33, 33, 32, 110, 111, 32, 59, 10, 36, 108, 111, 97, 100, 68, 67, 32, 105, 10] ++ sOffEmpty, none) := by decide +kernel

/-- C83 fails for files with acronyms, as C80 does: `Acronym ;` has no name. -/
theorem C83_acronyms : loadOf { exGOpt with data := false } [.openWrite false 0 [65] 0, .acronymAdd [97, 98] [] 1] =
    .ok (sGdxIn ++ [97, 46, 103, 100, 120, 10] ++ [10, 65, 99, 114, 111, 110, 121, 109, 32, 59, 10] ++ sOnEmpty ++ sEolCom ++ sOffEmpty, none) := by decide +kernel

#print axioms C83_own_partial
#print axioms C83_acronyms
#print axioms C83_comment
#print axioms C83_bang

end Gdx.Props
