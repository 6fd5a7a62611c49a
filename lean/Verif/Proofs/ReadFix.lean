import Verif.Proofs.Reading
import Verif.Proofs.Evo

/-!
What the raw and the strict mapped readers leave as it is, whatever the file holds: everything but the position in the file. (Automatic
numbers for acronyms are not switched on.)
-/

namespace Gdx

/-- the part of an object that reading does not change -/
structure Fixed where
  names : Option (List Sym)
  file : List UInt8
  opn : Bool
  ver : Int
  filt : Option (List Filt)
  acros : Option (List Acr)
  auto : Int
  mapText : Option (List Int)
  texts : Option (List (Str × Int))
  orig : Int
  sv : SVTab
  rsv : SVTab
  nan : Bool
  nrm : Int
  uel : Option (List (Str × Int) × IntMap)
  strs : Option (List Str)

def Gx.fixed (g : Gx) : Fixed :=
  ⟨g.names, g.file, g.opened, g.verRead, g.filters, g.acros, g.nextAuto, g.mapText, g.texts, g.uelOrig, g.sv, g.rsv, g.acrNaN, g.nrMapped,
    g.uel.map fun u => (u.ents, u.usr), g.domStrs⟩

/-- no position asks for new user numbers -/
def Gx.noGrow (g : Gx) : Prop := DAct.expand ∉ g.doms

/-- the two objects agree but for what reading changes -/
structure RFix (g g' : Gx) : Prop where
  fix : g'.fixed = g.fixed
  doms : g'.doms = g.doms

theorem RFix.refl (g : Gx) : RFix g g := ⟨rfl, rfl⟩

theorem RFix.trans {a b c : Gx} (h : RFix a b) (h' : RFix b c) : RFix a c := ⟨h'.fix.trans h.fix, h'.doms.trans h.doms⟩

theorem RFix.auto {g g' : Gx} (h : g'.fixed = g.fixed) : g'.nextAuto = g.nextAuto := congrArg Fixed.auto h

theorem remapIndex_fix {g g' : Gx} {n k : Int} (ha : g.nextAuto ≤ 0) (h : remapIndex g n = .ok (g', k)) : g' = g := by
  unfold remapIndex at h
  obtain ⟨l, _, h⟩ := Res.bind_eq_ok.mp h
  split at h
  · rw [if_pos ha] at h
    cases h
    rfl
  · obtain ⟨a, _, h⟩ := Res.bind_eq_ok.mp h
    split at h
    · cases h
      rfl
    · cases h
      rfl

theorem readVal_fix {g g' : Gx} {v : SVal} {x : Dbl} (ha : g.nextAuto ≤ 0) (h : readVal g v = .ok (g', x)) : g' = g := by
  unfold readVal at h
  split at h
  · cases h
    rfl
  · split at h
    · unfold acronymRemap at h
      split at h
      · cases h
        rfl
      · split at h
        · cases h
          rfl
        · obtain ⟨org, _, h⟩ := Res.bind_eq_ok.mp h
          obtain ⟨⟨g1, k⟩, h1, h⟩ := Res.bind_eq_ok.mp h
          cases h
          exact remapIndex_fix ha h1
    · cases h
      rfl

theorem readVals_fix {vs : List SVal} : ∀ {g g' : Gx} {xs : List Dbl}, g.nextAuto ≤ 0 → readVals g vs = .ok (g', xs) → g' = g := by
  induction vs with
  | nil =>
    intro g g' xs _ h
    cases h
    rfl
  | cons v vs ih =>
    intro g g' xs ha h
    unfold readVals at h
    obtain ⟨⟨g1, x⟩, h1, h⟩ := Res.bind_eq_ok.mp h
    obtain ⟨⟨g2, ys⟩, h2, h⟩ := Res.bind_eq_ok.mp h
    cases h
    have e1 := readVal_fix ha h1
    subst e1
    exact ih ha h2

theorem doRead_fix {g g' : Gx} {r : Option (Nat × List Dbl)} (ha : g.nextAuto ≤ 0) (h : doRead g = .ok (g', r)) : RFix g g' := by
  unfold doRead at h
  split at h
  · split at h
    · cases h
    · split at h
      · cases h
        exact ⟨rfl, rfl⟩
      · cases h
        exact ⟨rfl, rfl⟩
  · obtain ⟨s, _, h⟩ := Res.bind_eq_ok.mp h
    split at h
    · cases h
      exact ⟨rfl, rfl⟩
    · obtain ⟨⟨o, rest⟩, _, h⟩ := Res.bind_eq_ok.mp h
      dsimp only at h
      split at h
      · cases h
        exact ⟨rfl, rfl⟩
      · obtain ⟨⟨g1, vals⟩, h1, h⟩ := Res.bind_eq_ok.mp h
        obtain ⟨vs, _, h⟩ := Res.bind_eq_ok.mp h
        cases h
        have e1 := readVals_fix (g := { g with rest := rest }) ha h1
        subst e1
        exact ⟨rfl, rfl⟩

theorem addErrDom_fix (g : Gx) (k : List Int) (v : List Dbl) : RFix g (addErrDom g k v) := by
  unfold addErrDom
  dsimp only
  split
  · exact ⟨rfl, rfl⟩
  · split <;> exact ⟨rfl, rfl⟩

theorem transPos_strict {u : Uel} {a : DAct} {e : Int} {p : PosOut} (ha : a ≠ .expand) (h : transPos u a e = .ok p) : p ≠ .new := by
  unfold transPos at h
  cases a with
  | unmapped =>
    cases h
    simp
  | expand => exact absurd rfl ha
  | strict =>
    obtain ⟨v, _, h⟩ := Res.bind_eq_ok.mp h
    cases h
    split <;> simp
  | filter f =>
    obtain ⟨v, _, h⟩ := Res.bind_eq_ok.mp h
    cases h
    split <;> simp

theorem mapScan_strict {u : Uel} {hi : Bool} : ∀ {as : List DAct} {d : Nat} {es os l : List Int} {s : Option (Bool × Nat)} {n : Bool},
    DAct.expand ∉ as → mapScan u hi d as es os = .ok (l, s, n) → n = false
  | [], d, es, os, l, s, n, _, h => by
    unfold mapScan at h
    cases h
    rfl
  | a :: as, d, [], os, l, s, n, _, h => by
    unfold mapScan at h
    cases h
    rfl
  | a :: as, d, e :: es, [], l, s, n, _, h => by
    unfold mapScan at h
    cases h
    rfl
  | a :: as, d, e :: es, o :: os, l, s, n, ha, h => by
    unfold mapScan at h
    split at h
    · cases h
      rfl
    · obtain ⟨p, h1, h⟩ := Res.bind_eq_ok.mp h
      have hp := transPos_strict (fun hc => ha (by rw [hc]; simp)) h1
      cases p with
      | err =>
        cases h
        rfl
      | key v =>
        obtain ⟨⟨l1, s1, n1⟩, h2, h⟩ := Res.bind_eq_ok.mp h
        cases h
        exact mapScan_strict (fun hc => ha (by simp [hc])) h2
      | new => exact absurd rfl hp

theorem drop_strict {as : List DAct} (h : DAct.expand ∉ as) (n : Nat) : DAct.expand ∉ as.drop n := fun hc => h (List.mem_of_mem_drop hc)

theorem scanKey_strict {u : Uel} {g : Gx} {fd : Nat} {key l : List Int} {s : Option (Bool × Nat)} {n : Bool} (ha : g.noGrow)
    (h : scanKey u g fd key = .ok (l, s, n)) : n = false := by
  unfold scanKey at h
  split at h
  · cases h
    rfl
  · obtain ⟨⟨l1, s1, n1⟩, h1, h⟩ := Res.bind_eq_ok.mp h
    cases h
    exact mapScan_strict (drop_strict ha _) h1

theorem RFix.noGrow {g g' : Gx} (h : RFix g g') (ha : g.noGrow) : g'.noGrow := by
  unfold Gx.noGrow
  rw [h.doms]
  exact ha

theorem RFix.uel_self {g : Gx} {u : Uel} (h : g.uel = some u) : ({ g with uel := some u } : Gx) = g := by
  rw [← h]

theorem streamMap_fix : ∀ {fuel : Nat} {g g' : Gx} {key : List Int} {fi : Nat} {r : Option (RecOut Int)}, g.nextAuto ≤ 0 → g.noGrow →
    streamMap fuel g key fi false = .ok (g', r) → RFix g g'
  | 0, _, _, _, _, _, _, _, h => by cases h
  | fuel + 1, g, g', key, fi, r, ha, hn, h => by
    unfold streamMap at h
    obtain ⟨⟨g1, o⟩, h1, h⟩ := Res.bind_eq_ok.mp h
    have f1 := doRead_fix ha h1
    have ha1 : g1.nextAuto ≤ 0 := by
      rw [RFix.auto f1.fix]
      exact ha
    have hn1 := f1.noGrow hn
    dsimp only at h
    split at h
    · cases h
      exact f1
    · obtain ⟨u, hu, h⟩ := Res.bind_eq_ok.mp h
      obtain ⟨⟨l, s, nw⟩, h2, h⟩ := Res.bind_eq_ok.mp h
      have e2 := scanKey_strict hn1 h2
      subst e2
      dsimp only at h
      split at h
      · cases h
        exact ⟨f1.fix, f1.doms⟩
      · obtain ⟨⟨bad, ok⟩, h3, h⟩ := Res.bind_eq_ok.mp h
        dsimp only at h
        split at h
        · cases h
          exact ⟨f1.fix, f1.doms⟩
        · have f2 := addErrDom_fix { g1 with last := bad.map fun e => if e < 0 then -e else e } bad (by assumption)
          have f3 : RFix g1 (addErrDom { g1 with last := bad.map fun e => if e < 0 then -e else e } bad (by assumption)) := ⟨f2.fix, f2.doms⟩
          refine f1.trans (f3.trans (streamMap_fix ?_ ?_ h))
          · rw [RFix.auto f3.fix]
            exact ha1
          · exact f3.noGrow hn1
      · obtain ⟨⟨u2, k2, n2⟩, h3, h⟩ := Res.bind_eq_ok.mp h
        unfold resolveIf at h3
        rw [if_neg (by decide)] at h3
        cases h3
        cases h
        refine f1.trans ⟨?_, rfl⟩
        have hu' : g1.uel = some u := by
          cases hx : g1.uel with
          | none => rw [hx] at hu; cases hu
          | some y => rw [hx] at hu; cases hu; rfl
        unfold Gx.fixed
        simp [hu', deliver]

theorem dataReadMap_fix {g g' : Gx} {key : List Int} {r : Option (RecOut Int)} (ha : g.nextAuto ≤ 0) (hn : g.noGrow)
    (h : dataReadMap g key = .ok (g', r)) : RFix g g' := by
  unfold dataReadMap at h
  rcases chk_cases g [.rMap, .rMapR] with ⟨_, hc⟩ | ⟨_, hc⟩
  · rw [hc] at h
    dsimp only at h
    rw [if_neg (by decide)] at h
    split at h
    · cases h
    · split at h
      · obtain ⟨s, _, h⟩ := Res.bind_eq_ok.mp h
        cases h
        exact ⟨rfl, rfl⟩
      · split at h
        · split at h
          · cases h
            exact ⟨rfl, rfl⟩
          · split at h
            · cases h
            · cases h
              exact ⟨rfl, rfl⟩
          · split at h
            · cases h
            · cases h
              exact ⟨rfl, rfl⟩
        · split at h
          · cases h
          · exact streamMap_fix ha hn h
  · rw [hc] at h
    dsimp only at h
    rw [if_pos rfl] at h
    cases h
    exact ⟨rfl, rfl⟩

theorem sortAdd_fix {g g' : Gx} {k : List Int} {v : List Dbl} (h : sortAdd g k v = .ok g') : RFix g g' := by
  unfold sortAdd at h
  obtain ⟨s, _, h⟩ := Res.bind_eq_ok.mp h
  split at h
  · cases h
  · obtain ⟨s2, _, h⟩ := Res.bind_eq_ok.mp h
    cases h
    exact ⟨rfl, rfl⟩

theorem need_some {α : Type} {o : Option α} {a : α} (h : need o = .ok a) : o = some a := by
  cases o with
  | none => cases h
  | some b => cases h; rfl

theorem mapRecord_fix {g g' : Gx} {m m' : MapLoop} {vals : List Dbl} {stop : Option (Bool × Nat)} {b : Bool} (hm : m.addNew = false)
    (h : mapRecord g m vals stop = .ok (g', m', b)) : RFix g g' ∧ m'.addNew = false := by
  unfold mapRecord at h
  split at h
  · cases h
    exact ⟨⟨rfl, rfl⟩, hm⟩
  · dsimp only at h
    split at h
    · cases h
      have f := addErrDom_fix (g.raise Err.badElementIndex) ((g.raise Err.badElementIndex).last.modify (by assumption) (- ·)) vals
      exact ⟨⟨f.fix, f.doms⟩, hm⟩
    · cases h
      exact ⟨addErrDom_fix _ _ _, hm⟩
  · obtain ⟨u, hu, h⟩ := Res.bind_eq_ok.mp h
    obtain ⟨⟨u2, els, n⟩, h2, h⟩ := Res.bind_eq_ok.mp h
    unfold resolveIf at h2
    rw [hm, if_neg (by decide)] at h2
    cases h2
    dsimp only at h
    obtain ⟨g2, h3, h⟩ := Res.bind_eq_ok.mp h
    have f := sortAdd_fix h3
    cases h
    refine ⟨⟨f.fix.trans ?_, f.doms⟩, rfl⟩
    unfold Gx.fixed
    simp [need_some hu]

theorem mapLoop_fix : ∀ {fuel : Nat} {g g' : Gx} {m m' : MapLoop}, g.nextAuto ≤ 0 → g.noGrow → m.addNew = false →
    mapLoop fuel g m = .ok (g', m') → RFix g g'
  | 0, _, _, _, _, _, _, _, h => by cases h
  | fuel + 1, g, g', m, m', ha, hn, hm, h => by
    unfold mapLoop at h
    obtain ⟨⟨g1, o⟩, h1, h⟩ := Res.bind_eq_ok.mp h
    have f1 := doRead_fix ha h1
    have ha1 : g1.nextAuto ≤ 0 := by
      rw [RFix.auto f1.fix]
      exact ha
    have hn1 := f1.noGrow hn
    dsimp only at h
    split at h
    · cases h
      exact f1
    · generalize hfd : (if m.fi < _ then m.fi else _) = fd at h
      split at h
      · cases h
      · obtain ⟨u, hu, h⟩ := Res.bind_eq_ok.mp h
        obtain ⟨⟨l, s, nw⟩, h2, h⟩ := Res.bind_eq_ok.mp h
        have e2 := mapScan_strict (drop_strict hn1 _) h2
        subst e2
        obtain ⟨⟨g2, m2, go⟩, h3, h⟩ := Res.bind_eq_ok.mp h
        obtain ⟨f2, hm2⟩ := mapRecord_fix (by simp [hm]) h3
        dsimp only at h
        split at h
        · refine f1.trans (f2.trans (mapLoop_fix ?_ (f2.noGrow hn1) hm2 h))
          rw [RFix.auto f2.fix]
          exact ha1
        · cases h
          exact f1.trans f2

theorem mapStat_core (u : Uel) : (u.mapStat.1.ents, u.mapStat.1.usr) = (u.ents, u.usr) := by
  unfold Uel.mapStat
  split <;> rfl

theorem prepareMapped_fix {g g' : Gx} {nr n : Int} (ha : g.nextAuto ≤ 0) (hn : g.noGrow) (h : prepareMapped g nr = .ok (g', n)) : RFix g g' := by
  unfold prepareMapped at h
  obtain ⟨u, hu, h⟩ := Res.bind_eq_ok.mp h
  have hst : ∃ p : Uel × MapStat, (if g.doms.any (· ≠ DAct.unmapped) = true then u.mapStat else (u, MapStat.sortfull)) = p ∧
      (p.1.ents, p.1.usr) = (u.ents, u.usr) := by
    refine ⟨_, rfl, ?_⟩
    split
    · exact mapStat_core u
    · rfl
  obtain ⟨⟨u1, st⟩, hp, hc⟩ := hst
  dsimp only at h
  rw [hp] at h
  dsimp only at h hc
  have f0 : RFix g { g with uel := some u1 } := by
    refine ⟨?_, rfl⟩
    unfold Gx.fixed
    simp only [need_some hu, Option.map_some, hc]
  split at h
  · cases h
    exact ⟨f0.fix, f0.doms⟩
  · obtain ⟨⟨g1, m1⟩, h1, h⟩ := Res.bind_eq_ok.mp h
    have f1 := mapLoop_fix (g := { g with uel := some u1, sort := some LData.empty }) ha hn rfl h1
    obtain ⟨s, _, h⟩ := Res.bind_eq_ok.mp h
    obtain ⟨rs, _, h⟩ := Res.bind_eq_ok.mp h
    obtain ⟨s2, _, h⟩ := Res.bind_eq_ok.mp h
    have f2 : RFix g g1 := ⟨f1.fix.trans f0.fix, f1.doms.trans f0.doms⟩
    dsimp only at h
    split at h
    · cases h
      exact ⟨f2.fix, f2.doms⟩
    · cases h
      exact ⟨f2.fix, f2.doms⟩

theorem prepareData_fix {g g' : Gx} {l : List UInt8} {nr n : Int} {m : Mode} (ha : g.nextAuto ≤ 0) (hn : g.noGrow)
    (h : prepareData g l nr m = .ok (g', n)) : RFix g g' := by
  unfold prepareData at h
  dsimp only at h
  split at h
  · cases h
    exact ⟨rfl, rfl⟩
  · obtain ⟨⟨d, l1⟩, _, h⟩ := Res.bind_eq_ok.mp h
    dsimp only at h
    split at h
    · cases h
      exact ⟨rfl, rfl⟩
    · obtain ⟨⟨d2, l2⟩, _, h⟩ := Res.bind_eq_ok.mp h
      dsimp only at h
      split at h
      · cases h
        exact ⟨rfl, rfl⟩
      · obtain ⟨⟨bs, l3⟩, _, h⟩ := Res.bind_eq_ok.mp h
        dsimp only at h
        split at h
        · have f := prepareMapped_fix (by exact ha) (by exact hn) h
          exact ⟨f.fix, f.doms⟩
        · cases h
          exact ⟨rfl, rfl⟩

theorem dataReadDone_fix {g g' : Gx} {b : Bool} (h0 : g.nrMapped = 0) (h : dataReadDone g = .ok (g', b)) : RFix g g' ∧ g'.mode = .rInit := by
  unfold dataReadDone at h
  rcases chk_cases ({ g with sort := none, cur := .none } : Gx) [.rInit, .rRaw, .rMap, .rMapR, .rStr, .rSlice] with ⟨_, hc⟩ | ⟨_, hc⟩
  · simp only [hc, Bool.true_eq_false, if_false] at h
    rw [if_neg (by simp [h0])] at h
    cases h
    exact ⟨⟨rfl, rfl⟩, rfl⟩
  · simp only [hc, if_true] at h
    cases h
    exact ⟨⟨rfl, rfl⟩, rfl⟩

theorem finishRead_fix {g g' : Gx} (h0 : g.nrMapped = 0) (h : finishRead g = .ok g') : RFix g g' := by
  unfold finishRead at h
  split at h
  · obtain ⟨⟨g1, b⟩, h1, h⟩ := Res.bind_eq_ok.mp h
    cases h
    exact (dataReadDone_fix h0 h1).1
  · cases h
    exact .refl g

theorem domActs_strict {l : List Filt} {acts : List Int} (ha : ∀ a ∈ acts, a = domcUnmapped ∨ a = domcStrict) : ∀ {das : List DAct},
    domActs l acts = some das → DAct.expand ∉ das := by
  induction acts with
  | nil =>
    intro das h
    cases h
    simp
  | cons a as ih =>
    intro das h
    unfold domActs at h
    have key : ∃ x xs, das = x :: xs ∧ x ≠ .expand ∧ domActs l as = some xs := by
      rcases ha a (by simp) with rfl | rfl
      · simp only [if_true, Option.bind_eq_bind, Option.bind_some, Option.bind_eq_some_iff] at h
        obtain ⟨xs, hxs, h⟩ := h
        cases h
        exact ⟨_, _, rfl, by simp, hxs⟩
      · rw [if_neg (by decide), if_neg (by decide), if_pos rfl] at h
        simp only [Option.bind_eq_bind, Option.bind_some, Option.bind_eq_some_iff] at h
        obtain ⟨xs, hxs, h⟩ := h
        cases h
        exact ⟨_, _, rfl, by simp, hxs⟩
    obtain ⟨x, xs, rfl, hx, hxs⟩ := key
    intro hc
    rcases List.mem_cons.mp hc with hc | hc
    · exact hx hc.symm
    · exact ih (fun b hb => ha b (by simp [hb])) hxs hc

/-- the start of reading, without positions that give out new numbers -/
theorem prepareRead_fix {z : Cz} {g g' : Gx} {nr n : Int} {acts : List Int} {m : Mode} (ha : g.nextAuto ≤ 0) (h0 : g.nrMapped = 0)
    (hac : ∀ a ∈ acts, a = domcUnmapped ∨ a = domcStrict) (h : prepareRead z g nr acts m = .ok (g', n)) :
    g'.fixed = g.fixed ∧ (0 ≤ n → g'.noGrow) := by
  unfold prepareRead at h
  obtain ⟨⟨g1, ok⟩, h1, h⟩ := Res.bind_eq_ok.mp h
  have f1 : g1.fixed = g.fixed := by
    unfold prepareStart at h1
    obtain ⟨g2, h2, h1⟩ := Res.bind_eq_ok.mp h1
    have f2 := finishRead_fix h0 h2
    have hz : g2.nrMapped = 0 := by
      rw [show g2.nrMapped = g.nrMapped from congrArg Fixed.nrm f2.fix]
      exact h0
    have f3 : ({ g2 with nrMapped := 0, errList := none, cur := .none, sort := none } : Gx).fixed = g.fixed := by
      rw [← f2.fix]
      unfold Gx.fixed
      dsimp only
      rw [hz]
    dsimp only at h1
    rcases chk_cases ({ g2 with nrMapped := 0, errList := none, cur := .none, sort := none } : Gx) [.rInit] with ⟨_, hc⟩ | ⟨_, hc⟩
    · rw [hc] at h1
      cases h1
      exact f3
    · rw [hc] at h1
      cases h1
      exact f3
  have ha1 : g1.nextAuto ≤ 0 := by
    rw [RFix.auto f1]
    exact ha
  dsimp only at h
  split at h
  · cases h
    exact ⟨f1, fun hn => absurd hn (by decide)⟩
  · obtain ⟨filters, _, h⟩ := Res.bind_eq_ok.mp h
    obtain ⟨syms, _, h⟩ := Res.bind_eq_ok.mp h
    split at h
    · cases h
      exact ⟨f1, fun hn => absurd hn (by decide)⟩
    · obtain ⟨tg, _, h⟩ := Res.bind_eq_ok.mp h
      split at h
      · split at h
        · cases h
        · split at h
          · cases h
            exact ⟨f1, fun hn => absurd hn (by decide)⟩
          · rename_i das hd
            have hx := domActs_strict (fun a h => hac a (List.mem_of_mem_take h)) hd
            split at h
            · have f := prepareMapped_fix (by exact ha1) (by exact hx) h
              exact ⟨f.fix.trans f1, fun _ => f.noGrow hx⟩
            · cases h
              exact ⟨f1, fun _ => hx⟩
      · obtain ⟨s, _, h⟩ := Res.bind_eq_ok.mp h
        split at h
        · cases h
        · split at h
          · cases h
          · split at h
            · cases h
              exact ⟨f1, fun hn => absurd hn (by decide)⟩
            · rename_i das hd
              have hx := domActs_strict (fun a h => hac a (List.mem_of_mem_take h)) hd
              have f := prepareData_fix (by exact ha1) (by exact hx) h
              exact ⟨f.fix.trans f1, fun _ => f.noGrow hx⟩

theorem dataReadMapStart_fix {z : Cz} {g g' : Gx} {nr n : Int} {b : Bool} (ha : g.nextAuto ≤ 0) (h0 : g.nrMapped = 0)
    (h : dataReadMapStart z g nr = .ok (g', (b, n))) : g'.fixed = g.fixed ∧ (b = true → g'.noGrow) := by
  unfold dataReadMapStart at h
  obtain ⟨⟨g1, k⟩, h1, h⟩ := Res.bind_eq_ok.mp h
  cases h
  have := prepareRead_fix ha h0 (fun a h => Or.inr (List.eq_of_mem_replicate h)) h1
  exact ⟨this.1, fun hb => this.2 (of_decide_eq_true hb)⟩

theorem dataReadRawStart_fix {z : Cz} {g g' : Gx} {nr n : Int} {b : Bool} (ha : g.nextAuto ≤ 0) (h0 : g.nrMapped = 0)
    (h : dataReadRawStart z g nr = .ok (g', (b, n))) : g'.fixed = g.fixed ∧ (b = true → g'.noGrow) := by
  unfold dataReadRawStart at h
  obtain ⟨⟨g1, k⟩, h1, h⟩ := Res.bind_eq_ok.mp h
  cases h
  have := prepareRead_fix ha h0 (fun a h => Or.inl (List.eq_of_mem_replicate h)) h1
  exact ⟨this.1, fun hb => this.2 (of_decide_eq_true hb)⟩

theorem dataReadRaw_fix {g g' : Gx} {r : Option (RecOut Int)} (ha : g.nextAuto ≤ 0) (h0 : g.nrMapped = 0)
    (h : dataReadRaw g = .ok (g', r)) : RFix g g' := by
  unfold dataReadRaw at h
  rcases chk_cases g [.rRaw] with ⟨_, hc⟩ | ⟨_, hc⟩
  · rw [hc] at h
    dsimp only at h
    rw [if_neg (by decide)] at h
    obtain ⟨⟨g1, o⟩, h1, h⟩ := Res.bind_eq_ok.mp h
    have f1 := doRead_fix ha h1
    dsimp only at h
    split at h
    · obtain ⟨⟨g2, b⟩, h2, h⟩ := Res.bind_eq_ok.mp h
      cases h
      have hz : g1.nrMapped = 0 := by
        rw [show g1.nrMapped = g.nrMapped from congrArg Fixed.nrm f1.fix]
        exact h0
      exact f1.trans (dataReadDone_fix hz h2).1
    · cases h
      exact f1
  · rw [hc] at h
    dsimp only at h
    rw [if_pos rfl] at h
    cases h
    exact ⟨rfl, rfl⟩

end Gdx
