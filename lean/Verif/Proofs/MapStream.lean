import Verif.Proofs.MapLoop

/-! The streaming mapped reader, call by call. -/

namespace Gdx
open Gdx.Spec

theorem markOne_ok {u : Uel} {a : DAct} {e : Int} (h : 1 ≤ e ∧ e ≤ u.size) : ∃ x, markOne u a e = .ok x ∧ (if x < 0 then -x else x) = e := by
  unfold markOne
  cases a with
  | filter f =>
    simp only [userMap_num h.1 h.2, Res.bind_ok, Res.pure_eq]
    refine ⟨_, rfl, ?_⟩
    split <;> split <;> omega
  | strict =>
    simp only [userMap_num h.1 h.2, Res.bind_ok, Res.pure_eq]
    refine ⟨_, rfl, ?_⟩
    split <;> split <;> omega
  | unmapped => exact ⟨e, rfl, by rw [if_neg (by omega)]⟩
  | expand => exact ⟨e, rfl, by rw [if_neg (by omega)]⟩

theorem markBad_ok {u : Uel} : ∀ (as : List DAct) (es : List Int), InTab u es →
    ∃ l, markBad u as es = .ok (l, true) ∧ (l.map fun e => if e < 0 then -e else e) = es
  | [], es, h => by
    refine ⟨es, by unfold markBad; rfl, ?_⟩
    conv => rhs; rw [← List.map_id es]
    refine List.map_congr_left fun e he => ?_
    have := h e he
    rw [if_neg (by omega)]
    rfl
  | _ :: _, [], _ => ⟨[], rfl, rfl⟩
  | a :: as, e :: es, h => by
    have he := h e (by simp)
    obtain ⟨x, h1, h2⟩ := markOne_ok (a := a) he
    obtain ⟨l, h3, h4⟩ := markBad_ok as es fun x hx => h x (by simp [hx])
    refine ⟨x :: l, ?_, by rw [List.map_cons, h2, h4]⟩
    rw [markBad, if_neg (by omega), h1]
    simp only [Res.bind_ok]
    rw [h3]
    rfl

theorem streamMap_bad {g g1 : Gx} {fd : Nat} {vals : List Dbl} (h : doRead g = .ok (g1, some (fd, vals))) {key : List Int} {fi : Nat} {new : Bool}
    {u : Uel} (hu : g1.uel = some u) {l : List Int} {d : Nat} {nw : Bool}
    (hs : scanKey u g1 (if fi < fd then fi else fd) key = .ok (l, some (false, d), nw)) {bad : List Int}
    (hb : markBad u g1.doms g1.last = .ok (bad, true)) (hb2 : (bad.map fun e => if e < 0 then -e else e) = g1.last) (fuel : Nat) :
    streamMap (fuel + 1) g key fi new = streamMap fuel (addErrDom g1 bad vals) l (d + 1) (new || nw) := by
  rw [streamMap, h]
  simp only [Res.bind_ok]
  rw [hu]
  simp only [need, Res.bind_ok, hs, hb, Bool.true_eq_false, if_false]
  rw [hb2, ← hu]

theorem streamMap_good {g g1 : Gx} {fd : Nat} {vals : List Dbl} (h : doRead g = .ok (g1, some (fd, vals))) {key : List Int} {fi : Nat} {new : Bool}
    {u : Uel} (hu : g1.uel = some u) {l : List Int} {nw : Bool} (hs : scanKey u g1 (if fi < fd then fi else fd) key = .ok (l, none, nw)) (fuel : Nat) :
    streamMap (fuel + 1) g key fi new =
      (resolveIf (new || nw) u l >>= fun x => .ok (deliver { g1 with uel := some x.1, nrMapped := g1.nrMapped + x.2.2 } x.2.1 vals)) := by
  rw [streamMap, h]
  simp only [Res.bind_ok]
  rw [hu]
  simp only [need, Res.bind_ok, hs]
  rfl

theorem doRead_scal (g : Gx) (hs : g.scalarFrst = false) : (doRead g).All fun x => x.1.scalarFrst = false := by
  unfold doRead
  refine (?_ : Res.All _ _)
  split
  · split
    · trivial
    split <;> exact hs
  · refine Res.All.bind' ?_
    intro s _
    rw [if_neg (by rw [hs]; simp)]
    refine Res.All.bind' ?_
    rintro ⟨o, r⟩ hx
    dsimp only
    split
    · exact hs
    · refine Res.All.bind' ?_
      intro y hy
      have h1 := (readVals_step _ _).of_ok hy
      refine Res.All.bind' ?_
      intro w _
      show y.1.scalarFrst = false
      rw [h1]
      exact hs

/-- what a call of the streaming reader does -/
theorem streamMap_spec {g g' : Gx} {outs : List (RecOut Int)} (h : Feeds g outs g') : ∀ {w : Side} {u : Uel} {key : List Int} {fi : Nat} {new : Bool}
    {p : Option (List Int)} {fuel : Nat}, outs.length < fuel → w.uel = some u → MapOk u → g.doms.length = g.nd →
    RecsOk u.size g.nd g.dataSize outs → FrstsOk g.nd p outs → KeyAt u.users (g.doms.map DAct.act) p key fi new →
    (∃ w', streamMap fuel (g.side w) key fi new = .ok (g'.side w', none) ∧ w' = { w with errList := w'.errList } ∧
      mapAll (g.doms.map DAct.act) u.users (recPairs outs) = (u.users, [])) ∨
    (∃ g1 : Gx, ∃ r : RecOut Int, ∃ rs w' u', streamMap fuel (g.side w) key fi new = .ok (deliver (g1.side w') (mapKeys u'.users (g.doms.map DAct.act) r.key) r.vals) ∧
      (RdStep g g1 ∧ (g.scalarFrst = false → g1.scalarFrst = false)) ∧ Feeds g1 rs g' ∧ MapOk u' ∧ u'.size = u.size ∧ u'.strs = u.strs ∧
      w' = { w with errList := w'.errList, uel := some u', nrMapped := w.nrMapped + (u'.usr.highest - u.usr.highest) } ∧
      RecsOk u.size g.nd g.dataSize rs ∧ FrstsOk g.nd (some r.key) rs ∧ rs.length < outs.length ∧
      KeyAt u'.users (g.doms.map DAct.act) (some r.key) (mapKeys u'.users (g.doms.map DAct.act) r.key) g.nd false ∧
      (∀ x ∈ mapKeys u'.users (g.doms.map DAct.act) r.key, 0 ≤ x ∧ x ≤ 2147483646) ∧
      mapAll (g.doms.map DAct.act) u.users (recPairs outs) =
        ((mapAll (g.doms.map DAct.act) u'.users (recPairs rs)).1, (mapKeys u'.users (g.doms.map DAct.act) r.key, r.vals) ::
          (mapAll (g.doms.map DAct.act) u'.users (recPairs rs)).2)) := by
  induction h with
  | @done g g' h =>
    intro w u key fi new p fuel hf hu ho hd hr hfr hk
    obtain ⟨fuel, rfl⟩ : ∃ k, fuel = k + 1 := ⟨fuel - 1, by simp at hf; omega⟩
    refine Or.inl ⟨w, ?_, rfl, rfl⟩
    rw [streamMap, doRead_side_ok h w]
    rfl
  | @next g g1 g' r rs h hl hfeed ih =>
    intro w u key fi new p fuel hf hu ho hd hr hfr hk
    obtain ⟨fuel, rfl⟩ : ∃ k, fuel = k + 1 := ⟨fuel - 1, by simp at hf; omega⟩
    have hst := ((doRead_step _).of_ok h).1
    simp only at hst
    have hnd := hst.nd
    have hdm := hst.doms
    have hds := hst.dataSize
    obtain ⟨hrk, hre, hrv⟩ := hr r (by simp)
    have hrest : RecsOk u.size g.nd g.dataSize rs := fun x hx => hr x (by simp [hx])
    have hal : (g.doms.map DAct.act).length = g.nd := by rw [List.length_map, hd]
    have hf1 : FrstOk (g.doms.map DAct.act).length p r := by rw [hal]; exact hfr.1
    have hA : ∀ a ∈ g.doms.map DAct.act, ActOk a := by
      intro a ha
      obtain ⟨b, _, rfl⟩ := List.mem_map.mp ha
      exact b.ok
    have hE : ∀ e ∈ r.key, 1 ≤ e := fun e he => (hre e he).1
    have hlk : (g.doms.map DAct.act).length = r.key.length := by rw [hal, hrk]
    obtain ⟨d, hdd⟩ : ∃ d, d = (if fi < r.frst then fi else r.frst) - 1 := ⟨_, rfl⟩
    have hsc := hk.scan hf1 hlk.symm hE hA hdd
    have hsk : scanKey u (g1.side w) (if fi < r.frst then fi else r.frst) key =
        .ok (key.take d ++ scanOut u.users ((g.doms.map DAct.act).drop d) (r.key.drop d) (key.drop d),
          ((badAt u.users ((g.doms.map DAct.act).drop d) (r.key.drop d)).map (d + ·)).map (fun k => (false, k)),
          newIn u.users ((g.doms.map DAct.act).drop d) (r.key.drop d)) := by
      unfold scanKey
      by_cases h0 : (if fi < r.frst then fi else r.frst) = 0
      · rw [if_pos h0]
        have hn0 : g.nd = 0 := by
          have h1 := hk.fiOk.1
          have h2 := hf1.1
          rcases h1 with h1 | h1
          · rw [hal] at h2
            by_contra hne
            have h3 : 1 ≤ r.frst := h2.resolve_right hne
            split at h0 <;> omega
          · rw [h1] at hal
            simpa using hal.symm
        have e1 : g.doms.map DAct.act = [] := List.length_eq_zero_iff.mp (hal.trans hn0)
        have e2 : key = [] := List.length_eq_zero_iff.mp (hk.len.trans (hal.trans hn0))
        have e3 : r.key = [] := List.length_eq_zero_iff.mp (hrk.trans hn0)
        rw [e1, e2, e3]
        simp [scanOut, badAt, newIn]
      · rw [if_neg h0]
        dsimp only
        rw [← hdd]
        have hms := mapScan_spec (u := u) (hi := true) (g.doms.drop d) (r.key.drop d) (key.drop d) d
          (fun e he => hre e (List.mem_of_mem_drop he)) (by simp [hd, hrk]) (by simp [hk.len, hd, hrk])
        rw [List.map_drop] at hms
        rw [show (g1.side w).doms = g.doms from hdm, show (g1.side w).last = r.key from hl, hms, Option.map_map]
        rfl
    obtain ⟨bad, hb1, hb2⟩ := markBad_ok (u := u) (g1.side w).doms (g1.side w).last (by rw [show (g1.side w).last = r.key from hl]; exact hre)
    cases hb : badAt u.users ((g.doms.map DAct.act).drop d) (r.key.drop d) with
    | some k =>
      obtain ⟨q1, q2⟩ := hsc.2 k hb
      obtain ⟨l, hl2⟩ := addErrDom_side g1 w bad r.vals
      rw [hb] at hsk
      rw [streamMap_bad (g := g.side w) (doRead_side_ok h w) (u := u) hu hsk hb1 hb2 fuel, hl2]
      have hma : mapAll (g.doms.map DAct.act) u.users (recPairs (r :: rs)) = mapAll (g.doms.map DAct.act) u.users (recPairs rs) := by
        simp only [recPairs, List.map_cons, mapAll, q1, Bool.false_eq_true, if_false]
      rw [hma]
      rcases ih (w := { w with errList := l }) (p := some r.key) (fuel := fuel) (by simp at hf; omega) hu ho (by rw [hdm, hnd]; exact hd)
        (by rw [hnd, hds]; exact hrest) (by rw [hnd]; exact hfr.2) (by rw [hdm]; exact q2) with
        ⟨w', c1, c2, c3⟩ | ⟨g2, r2, rs2, w', u', c1, c2, c3, c4, c5, c6, c7, c8, c9, c10, c11, c12, c13⟩
      · rw [hdm] at c3
        exact Or.inl ⟨w', c1, c2, c3⟩
      · rw [hdm] at c1 c11 c12 c13
        rw [hnd] at c8 c9 c11
        rw [hds] at c8
        exact Or.inr ⟨g2, r2, rs2, w', u', c1, ⟨hst.trans c2.1, fun hs => c2.2 ((doRead_scal _ hs).of_ok h)⟩, c3, c4, c5, c6, c7, c8, c9, by simp only [List.length_cons]; omega, c11, c12, c13⟩
    | none =>
      obtain ⟨q1, q2, q3⟩ := hsc.1 hb
      obtain ⟨u1, n, e1, e2, e3, e4, e5, e6⟩ := resolve_spec ho hlk hre hA q1 q3
      have hk0 : 0 ≤ u.users.hi := ho.hi
      obtain ⟨k1, k2⟩ := mapKeys_ok (u := u) e3 hlk hA (fun e he => by rw [e4]; exact hre e he) hk0 q1 e2
      have hct := complete_trans hlk hA hE hk0 q1
      rw [hb] at hsk
      rw [streamMap_good (g := g.side w) (doRead_side_ok h w) (u := u) hu hsk fuel, q2, e1]
      simp only [Res.bind_ok]
      refine Or.inr ⟨g1, r, rs, { w with uel := some u1, nrMapped := w.nrMapped + n }, u1, rfl, ⟨hst, fun hs => (doRead_scal _ hs).of_ok h⟩, hfeed, e3, e4, e6, ?_, hrest, hfr.2, by simp, ?_, k2, ?_⟩
      · rw [e5]
        simp only
        rw [show u.usr.highest + (n : Int) - u.usr.highest = n by omega]
      · rw [e2, ← hal]
        exact hct
      · simp only [recPairs, List.map_cons, mapAll, q1, if_true, e2]

/-! ### all calls -/

/-- Repeated calls of gdxDataReadMap deliver exactly these records and then "no more". The caller passes the same key array
    again in every call. -/
inductive DeliversMap : Gx → List Int → List (RecOut Int) → Gx → Prop
  | done {g g' : Gx} {k : List Int} (h : dataReadMap g k = .ok (g', none)) : DeliversMap g k [] g'
  | next {g g1 g' : Gx} {k : List Int} {r : RecOut Int} {rs : List (RecOut Int)} (h : dataReadMap g k = .ok (g1, some r))
      (hr : DeliversMap g1 r.key rs g') : DeliversMap g k (r :: rs) g'

/-- the records with DimFrst, `prev` = the key before -/
def mapOuts : List Int → List (List Int × List Dbl) → List (RecOut Int)
  | _, [] => []
  | prev, (k, v) :: xs => ⟨k, v, frstDiff prev k⟩ :: mapOuts k xs

theorem zip_append_left {α β : Type} : ∀ (a b : List α) (c : List β), a.length = c.length → (a ++ b).zip c = a.zip c
  | [], b, [], _ => by simp
  | _ :: _, _, [], h => by simp at h
  | [], _, _ :: _, h => by simp at h
  | x :: a, b, y :: c, h => by
    simp only [List.cons_append, List.zip_cons_cons]
    rw [zip_append_left a b c (by simpa using h)]

theorem frstDiff_append {a b c : List Int} (h : a.length = c.length) : frstDiff (a ++ b) c = frstDiff a c := by
  unfold frstDiff
  rw [zip_append_left a b c h]

theorem mapOuts_append {a b : List Int} {xs : List (List Int × List Dbl)} (h : ∀ x ∈ xs, a.length = x.1.length) : mapOuts (a ++ b) xs = mapOuts a xs := by
  cases xs with
  | nil => rfl
  | cons x xs =>
    obtain ⟨k, v⟩ := x
    simp only [mapOuts]
    rw [frstDiff_append (h (k, v) (by simp))]

theorem mapAll_length {α : Type} {acts : List Act} : ∀ {xs : List (List Int × α)} {us : Users}, (∀ x ∈ xs, x.1.length = acts.length) →
    ∀ y ∈ (mapAll acts us xs).2, y.1.length = acts.length
  | [], us, _, y, hy => by simp [mapAll] at hy
  | (k, v) :: xs, us, h, y, hy => by
    simp only [mapAll] at hy
    split at hy
    · simp only [List.mem_cons] at hy
      rcases hy with rfl | hy
      · have := h (k, v) (by simp)
        simp only at this
        simp [mapKeys, this]
      · exact mapAll_length (fun x hx => h x (by simp [hx])) y hy
    · exact mapAll_length (fun x hx => h x (by simp [hx])) y hy

theorem dataReadMap_stream {g : Gx} (hm : g.mode = .rMapR) (hc : g.cur ≠ .dangling) (hs : g.scalarFrst = false) {k : List Int} (hk : k.length = g.nd) :
    dataReadMap g k = streamMap g.fuel g k g.nd false := by
  have e : g.chk [.rMap, .rMapR] = (g, true) := by
    unfold Gx.chk
    rw [if_pos (by rw [hm]; simp)]
  unfold dataReadMap
  rw [e]
  simp only [Bool.true_eq_false, if_false]
  rw [if_neg hc, if_neg (by rw [hs]; simp), if_neg (by rw [hm]; simp), if_neg (by simpa using hk)]

theorem streamAll_spec : ∀ (n : Nat) {g g' : Gx} {outs : List (RecOut Int)}, outs.length ≤ n → Feeds g outs g' → ∀ {w : Side} {u : Uel} {key : List Int}
    {p : Option (List Int)}, w.uel = some u → MapOk u → g.doms.length = g.nd →
    RecsOk u.size g.nd g.dataSize outs → FrstsOk g.nd p outs → KeyAt u.users (g.doms.map DAct.act) p key g.nd false →
    g.mode = .rMapR → g.cur ≠ .dangling → g.scalarFrst = false →
    ∃ w' u', DeliversMap (g.side w) key (mapOuts w.prev (mapAll (g.doms.map DAct.act) u.users (recPairs outs)).2) (g'.side w') ∧
      w'.uel = some u' ∧ MapOk u' ∧ u'.size = u.size ∧ u'.strs = u.strs ∧ u'.users = (mapAll (g.doms.map DAct.act) u.users (recPairs outs)).1 ∧
      w'.sort = w.sort ∧ w'.nrMapped = w.nrMapped + (u'.usr.highest - u.usr.highest) := by
  intro n
  induction n with
  | zero =>
    intro g g' outs hn h w u key p hu ho hd hr hfr hk hm hc hs
    have : outs = [] := List.length_eq_zero_iff.mp (by omega)
    subst this
    cases h with
    | done h =>
      refine ⟨w, u, .done ?_, hu, ho, rfl, rfl, rfl, rfl, by omega⟩
      rw [dataReadMap_stream (g := g.side w) hm hc hs (by rw [hk.len, List.length_map, hd]; rfl)]
      have hf := left_lt_fuel (g.side w)
      obtain ⟨fuel, hfu⟩ : ∃ k, (g.side w).fuel = k + 1 := ⟨(g.side w).fuel - 1, by omega⟩
      rw [hfu, streamMap, doRead_side_ok h w]
      rfl
  | succ n ih =>
    intro g g' outs hn h w u key p hu ho hd hr hfr hk hm hc hs
    have hfu : outs.length < (g.side w).fuel := Nat.lt_of_le_of_lt h.len (left_lt_fuel (g.side w))
    have hcall := dataReadMap_stream (g := g.side w) hm hc hs (k := key) (by rw [hk.len, List.length_map, hd]; rfl)
    rw [show (g.side w).nd = g.nd from rfl] at hcall
    have hal : (g.doms.map DAct.act).length = g.nd := by rw [List.length_map, hd]
    rcases streamMap_spec h hfu hu ho hd hr hfr hk with ⟨w', c1, c2, c3⟩ | ⟨g1, r, rs, w1, u1, c1, c2, c3, c4, c5, c6, c7, c8, c9, c10, c11, c12, c13⟩
    · refine ⟨w', u, ?_, by rw [c2]; exact hu, ho, rfl, rfl, by rw [c3], by rw [c2], by rw [c2]; simp only; omega⟩
      rw [c3]
      exact .done (hcall.trans c1)
    · have hst := c2.1
      have hke : (mapKeys u1.users (g.doms.map DAct.act) r.key).length = g.nd := by rw [c11.len, hal]
      obtain ⟨w', u', d1, d2, d3, d4, d5, d6, d7, d8⟩ := ih (g := g1) (outs := rs) (by omega) c3
        (w := { w1 with prev := mapKeys u1.users (g.doms.map DAct.act) r.key ++ w1.prev.drop g.nd }) (u := u1) (key := mapKeys u1.users (g.doms.map DAct.act) r.key)
        (p := some r.key) (by rw [c7]) c4 (by rw [hst.doms, hst.nd]; exact hd) (by rw [c5, hst.nd, hst.dataSize]; exact c8)
        (by rw [hst.nd]; exact c9) (by rw [hst.doms, hst.nd]; exact c11) (by rw [hst.mode]; exact hm) (by rw [hst]; exact hc) (c2.2 hs)
      rw [hst.doms] at d1 d6
      simp only at d1 d7 d8
      refine ⟨w', u', ?_, d2, d3, d4.trans c5, d5.trans c6, by rw [d6, c13], by rw [d7, c7], by rw [d8, c7]; simp only; omega⟩
      rw [c13]
      simp only [mapOuts]
      rw [mapOuts_append] at d1
      · have hdel : dataReadMap (g.side w) key = .ok (g1.side { w1 with prev := mapKeys u1.users (g.doms.map DAct.act) r.key ++ w1.prev.drop g.nd },
            some ⟨mapKeys u1.users (g.doms.map DAct.act) r.key, r.vals, frstDiff w.prev (mapKeys u1.users (g.doms.map DAct.act) r.key)⟩) := by
          rw [hcall, c1]
          unfold deliver
          rw [hke, show (g1.side w1).prev = w.prev by show w1.prev = _; rw [c7], show w1.prev = w.prev by rw [c7]]
          rfl
        exact .next hdel d1
      · intro x hx
        rw [hke, ← hal]
        refine (mapAll_length (fun y hy => ?_) x hx).symm
        simp only [recPairs, List.mem_map] at hy
        obtain ⟨z, hz, rfl⟩ := hy
        rw [hal]
        exact (c8 z hz).1

end Gdx
