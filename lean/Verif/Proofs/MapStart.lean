import Verif.Proofs.MapStream
import Verif.Proofs.ReadStart

/-! Start of a mapped read, both ways of reading. -/

namespace Gdx
open Gdx.Spec

theorem Uel.mapStat_spec (u : Uel) : u.mapStat.1.users = u.users ∧ u.mapStat.1.size = u.size ∧ u.mapStat.1.strs = u.strs ∧
    u.mapStat.1.usr = u.usr ∧ u.mapStat.1.room = u.room := by
  unfold Uel.mapStat
  cases u.stat <;> exact ⟨rfl, rfl, rfl, rfl, rfl⟩

theorem MapOk.mapStat {u : Uel} (h : MapOk u) : MapOk u.mapStat.1 := by
  obtain ⟨h1, h2, h3, h4, h5⟩ := u.mapStat_spec
  refine ⟨by rw [h4]; exact h.hi, by rw [h5]; exact h.room, by rw [h2]; exact h.size, ?_⟩
  rw [h1, h4]
  exact h.num

/-- the status that decides how the symbol is read -/
def readStat (u : Uel) (das : List DAct) : MapStat := if das.any (· ≠ DAct.unmapped) then u.mapStat.2 else .sortfull

/-- do the records come in order anyway? -/
def streams (u : Uel) (das : List DAct) : Bool := willBeSorted (readStat u das) 0 das

theorem stable_pairs {α β : Type} {key : α → List Int} {f : β → α} {h : α → β} (hf : ∀ x, h (f x) = x) {keyB : β → List Int} (hk : ∀ x, key (f x) = keyB x)
    {l : List β} {out : List α} (hs : StableSorted key (l.map f) out) (hfh : ∀ x, f (h x) = x) : StableSorted keyB l (out.map h) := by
  have hkb : ∀ x, keyB (h x) = key x := fun x => by rw [← hk, hfh]
  refine ⟨?_, ?_⟩
  · rw [List.pairwise_map]
    refine hs.sorted.imp ?_
    intro a b hab
    rw [hkb, hkb]
    exact hab
  · intro k
    have h1 := congrArg (List.map h) (hs.stable k)
    rw [List.filter_map, List.map_map] at h1
    have e1 : (h ∘ f) = id := by funext x; exact hf x
    rw [e1, List.map_id] at h1
    rw [List.filter_map]
    have e2 : ((fun x => decide (keyB x = k)) ∘ h) = fun x => decide (key x = k) := by funext x; simp [hkb]
    have e3 : ((fun x => decide (key x = k)) ∘ f) = fun x => decide (keyB x = k) := by funext x; simp [hk]
    rw [e2, h1, e3]

theorem dataReadMap_list {g : Gx} (hm : g.mode = .rMap) (hc : g.cur ≠ .dangling) (hs : g.scalarFrst = false) (k : List Int) :
    dataReadMap g k = (match g.readPtr with
      | none => pure (g, none)
      | some [] => if g.sort.isNone then .ub else pure (g, none)
      | some (r :: rs) => if g.sort.isNone then .ub else pure (deliver { g with readPtr := some rs } r.key r.val)) := by
  have e : g.chk [.rMap, .rMapR] = (g, true) := by
    unfold Gx.chk
    rw [if_pos (by rw [hm]; simp)]
  unfold dataReadMap
  rw [e]
  simp only [Bool.true_eq_false, if_false]
  rw [if_neg hc, if_neg (by rw [hs]; simp), if_pos hm]
  rcases g.readPtr with _ | _ | ⟨r, rs⟩ <;> rfl

theorem listAll_spec {n : Nat} : ∀ (its : List (LItem (List Dbl))) {g : Gx} (k : List Int), g.mode = .rMap → g.cur ≠ .dangling → g.scalarFrst = false →
    g.sort.isSome = true → g.readPtr = some its → (∀ x ∈ its, x.key.length = n) →
    ∃ pr pv, DeliversMap g k (mapOuts g.prev (its.map fun x => (x.key, x.val))) { g with readPtr := pr, prev := pv }
  | [], g, k, hm, hc, hs, ht, hp, _ => by
    refine ⟨g.readPtr, g.prev, .done ?_⟩
    rw [dataReadMap_list hm hc hs, hp]
    simp only [Option.isNone_iff_eq_none]
    rw [if_neg (by rw [Option.isSome_iff_ne_none] at ht; exact ht)]
    simp only [Res.pure_eq]
    rw [← hp]
  | x :: xs, g, k, hm, hc, hs, ht, hp, hl => by
    obtain ⟨pr, pv, ih⟩ := listAll_spec xs (g := { g with readPtr := some xs, prev := x.key ++ g.prev.drop x.key.length }) x.key hm hc hs ht rfl
      (fun y hy => hl y (by simp [hy]))
    refine ⟨pr, pv, ?_⟩
    simp only [List.map_cons, mapOuts]
    rw [mapOuts_append (by
      intro y hy
      obtain ⟨z, hz, rfl⟩ := List.mem_map.mp hy
      rw [hl x (by simp), hl z (by simp [hz])])] at ih
    refine .next (g1 := { g with readPtr := some xs, prev := x.key ++ g.prev.drop x.key.length }) ?_ ih
    rw [dataReadMap_list hm hc hs, hp]
    simp only [Option.isNone_iff_eq_none]
    rw [if_neg (by rw [Option.isSome_iff_ne_none] at ht; exact ht)]
    rfl

/-- what a mapped read delivers: the records in the order of the file or sorted -/
def Ordered (strm : Bool) (recs out : List (List Int × List Dbl)) : Prop :=
  if strm then out = recs else StableSorted Prod.fst recs out

def statUel (u : Uel) (das : List DAct) : Uel := if das.any (· ≠ DAct.unmapped) then u.mapStat.1 else u

theorem statUel_spec {u : Uel} (ho : MapOk u) (das : List DAct) : MapOk (statUel u das) ∧ (statUel u das).users = u.users ∧
    (statUel u das).size = u.size ∧ (statUel u das).strs = u.strs ∧ (statUel u das).usr = u.usr := by
  unfold statUel
  split
  · obtain ⟨a1, a2, a3, a4, a5⟩ := u.mapStat_spec
    exact ⟨ho.mapStat, a1, a2, a3, a4⟩
  · exact ⟨ho, rfl, rfl, rfl, rfl⟩

theorem prepareMapped_eq {g : Gx} {u : Uel} (hu : g.uel = some u) (nr : Int) :
    prepareMapped g nr = if streams u g.doms then pure (readReady { g with uel := some (statUel u g.doms) } .rMapR nr) else
      (mapLoop g.fuel { g with uel := some (statUel u g.doms), sort := some LData.empty }
        { els := List.replicate g.nd 0, fi := g.nd, addNew := false, allocOk := true } >>= fun x => do
      let s ← need x.1.sort
      let recs ← s.readAll x.1.nd
      let s' ← s.sort x.1.nd
      let g := { x.1 with sort := some s', readPtr := if recs = [] then none else some recs }
      if x.2.allocOk then pure (readReady g .rMap recs.length)
      else pure ({ g.raise errOutOfMemory with sort := none, mode := .rInit }, -1)) := by
  have hpair : (if g.doms.any (· ≠ DAct.unmapped) then u.mapStat else (u, MapStat.sortfull)) = (statUel u g.doms, readStat u g.doms) := by
    unfold statUel readStat
    split <;> rfl
  unfold prepareMapped
  rw [hu]
  simp only [need, Res.bind_ok]
  rw [hpair]
  rfl

theorem Feeds.scal {a b : Gx} {l : List (RecOut Int)} (h : Feeds a l b) : a.scalarFrst = false → b.scalarFrst = false := by
  induction h with
  | done h => exact fun hs => (doRead_scal _ hs).of_ok h
  | next h _ _ ih => exact fun hs => ih ((doRead_scal _ hs).of_ok h)

theorem prepareMapped_spec {g g' g'' : Gx} {outs : List (RecOut Int)} (h1 : Feeds g outs g')
    (h2 : Feeds { g with last := List.replicate g.nd (-1), mode := .rMapR } outs g'') {u : Uel} (hu : g.uel = some u) (ho : MapOk u)
    (hd : g.doms.length = g.nd) (hr : RecsOk u.size g.nd g.dataSize outs) (hf : FrstsOk g.nd none outs) (hc : g.cur ≠ .dangling)
    (hs : g.scalarFrst = false) {key : List Int} (hk : key.length = g.nd) (nr : Int) :
    ∃ g1 g2 out u2 n, prepareMapped g nr = .ok (g1, n) ∧ DeliversMap g1 key (mapOuts g.prev out) g2 ∧
      Ordered (streams u g.doms) (mapAll (g.doms.map DAct.act) u.users (recPairs outs)).2 out ∧
      n = (if streams u g.doms then nr else out.length) ∧ g1.mode = (if streams u g.doms then .rMapR else .rMap) ∧
      g2.uel = some u2 ∧ u2.users = (mapAll (g.doms.map DAct.act) u.users (recPairs outs)).1 ∧ MapOk u2 ∧ u2.size = u.size ∧ u2.strs = u.strs ∧
      g2.mode = g1.mode ∧ g2.nrMapped = g.nrMapped + (u2.usr.highest - u.usr.highest) := by
  obtain ⟨m1, m2, m3, m4, m5⟩ := statUel_spec ho g.doms
  have heq := prepareMapped_eq hu nr
  generalize statUel u g.doms = u1 at heq m1 m2 m3 m4 m5
  have hal : (g.doms.map DAct.act).length = g.nd := by rw [List.length_map, hd]
  cases hst : streams u g.doms with
  | true =>
    rw [hst, if_pos rfl] at heq
    obtain ⟨w', u2, c1, c2, c3, c4, c5, c6, c7, c8⟩ := streamAll_spec outs.length (Nat.le_refl _) h2 (w := { g.sides with uel := some u1 }) (u := u1)
      (key := key) (p := none) rfl m1 hd (by rw [m3]; exact hr) hf
      ⟨by rw [hk, hal], ⟨by
        by_cases h0 : g.doms = []
        · right; show List.map DAct.act g.doms = []; rw [h0]; rfl
        · left
          show 1 ≤ g.nd
          have := List.length_pos_iff.mpr h0
          omega, by rw [hal]; exact Nat.le_refl _⟩, by rintro k ⟨⟩⟩ rfl hc hs
    refine ⟨_, _, _, u2, _, heq, c1, ?_, rfl, rfl, c2, by rw [c6, m2], c3, c4.trans m3, c5.trans m4, ?_, ?_⟩
    · unfold Ordered
      rw [if_pos rfl, m2]
    · exact h2.step.mode
    · show w'.nrMapped = _
      rw [c8, m5]
      rfl
  | false =>
    rw [hst, if_neg (by simp)] at heq
    simp only [Bool.false_eq_true, if_false]
    have hn : 1 ≤ g.nd := by
      by_contra h0
      have : g.doms = [] := List.length_eq_zero_iff.mp (by omega)
      rw [this] at hst
      simp [streams, willBeSorted] at hst
    obtain ⟨w', m', u', s', c1, c2, c3, c4, c5, c6, c7, c8, c9, c10, c11, c12⟩ := mapLoop_spec h1 (w := { g.sides with uel := some u1, sort := some LData.empty })
      (u := u1) (s := LData.empty) (m := { els := List.replicate g.nd 0, fi := g.nd, addNew := false, allocOk := true }) (p := none)
      (fuel := g.fuel)
      (Nat.lt_of_le_of_lt h1.len (left_lt_fuel g)) rfl m1 rfl (LInv.empty _) hd hn (by rw [m3]; exact hr) hf
      ⟨by rw [hal]; exact List.length_replicate .., ⟨Or.inl hn, by rw [hal]⟩, by rintro k ⟨⟩⟩
    rw [show (g.side { g.sides with uel := some u1, sort := some LData.empty }) = ({ g with uel := some u1, sort := some LData.empty } : Gx) from rfl] at c1
    obtain ⟨s2, hsort, hss⟩ := c9.sort
    have hnd : (g'.side w').nd = g.nd := h1.step.nd
    have hread : s'.readAll g.nd = .ok s2.items := by
      unfold LData.readAll
      by_cases h0 : s'.items.length = 0
      · have h2 : s2.items = [] := by
          have := hss.perm.length_eq
          exact List.length_eq_zero_iff.mp (by omega)
        simp [h0, h2]
      · simp [h0, hsort]
    rw [c1] at heq
    simp only [Res.bind_ok] at heq
    rw [show (g'.side w').sort = some s' from c8] at heq
    simp only [need, Res.bind_ok] at heq
    rw [hnd, hread] at heq
    simp only [Res.bind_ok] at heq
    rw [hsort] at heq
    simp only [Res.bind_ok] at heq
    rw [c2] at heq
    simp only [if_true] at heq
    have hitems : s'.items = (mapAll (g.doms.map DAct.act) u1.users (recPairs outs)).2.map (fun x => (⟨x.1, x.2⟩ : LItem (List Dbl))) := by
      rw [c10]; rfl
    have hkeys : ∀ x ∈ s2.items, x.key.length = g.nd := by
      intro x hx
      rw [hss.mem x] at hx
      exact (c9.keys x hx).1
    rw [hitems] at hss
    have hpairs := stable_pairs (f := fun x : List Int × List Dbl => (⟨x.1, x.2⟩ : LItem (List Dbl))) (h := fun x => (x.key, x.val)) (fun _ => rfl)
      (keyB := Prod.fst) (fun _ => rfl) hss (fun _ => rfl)
    have hcur : g'.cur ≠ .dangling := by rw [h1.step]; exact hc
    have hscal : g'.scalarFrst = false := h1.scal hs
    have hprev : w'.prev = g.prev := c12
    by_cases h0 : s2.items = []
    · rw [if_pos h0] at heq
      refine ⟨_, _, [], u', _, heq, .done (dataReadMap_list (g := (readReady ({ g'.side w' with sort := some s2, readPtr := none } : Gx) .rMap s2.items.length).1) rfl hcur hscal key), ?_, ?_, rfl, c3, by rw [c7, m2], c4, c5.trans m3, c6.trans m4, rfl, ?_⟩
      · rw [h0, m2] at hpairs
        exact hpairs
      · show (s2.items.length : Int) = _
        rw [h0]; rfl
      · show w'.nrMapped = _
        rw [c11, m5]
        rfl
    · rw [if_neg h0] at heq
      obtain ⟨pr, pv, hdel⟩ := listAll_spec (n := g.nd) s2.items (g := (readReady ({ g'.side w' with sort := some s2, readPtr := some s2.items } : Gx) .rMap s2.items.length).1)
        key rfl hcur hscal rfl rfl hkeys
      rw [show (readReady ({ g'.side w' with sort := some s2, readPtr := some s2.items } : Gx) .rMap s2.items.length).1.prev = g.prev from c12] at hdel
      refine ⟨_, _, _, u', _, heq, hdel, ?_, ?_, rfl, c3, by rw [c7, m2], c4, c5.trans m3, c6.trans m4, rfl, ?_⟩
      · rw [m2] at hpairs
        exact hpairs
      · show (s2.items.length : Int) = _
        rw [List.length_map]
      · show w'.nrMapped = _
        rw [c11, m5]
        rfl

end Gdx
