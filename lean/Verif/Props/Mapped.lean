import Verif.Proofs.MapKeys
import Verif.Props.DomElems
import Verif.Props.Domains

/-! # C22, C23, C24: reading with the user's numbers

  The records are those of the raw reader (C01/C43); what a mapped or filtered read makes of them is `Spec.mapAll`: record by record, those
  that are not admitted by the actions are left out, the others get the user's numbers. -/

namespace Gdx.Props
open Gdx Gdx.Spec

/-! ### what the calls mean -/

/-- the user's numbers as gdxUMUelGet and gdxUMUelInfo report them -/
structure NumsOf (g : Gx) (us : Users) : Prop where
  num : ∀ e, 1 ≤ e → e ≤ (systemInfo g).2 → ∃ s, umUelGet g e = .ok (true, s, us.num e)
  out : ∀ e, ¬ (1 ≤ e ∧ e ≤ (systemInfo g).2) → us.num e = -1
  hi : ∀ n h, umUelInfo g = .ok (true, n, h) → us.hi = h

/-- what the number of a filter action means: gclgms.h DOMC_UNMAPPED (-2), DOMC_EXPAND (-1), DOMC_STRICT (0), otherwise a filter -/
def ActIs (g : Gx) (a : Int) (A : Act) : Prop :=
  if a = -2 then A = .keep
  else if a = -1 then A = .grow
  else if a = 0 then A = .mapped
  else ∃ fs f, g.filters = some fs ∧ findFilter fs a = some f ∧ A = .only f.mem

/-- Outcome of a mapped read that started with `g`: `g1`, `n` = result of the start call, `key` = the user's key array, `outs` = what
    the raw reader delivers. -/
structure MapsTo (g : Gx) (dim : Nat) (As : List Act) (key : List Int) (outs : List (RecOut Int)) (g1 : Gx) (n : Int) (us : Users)
    (got : List (RecOut Int)) (g2 : Gx) : Prop where
  nums : NumsOf g us
  gets : DeliversMap g1 key got g2
  recs : StableSorted Prod.fst (mapAll As us (recPairs outs)).2 (recPairs got)
  order : dim ≠ 0 → (got.map RecOut.key).Pairwise (· < ·)
  stream : g1.mode = .rMapR → recPairs got = (mapAll As us (recPairs outs)).2
  after : NumsOf g2 (mapAll As us (recPairs outs)).1
  count : n = got.length ∨ (g1.mode = .rMapR ∧ n = outs.length)

/-! ### the pieces -/

theorem uelGood_short {u : Uel} (h : UelGood u) : ∀ x ∈ u.ents, x.1.length < 64 := by
  intro x hx
  have := (h.good x.1 (List.mem_map_of_mem hx)).1
  unfold goodUEL at this
  simp only [Bool.and_eq_true, decide_eq_true_eq] at this
  exact this.1

theorem numsOf_users {g : Gx} {u : Uel} (hg : ∀ x ∈ u.ents, x.1.length < 64) (hu : g.uel = some u) : NumsOf g u.users := by
  have hs : (systemInfo g).2 = u.size := by simp [systemInfo, hu]
  refine ⟨?_, ?_, ?_⟩
  · intro e h1 h2
    rw [hs] at h2
    unfold umUelGet
    rw [hu]
    simp only
    rw [if_pos ⟨h1, h2⟩, userMap_num h1 h2]
    have hlt : (e - 1).toNat < u.ents.length := by
      unfold Uel.size at h2
      omega
    have hat : at1 u.ents e = .ok (u.ents[(e - 1).toNat]) := at1_of h1 (List.getElem?_eq_getElem hlt)
    unfold Uel.str
    rw [hat]
    simp only [Res.bind_ok, Res.pure_eq]
    have := hg _ (List.getElem_mem hlt)
    rw [fits_of this]
    exact ⟨_, rfl⟩
  · intro e he
    rw [hs] at he
    unfold Uel.size at he
    show (if 1 ≤ e then (((u.ents.map Prod.snd)[(e - 1).toNat]?).getD (-1)) else -1) = -1
    split
    · rw [List.getElem?_eq_none (by rw [List.length_map]; omega)]
      rfl
    · rfl
  · intro n h he
    unfold umUelInfo at he
    split at he
    · cases he
    · rw [hu] at he
      cases he
      rfl

theorem actIs_acts {g : Gx} {fs : List Filt} (hf : g.filters = some fs) : ∀ {acts : List Int} {As : List Act}, List.Forall₂ (ActIs g) acts As →
    ∃ das, domActs fs acts = some das ∧ das.map DAct.act = As ∧ das.length = acts.length
  | [], _, .nil => ⟨[], rfl, rfl, rfl⟩
  | a :: acts, A :: As, .cons h1 h2 => by
    obtain ⟨das, e1, e2, e3⟩ := actIs_acts hf h2
    unfold ActIs at h1
    unfold domActs
    rw [e1]
    unfold domcUnmapped domcExpand domcStrict
    split at h1
    · rename_i ha
      refine ⟨.unmapped :: das, by simp [ha], by rw [h1, ← e2]; rfl, by simp [e3]⟩
    · split at h1
      · rename_i hb ha
        refine ⟨.expand :: das, by simp [ha], by rw [h1, ← e2]; rfl, by simp [e3]⟩
      · split at h1
        · rename_i hb hc ha
          refine ⟨.strict :: das, by simp [ha], by rw [h1, ← e2]; rfl, by simp [e3]⟩
        · rename_i ha hb hc
          obtain ⟨fs', f, c1, c2, c3⟩ := h1
          rw [hf] at c1
          cases c1
          refine ⟨.filter f :: das, by simp [ha, hb, hc, c2], by rw [c3, ← e2]; rfl, by simp [e3]⟩

theorem domActs_mem {fs : List Filt} : ∀ {acts : List Int} {das : List DAct}, domActs fs acts = some das → ∀ f, DAct.filter f ∈ das → f ∈ fs
  | [], das, h, f, hf => by cases h; cases hf
  | a :: acts, das, h, f, hf => by
    have key : ∀ x : DAct, ((domActs fs acts).bind fun xs => some (x :: xs)) = some das → (∀ f, x = .filter f → f ∈ fs) → f ∈ fs := by
      intro x hx hxf
      obtain ⟨xs, hxs, hx⟩ := Option.bind_eq_some_iff.mp hx
      cases hx
      rcases List.mem_cons.mp hf with hf | hf
      · exact hxf f hf.symm
      · exact domActs_mem hxs f hf
    unfold domActs at h
    dsimp only at h
    split at h
    · exact key .unmapped h (by rintro f ⟨⟩)
    · split at h
      · exact key .expand h (by rintro f ⟨⟩)
      · split at h
        · exact key .strict h (by rintro f ⟨⟩)
        · obtain ⟨x, hx, h⟩ := Option.bind_eq_some_iff.mp h
          obtain ⟨f', h1, rfl⟩ := Option.map_eq_some_iff.mp hx
          exact key _ h (by rintro f ⟨⟩; exact List.mem_of_find?_eq_some h1)

theorem usrOk_mapOk {u : Uel} (h : UsrOk u) (hc : u.usr.highest + u.size < intMax) : MapOk u := by
  have h0 := h.hi0
  have hcnt : u.ents.countP (fun x => decide (x.2 < 0)) ≤ u.ents.length := List.countP_le_length
  have hi : intMax = 2147483647 := rfl
  unfold Uel.size at hc
  refine ⟨h0, ?_, ?_, ?_⟩
  · unfold Uel.room
    omega
  · unfold Uel.size
    omega
  · intro e
    show (if 1 ≤ e then (((u.ents.map Prod.snd)[(e - 1).toNat]?).getD (-1)) else -1) ≤ _
    split
    · cases hq : (u.ents.map Prod.snd)[(e - 1).toNat]? with
      | none => simp only [Option.getD_none]; omega
      | some k =>
        simp only [Option.getD_some]
        rw [List.getElem?_map, Option.map_eq_some_iff] at hq
        obtain ⟨⟨s, k'⟩, q1, q2⟩ := hq
        cases q2
        rcases h.bwd _ _ _ q1 with hb | ⟨_, hb⟩
        · simp only at hb ⊢
          omega
        · exact h.hi _ (by simp only at hb ⊢; omega)
    · omega

theorem usrOk_inj {u : Uel} (h : UsrOk u) : NumInj u.users := by
  have hget : ∀ e, 0 ≤ u.users.num e → u.usr.get (u.users.num e) = e := by
    intro e h0
    have hn : u.users.num e = (if 1 ≤ e then (((u.ents.map Prod.snd)[(e - 1).toNat]?).getD (-1)) else -1) := rfl
    split at hn
    · cases hq : (u.ents.map Prod.snd)[(e - 1).toNat]? with
      | none => rw [hq] at hn; simp only [Option.getD_none] at hn; omega
      | some k =>
        rw [hq, Option.getD_some] at hn
        rw [List.getElem?_map, Option.map_eq_some_iff] at hq
        obtain ⟨⟨s, k'⟩, q1, q2⟩ := hq
        cases q2
        rcases h.bwd _ _ _ q1 with hb | ⟨_, hb⟩
        · omega
        · rw [hn, hb]
          omega
    · omega
  intro e e' h0 he
  rw [← hget e h0, he, hget e' (he ▸ h0)]

/-- The mapped read of records in increasing order. -/
theorem mapsTo {g : Gx} (hg : GoodElems g) (hi : MapInv g) {fs : List Filt} (hfs : g.filters = some fs) {u : Uel} (hu : g.uel = some u)
    (hok : MapOk u) {das : List DAct} (hmem : ∀ f, DAct.filter f ∈ das → f ∈ fs) {d : Nat} (hd : das.length = d) {prev key : List Int} {outs : List (RecOut Int)}
    {g1 : Gx} {n : Int} (hl : ∀ o ∈ outs, o.key.length = d) (hin : ∀ o ∈ outs, ∀ e ∈ o.key, 1 ≤ e ∧ e ≤ u.size)
    (hs : d ≠ 0 → (outs.map RecOut.key).Pairwise (· < ·))
    (h : MappedRead g u das prev key outs.length outs g1 n) :
    ∃ got g2, MapsTo g d (das.map DAct.act) key outs g1 n u.users got g2 ∧
      ∀ rest, prev = List.replicate d (-1) ++ rest → FirstsOk d (keysOf got) := by
  obtain ⟨g2, out, u2, a1, a2, a3, a4, a5, a6, a7, a8, a9, a10, a11⟩ := h.res
  have hact : ∀ a ∈ das.map DAct.act, ActOk a := by
    intro a ha
    obtain ⟨b, _, rfl⟩ := List.mem_map.mp ha
    exact b.ok
  have hlp : ∀ x ∈ recPairs outs, x.1.length = das.length := by
    intro x hx
    obtain ⟨o, ho, rfl⟩ := List.mem_map.mp hx
    rw [hd]
    exact hl o ho
  have hlp' : ∀ x ∈ recPairs outs, x.1.length = (das.map DAct.act).length := by
    intro x hx
    rw [List.length_map]
    exact hlp x hx
  have hinp : ∀ x ∈ recPairs outs, ∀ e ∈ x.1, 1 ≤ e ∧ e ≤ u.size := by
    intro x hx
    obtain ⟨o, ho, rfl⟩ := List.mem_map.mp hx
    exact hin o ho
  have husr := hi.usr u hu
  have hkeys : ∀ x ∈ (mapAll (das.map DAct.act) u.users (recPairs outs)).2, x.1.length = d ∧ ∀ v ∈ x.1, 0 ≤ v := by
    intro x hx
    have := mapAll_keys hact (us := u.users) hok.hi hlp' (fun x hx e he => (hinp x hx e he).1) x hx
    rwa [List.length_map, hd] at this
  have hstable : StableSorted Prod.fst (mapAll (das.map DAct.act) u.users (recPairs outs)).2 out := by
    unfold Ordered at a2
    by_cases hst : streams u das = true
    · rw [if_pos hst] at a2
      rw [a2]
      by_cases hd0 : d = 0
      · refine ⟨?_, fun _ => rfl⟩
        rw [List.pairwise_iff_forall_sublist]
        intro x y hxy
        have hx := hkeys x (hxy.subset (by simp))
        have hy := hkeys y (hxy.subset (by simp))
        rw [List.length_eq_zero_iff.mp (hx.1.trans hd0), List.length_eq_zero_iff.mp (hy.1.trans hd0)]
        exact lt_irrefl _
      · refine stableSorted_self (streams_sorted hok (hi.right u hu) (fun f hf => (hi.filt u fs hu hfs f (hmem f hf)).1) hlp hinp ?_ hst)
        rw [recPairs_keys]
        exact hs hd0
    · rw [if_neg hst] at a2
      exact a2
  have hout : ∀ x ∈ out, x.1.length = d ∧ ∀ v ∈ x.1, 0 ≤ v := by
    intro x hx
    refine hkeys x ?_
    have : x ∈ out.filter fun y => y.1 = x.1 := List.mem_filter.mpr ⟨hx, by simp⟩
    rw [hstable.stable] at this
    exact (List.mem_filter.mp this).1
  have hstrict : d ≠ 0 → (out.map Prod.fst).Pairwise (· < ·) := by
    intro hd0
    refine stableSorted_strict hstable (mapAll_nodup hact hok.hi (usrOk_inj husr) hok.num hlp' ?_)
    rw [recPairs_keys]
    exact (hs hd0).imp fun h => ne_of_lt h
  have hmo := mapOuts_pairs out prev
  refine ⟨mapOuts prev out, g2, ⟨numsOf_users (uelGood_short (hg u hu)) hu, a1, by rw [hmo]; exact hstable, ?_, ?_, ?_, ?_⟩, ?_⟩
  · intro hd0
    rw [← recPairs_keys, hmo]
    exact hstrict hd0
  · intro hmode
    rw [hmo]
    unfold Ordered at a2
    by_cases hst : streams u das = true
    · rwa [if_pos hst] at a2
    · rw [if_neg hst, hmode] at a4
      cases a4
  · rw [← a6]
    refine numsOf_users ?_ a5
    intro x hx
    have h1 : x.1 ∈ u2.strs := List.mem_map_of_mem hx
    rw [a9] at h1
    obtain ⟨y, hy, hyx⟩ := List.mem_map.mp h1
    rw [← hyx]
    exact uelGood_short (hg u hu) y hy
  · have hlen : (mapOuts prev out).length = out.length := by
      have := congrArg List.length hmo
      unfold recPairs at this
      rwa [List.length_map] at this
    by_cases hst : streams u das = true
    · rw [if_pos hst] at a3 a4
      exact Or.inr ⟨a4, a3⟩
    · rw [if_neg hst] at a3
      left
      rw [a3, hlen]
  · rintro rest rfl
    exact mapOuts_firsts rest out hout fun hd0 => (hstrict hd0).imp fun h => ne_of_lt h

/-! ### the theorems -/

/-- the conditions under which the theorems speak about a symbol: registered elements, room for new user numbers -/
structure MapReady (g : Gx) (xs : List RawEntry) : Prop where
  good : GoodElems g
  inv : MapInv g
  els : ∀ x ∈ xs, ∀ e ∈ x.key, 1 ≤ e ∧ e ≤ (systemInfo g).2
  room : ∀ u, g.uel = some u → u.usr.highest + (systemInfo g).2 < intMax

theorem loaded_mapped {z : Cz} (hz : z.Good) {g : Gx} {m : Nat} {d : SymDesc} {xs : List RawEntry} (h : Loaded z g m d xs) (hr : MapReady g xs)
    {nr : Int} (ht : Targets g nr m) (hne : d.dim ≠ 0 ∨ xs ≠ []) {acts : List Int} {As : List Act} (hl : d.dim.toNat ≤ acts.length)
    (hA : List.Forall₂ (ActIs g) (acts.take d.dim.toNat) As) {key : List Int} (hk : key.length = d.dim.toNat) :
    ∃ outs g1 n us got g2, Delivered g.rsv (acrOf g) d xs outs ∧ prepareRead z g nr acts .rMap = .ok (g1, n) ∧ 0 ≤ n ∧
      MapsTo g d.dim.toNat As key outs g1 n us got g2 ∧ FirstsOk d.dim.toNat (keysOf got) := by
  obtain ⟨hm, hsv, ⟨s, hs1, hs2, hs3⟩, u, hu, hshort⟩ := h
  obtain ⟨fs, hfs⟩ := Option.isSome_iff_exists.mp hs3.filt
  have hsz : (systemInfo g).2 = u.size := by simp [systemInfo, hu]
  have hok : MapOk u := usrOk_mapOk (hr.inv.usr u hu) (by rw [← hsz]; exact hr.room u hu)
  obtain ⟨das, e1, e2, e3⟩ := actIs_acts hfs hA
  have hdim := hs1.dim
  rw [← hdim] at hl hk hne e1 e3 ⊢
  rw [List.length_take, Nat.min_eq_left hl] at e3
  have hdel := rawAll_delivered hsv hs1 hs3
  have hne' : s.dim ≠ 0 ∨ xs.map (fun x => stored x.sv x.key x.vals) ≠ [] := hne.imp_right fun h => by simpa using h
  have hraw : rawAll g.loads s (xs.map fun x => stored x.sv x.key x.vals) = rawOuts g.loads s.dim.toNat none (xs.map fun x => stored x.sv x.key x.vals) := by
    unfold rawAll
    rw [if_neg (by rintro ⟨b1, b2⟩; rcases hne' with h | h; exact h b1; exact h b2)]
  rw [hraw] at hdel
  have hin : ∀ r ∈ xs.map (fun x => stored x.sv x.key x.vals), ∀ e ∈ r.key, 1 ≤ e ∧ e ≤ u.size := by
    intro r hr'
    obtain ⟨x, hx, rfl⟩ := List.mem_map.mp hr'
    rw [← hsz]
    exact hr.els x hx
  obtain ⟨g1, n, f1, f2⟩ := hs3.mapped hz hm ht hne' hl (fun l hl' => by rw [hfs] at hl'; cases hl'; exact e1) e3 hu hok hin hk
  have hdel' := hdel
  unfold Delivered at hdel'
  rw [if_neg (by rintro ⟨b1, b2⟩; rcases hne with h | h; exact h (hdim.trans b1); exact h b2), ← hdim] at hdel'
  have hlen : (rawOuts g.loads s.dim.toNat none (xs.map fun x => stored x.sv x.key x.vals)).length = xs.length := by
    rw [← List.length_map (f := RecOut.key), rawOuts_keys]
    simp
  have hin' : ∀ o ∈ rawOuts g.loads s.dim.toNat none (xs.map fun x => stored x.sv x.key x.vals), ∀ e ∈ o.key, 1 ≤ e ∧ e ≤ u.size := by
    intro o ho
    obtain ⟨r, hr', b1, _⟩ := rawOuts_vals _ _ _ _ _ ho
    rw [b1]
    exact hin r hr'
  rw [List.length_map, ← hlen] at f2
  obtain ⟨got, g2, k1, k2⟩ := mapsTo hr.good hr.inv hfs hu hok (domActs_mem e1) e3 hdel'.len hin' (fun h0 => hdel'.sorted (by omega)) f2
  rw [e2] at k1
  refine ⟨_, g1, n, u.users, got, g2, hdel, f1, ?_, k1, k2 _ rfl⟩
  rcases k1.count with h | ⟨_, h⟩ <;> omega

/-- C22 for a symbol that holds the records `xs`: gdxDataReadFilteredStart with any actions and then gdxDataReadMap until the end, with
    one and the same key array: the records of the raw reader, translated by `mapAll`, in lexicographic order. Also C24: the first
    changed positions. Missing from the full claim: elements that are not registered, scalars without record, a new key array for each
    call (`C22_fresh`), and a user number given twice (`C23_reuse`). -/
theorem C22_filtered_partial (z : Cz) (hz : z.Good) (g : Gx) (m : Nat) (d : SymDesc) (xs : List RawEntry) (h : Loaded z g m d xs) (hr : MapReady g xs)
    (nr : Int) (ht : Targets g nr m) (hne : d.dim ≠ 0 ∨ xs ≠ []) (acts : List Int) (As : List Act) (hl : d.dim.toNat ≤ acts.length)
    (hA : List.Forall₂ (ActIs g) (acts.take d.dim.toNat) As) (key : List Int) (hk : key.length = d.dim.toNat) :
    ∃ outs g1 n us got g2, Delivered g.rsv (acrOf g) d xs outs ∧ dataReadFilteredStart z g nr acts = .ok (g1, (true, n)) ∧
      MapsTo g d.dim.toNat As key outs g1 n us got g2 ∧ FirstsOk d.dim.toNat (keysOf got) := by
  obtain ⟨outs, g1, n, us, got, g2, a1, a2, a3, a4, a5⟩ := loaded_mapped hz h hr ht hne hl hA hk
  refine ⟨outs, g1, n, us, got, g2, a1, ?_, a4, a5⟩
  unfold dataReadFilteredStart
  rw [a2]
  simp [a3]

/-- C22 for gdxDataReadMapStart: all positions are strict. -/
theorem C22_mapped_partial (z : Cz) (hz : z.Good) (g : Gx) (m : Nat) (d : SymDesc) (xs : List RawEntry) (h : Loaded z g m d xs) (hr : MapReady g xs)
    (nr : Int) (ht : Targets g nr m) (hne : d.dim ≠ 0 ∨ xs ≠ []) (key : List Int) (hk : key.length = d.dim.toNat) (hd : d.dim ≤ 20) :
    ∃ outs g1 n us got g2, Delivered g.rsv (acrOf g) d xs outs ∧ dataReadMapStart z g nr = .ok (g1, (true, n)) ∧
      MapsTo g d.dim.toNat (List.replicate d.dim.toNat .mapped) key outs g1 n us got g2 ∧ FirstsOk d.dim.toNat (keysOf got) := by
  have hA : List.Forall₂ (ActIs g) ((List.replicate 20 domcStrict).take d.dim.toNat) (List.replicate d.dim.toNat Act.mapped) := by
    rw [List.take_replicate, Nat.min_eq_left (by omega)]
    refine List.forall₂_iff_get.mpr ⟨by simp, ?_⟩
    intro i h1 h2
    simp [ActIs, domcStrict]
  obtain ⟨outs, g1, n, us, got, g2, a1, a2, a3, a4, a5⟩ := loaded_mapped hz h hr ht hne (by rw [List.length_replicate]; omega) hA hk
  refine ⟨outs, g1, n, us, got, g2, a1, ?_, a4, a5⟩
  unfold dataReadMapStart
  rw [a2]
  simp [a3]

/-- Without expanding positions: exactly the records whose every element is admitted by the action of its position are delivered, each as
    often as it is stored, and the user's numbers stay as they are. -/
theorem MapsTo.admitted {g : Gx} {dim : Nat} {As : List Act} {key : List Int} {outs : List (RecOut Int)} {g1 : Gx} {n : Int} {us : Users}
    {got : List (RecOut Int)} {g2 : Gx} (h : MapsTo g dim As key outs g1 n us got g2) (hA : Act.grow ∉ As) :
    (recPairs got).Perm (((recPairs outs).filter fun x => allAdmit us As x.1).map fun x => (mapKeys us As x.1, x.2)) ∧ NumsOf g2 us := by
  have h1 := h.recs.perm
  have h2 := h.after
  rw [mapAll_noGrow hA] at h1 h2
  exact ⟨h1, h2⟩

theorem allAdmit_iff (us : Users) : ∀ {As : List Act} {k : List Int}, k.length = As.length →
    (allAdmit us As k = true ↔ ∀ (i : Nat) (A : Act) (e : Int), As[i]? = some A → k[i]? = some e →
      match A with
      | .keep => True
      | .only p => p (us.num e) = true
      | .mapped => 0 ≤ us.num e
      | .grow => True)
  | [], [], _ => by simp [allAdmit]
  | A :: As, e :: k, h => by
    have ih := allAdmit_iff us (As := As) (k := k) (by simpa using h)
    unfold allAdmit
    rw [Bool.and_eq_true, ih]
    constructor
    · rintro ⟨h1, h2⟩ i B x hB hx
      cases i with
      | zero => cases hB; cases hx; cases A <;> simp_all [Act.admits]
      | succ i => exact h2 i B x (by simpa using hB) (by simpa using hx)
    · intro hall
      refine ⟨?_, fun i B x hB hx => hall (i + 1) B x (by simpa using hB) (by simpa using hx)⟩
      have := hall 0 A e rfl rfl
      cases A <;> simp_all [Act.admits]

/-- Without strict and filtered positions every record is delivered, with the numbers that the elements have afterwards. -/
theorem MapsTo.everything {g : Gx} {dim : Nat} {As : List Act} {key : List Int} {outs : List (RecOut Int)} {g1 : Gx} {n : Int} {us : Users}
    {got : List (RecOut Int)} {g2 : Gx} (h : MapsTo g dim As key outs g1 n us got g2) (hA : ∀ a ∈ As, a = .keep ∨ a = .grow) (h0 : 0 ≤ us.hi)
    (hl : ∀ o ∈ outs, o.key.length = As.length) :
    ∃ us2, NumsOf g2 us2 ∧ (∀ e, 0 ≤ us.num e → us2.num e = us.num e) ∧
      (recPairs got).Perm ((recPairs outs).map fun x => (mapKeys us2 As x.1, x.2)) := by
  refine ⟨_, h.after, fun e he => (mapAll_le As _ us).keep e he, ?_⟩
  rw [← mapAll_free hA _ us h0 (by
    intro x hx
    obtain ⟨o, ho, rfl⟩ := List.mem_map.mp hx
    exact hl o ho)]
  exact h.recs.perm

/-- C22 with any actions: what is delivered is a selection of the records, with the numbers that the elements have afterwards; what had a
    number keeps it. -/
theorem MapsTo.final {g : Gx} {dim : Nat} {As : List Act} {key : List Int} {outs : List (RecOut Int)} {g1 : Gx} {n : Int} {us : Users}
    {got : List (RecOut Int)} {g2 : Gx} (h : MapsTo g dim As key outs g1 n us got g2) (hA : ∀ a ∈ As, ActOk a) (h0 : 0 ≤ us.hi)
    (hl : ∀ o ∈ outs, o.key.length = As.length) :
    ∃ us2 sub, NumsOf g2 us2 ∧ (∀ e, 0 ≤ us.num e → us2.num e = us.num e) ∧ List.Sublist sub (recPairs outs) ∧
      (recPairs got).Perm (sub.map fun x => (mapKeys us2 As x.1, x.2)) ∧ ∀ x ∈ sub, allAdmit us2 As x.1 = true := by
  obtain ⟨sub, p1, p2, p3⟩ := mapAll_final hA (recPairs outs) us h0 (by
    intro x hx
    obtain ⟨o, ho, rfl⟩ := List.mem_map.mp hx
    exact hl o ho)
  refine ⟨_, sub, h.after, fun e he => (mapAll_le As _ us).keep e he, p1, p2 ▸ h.recs.perm, ?_⟩
  intro x hx
  have hall : ∀ {As : List Act} {k : List Int} {us : Users}, AllGood us As k → allAdmit us As k = true := by
    intro As k us h
    induction h with
    | nil => rfl
    | cons h1 _ ih => unfold allAdmit; rw [h1.1, ih]; rfl
  exact hall (p3 x hx)

/-- C22 for the universe: gdxDataReadFilteredStart with symbol 0 or an alias of it. (For the first changed positions see
    `C24_universe_stale`.) -/
theorem C22_universe_partial (z : Cz) (g : Gx) (hg : GoodElems g) (hi : MapInv g) (hm : g.mode = .rInit) (hf : g.filters.isSome = true) (nr : Int)
    (ht : TargetsUniverse g nr) (ho : 0 ≤ g.uelOrig) (u : Uel) (hu : g.uel = some u) (hou : g.uelOrig ≤ (systemInfo g).2)
    (hroom : u.usr.highest + (systemInfo g).2 < intMax) (act : Int) (acts : List Int) (A : Act) (hA : ActIs g act A) (key : Int) :
    ∃ g1 n got g2, dataReadFilteredStart z g nr (act :: acts) = .ok (g1, (true, n)) ∧
      MapsTo g 1 [A] [key] (universeOuts 0 g.uelOrig.toNat) g1 n u.users got g2 := by
  obtain ⟨fs, hfs⟩ := Option.isSome_iff_exists.mp hf
  have hsz : (systemInfo g).2 = u.size := by simp [systemInfo, hu]
  rw [hsz] at hou hroom
  have hok : MapOk u := usrOk_mapOk (hi.usr u hu) hroom
  obtain ⟨das, e1, e2, e3⟩ := actIs_acts hfs (List.Forall₂.cons hA .nil)
  have hlt : g.uelOrig < intMax := by
    have := hok.size
    have hx : intMax = 2147483647 := rfl
    omega
  obtain ⟨g1, n, f1, f2⟩ := universe_mapped (z := z) hm hf ht ⟨ho, hlt⟩ (acts := act :: acts) (by simp) (fun l hl => by rw [hfs] at hl; cases hl; exact e1) e3 hu
    hok hou (key := [key]) rfl
  have hrec : ∀ k n, ∀ o ∈ universeOuts n k, ∃ j : Nat, n ≤ j ∧ j < n + k ∧ o = ⟨[(j : Int) + 1], [Dbl.zero], 1⟩ := by
    intro k
    induction k with
    | zero => intro n o h; cases h
    | succ k ih =>
      intro n o h
      rcases List.mem_cons.mp h with rfl | h
      · exact ⟨n, by omega, by omega, rfl⟩
      · obtain ⟨j, b1, b2, b3⟩ := ih (n + 1) o h
        exact ⟨j, by omega, by omega, b3⟩
  have hsort : ∀ k n, ((universeOuts n k).map RecOut.key).Pairwise (· < ·) := by
    intro k
    induction k with
    | zero => intro n; exact .nil
    | succ k ih =>
      intro n
      refine List.Pairwise.cons ?_ (ih (n + 1))
      intro q hq
      obtain ⟨o, ho, rfl⟩ := List.mem_map.mp hq
      obtain ⟨j, b1, b2, rfl⟩ := hrec _ _ o ho
      exact List.Lex.rel (by omega)
  have hlen : ∀ k n, (universeOuts n k).length = k := by
    intro k
    induction k with
    | zero => intro n; rfl
    | succ k ih => intro n; simp [universeOuts, ih]
  have hcast : (((universeOuts 0 g.uelOrig.toNat).length : Nat) : Int) = g.uelOrig := by rw [hlen]; omega
  rw [← hcast] at f2
  simp only [hcast] at f2
  obtain ⟨got, g2, k1, _⟩ := mapsTo (outs := universeOuts 0 g.uelOrig.toNat) hg hi hfs hu hok (domActs_mem e1) e3 (by
    intro o ho
    obtain ⟨j, _, _, rfl⟩ := hrec _ _ o ho
    rfl) (by
    intro o ho
    obtain ⟨j, b1, b2, rfl⟩ := hrec _ _ o ho
    intro e he
    rw [List.mem_singleton.mp he]
    omega) (fun _ => hsort _ _) (by rw [hcast]; exact f2)
  rw [e2] at k1
  refine ⟨g1, n, got, g2, ?_, k1⟩
  unfold dataReadFilteredStart
  rw [f1]
  have : 0 ≤ n := by rcases k1.count with h | ⟨_, h⟩ <;> omega
  simp [this]

/-! ### filters -/

/-- gdxFilterRegister for a list of user numbers; the results of the calls -/
def registerAll : Gx → List Int → Res (Gx × List Bool)
  | g, [] => .ok (g, [])
  | g, k :: ks => do
    let (g, b) ← filterRegister g k
    let (g, bs) ← registerAll g ks
    pure (g, b :: bs)

theorem modLast_concat {α : Type} (l : List α) (x : α) (f : α → α) : modLast (l ++ [x]) f = l ++ [f x] := by
  unfold modLast
  rw [List.length_append, List.length_singleton, Nat.add_sub_cancel]
  induction l with
  | nil => rfl
  | cons a l ih => simpa using ih

theorem registerAll_spec {l : List Filt} {u : Uel} : ∀ (ks : List Int) {g : Gx} {f : Filt}, g.mode = .rFilter → g.filters = some (l ++ [f]) →
    g.uel = some u → f.map.Inv → f.maxUel = u.usr.highest → (∀ k ∈ ks, 1 ≤ k ∧ k ≤ u.usr.highest ∧ k ≤ 2147483639 ∧ 1 ≤ u.usr.get k) →
    ∃ f', registerAll g ks = .ok ({ g with filters := some (l ++ [f']) }, List.replicate ks.length true) ∧ f'.map.Inv ∧ f'.nr = f.nr ∧
      f'.maxUel = f.maxUel ∧ ∀ v, f'.mem v = true ↔ f.mem v = true ∨ v ∈ ks
  | [], g, f, hm, hf, hu, hi, hmx, hk => ⟨f, by rw [← hf]; rfl, hi, rfl, rfl, by simp⟩
  | k :: ks, g, f, hm, hf, hu, hi, hmx, hk => by
    obtain ⟨k1, k2, k3, k4⟩ := hk k (by simp)
    obtain ⟨m, m1, m2, m3⟩ := BitArr.set_true_spec hi k k3
    have hone : filterRegister g k = .ok ({ g with filters := some (l ++ [{ f with map := m }]) }, true) := by
      unfold filterRegister
      rcases chk_cases g [.rFilter] with ⟨_, hc⟩ | ⟨hx, _⟩
      · rw [hc]
        simp only [Bool.true_eq_false, if_false, hf, need, Res.bind_ok, List.getLast?_concat, hu, modLast_concat, m1]
        rw [if_neg (by rw [hmx]; omega), if_pos k4]
        rfl
      · exact absurd (by simp [hm]) hx
    obtain ⟨f', e1, e2, e3, e4, e5⟩ := registerAll_spec ks (g := { g with filters := some (l ++ [{ f with map := m }]) }) (f := { f with map := m }) hm rfl hu m2
      hmx (fun x hx => hk x (by simp [hx]))
    refine ⟨f', ?_, e2, e3, e4, ?_⟩
    · unfold registerAll
      rw [hone]
      simp only [Res.bind_ok, e1, Res.pure_eq]
      rfl
    · intro v
      rw [e5]
      have : ({ f with map := m } : Filt).mem v = true ↔ f.mem v = true ∨ v = k := by
        unfold Filt.mem
        simp only [m3]
        by_cases hv : v = k
        · subst hv
          simp only [true_and]
          rw [if_pos (by omega)]
          simp only [Bool.and_true, or_true, iff_true]
          simp only [Bool.and_eq_true, decide_eq_true_eq]
          omega
        · rw [if_neg (by omega)]
          simp [hv]
      rw [this, List.mem_cons, or_assoc]

/-- The meaning of a registered filter: between gdxFilterRegisterStart and gdxFilterRegisterDone user numbers that are in use are
    registered; afterwards exactly these are in the filter with this number. The other filters are as before. -/
theorem C22_filter (g : Gx) (u : Uel) (fs : List Filt) (hm : g.mode = .rInit) (hu : g.uel = some u) (hfs : g.filters = some fs)
    (hnd : (fs.map Filt.nr).Nodup) (nr : Int) (hnr : 1 ≤ nr) (ks : List Int)
    (hk : ∀ k ∈ ks, 1 ≤ k ∧ k ≤ u.usr.highest ∧ k ≤ 2147483639 ∧ 1 ≤ u.usr.get k) :
    ∃ g1 g2 g3 fs' f, filterRegisterStart g nr = .ok (g1, true) ∧ registerAll g1 ks = .ok (g2, List.replicate ks.length true) ∧
      filterRegisterDone g2 = .ok (g3, true) ∧ g3.mode = .rInit ∧ g3.filters = some fs' ∧ findFilter fs' nr = some f ∧
      (∀ v, f.mem v = true ↔ v ∈ ks) ∧ (∀ n, n ≠ nr → findFilter fs' n = findFilter fs n) ∧ (fs'.map Filt.nr).Nodup ∧
      ∃ u3, g3.uel = some u3 ∧ u3.users = u.users := by
  let f0 : Filt := { nr := nr, maxUel := u.usr.highest, map := BitArr.empty, sorted := false }
  have h1 : filterRegisterStart g nr = .ok ({ g with filters := some (fs.eraseP (fun f => f.nr == nr) ++ [f0]), mode := .rFilter }, true) := by
    unfold filterRegisterStart
    rcases chk_cases g [.rInit] with ⟨_, hc⟩ | ⟨hx, _⟩
    · rw [hc]
      simp only [Bool.true_eq_false, if_false]
      rw [if_neg (by omega), hu, hfs]
      rfl
    · exact absurd (by simp [hm]) hx
  obtain ⟨f, e1, e2, e3, e4, e5⟩ := registerAll_spec ks (g := { g with filters := some (fs.eraseP (fun f => f.nr == nr) ++ [f0]), mode := .rFilter })
    (f := f0) rfl rfl hu BitArr.Inv.empty rfl hk
  have h3 : ∃ so, filterRegisterDone { g with filters := some (fs.eraseP (fun f => f.nr == nr) ++ [f]), mode := .rFilter } =
      .ok ({ g with filters := some (fs.eraseP (fun f => f.nr == nr) ++ [{ f with sorted := so }]), uel := some u.mapStat.1, mode := .rInit }, true) := by
    unfold filterRegisterDone
    rcases chk_cases { g with filters := some (fs.eraseP (fun f => f.nr == nr) ++ [f]), mode := .rFilter } [.rFilter] with ⟨_, hc⟩ | ⟨hx, _⟩
    · rw [hc]
      simp only [Bool.true_eq_false, if_false, need, Res.bind_ok, List.getLast?_concat, hu, modLast_concat]
      exact ⟨_, rfl⟩
    · exact absurd (by simp) hx
  obtain ⟨so, h3⟩ := h3
  have hnone : ∀ x ∈ fs.eraseP (fun f => f.nr == nr), x.nr ≠ nr := by
    clear h1 e1 h3 hfs
    induction fs with
    | nil => intro x hx; cases hx
    | cons a fs ih =>
      rw [List.map_cons, List.nodup_cons] at hnd
      intro x hx
      rw [List.eraseP_cons, cond_eq_ite] at hx
      split at hx
      · rename_i ha
        have ha : a.nr = nr := by simpa using ha
        intro he
        exact hnd.1 (by rw [ha, ← he]; exact List.mem_map_of_mem hx)
      · rename_i ha
        rcases List.mem_cons.mp hx with rfl | hx
        · simpa using ha
        · exact ih hnd.2 x hx
  refine ⟨_, _, _, _, { f with sorted := so }, h1, e1, h3, rfl, rfl, ?_, ?_, ?_, ?_, _, rfl, ?_⟩
  · unfold findFilter
    rw [List.find?_append, List.find?_eq_none.mpr (by intro x hx; simpa using hnone x hx)]
    simp [e3, f0]
  · intro v
    have : f0.mem v = false := empty_mem f0 rfl v
    have h5 := e5 v
    rw [this] at h5
    simpa [Filt.mem] using h5
  · intro n hn
    unfold findFilter
    rw [List.find?_append]
    have : List.find? (fun f => f.nr == n) [{ f with sorted := so }] = none := by simp [e3, f0, Ne.symm hn]
    rw [this, Option.or_none]
    clear h1 e1 h3 hfs hnd hnone
    induction fs with
    | nil => rfl
    | cons a fs ih =>
      rw [List.eraseP_cons, cond_eq_ite]
      split
      · rename_i ha
        have ha : a.nr = nr := by simpa using ha
        rw [List.find?_cons_of_neg]
        simpa [ha] using Ne.symm hn
      · by_cases hb : a.nr = n
        · simp [hb]
        · rw [List.find?_cons_of_neg (by simpa using hb), List.find?_cons_of_neg (by simpa using hb)]
          exact ih
  · rw [List.map_append, List.nodup_append]
    refine ⟨hnd.sublist (List.Sublist.map _ List.eraseP_sublist), by simp, ?_⟩
    intro a ha b hb
    obtain ⟨x, hx, rfl⟩ := List.mem_map.mp ha
    simp only [List.map_cons, List.map_nil, List.mem_singleton] at hb
    rw [hb, e3]
    exact hnone x hx
  · unfold Uel.mapStat
    split <;> rfl

/-! ### C12 without conditions on the user numbers after opening -/

/-- C12 over all histories in which no user number is given to two elements; of files that are opened only the rules for element
    strings are asked. -/
theorem C12_history_partial (e : Env) (z : Cz) (cs : List Call) (g : Gx) (hc : ∀ c ∈ cs, c.WF)
    (ho : Along (fun g c g' => NoReuse g c ∧ (c.opensRead = true → GoodElems g')) e z Gx.new cs) (h : run e z Gx.new cs = .ok g) (k : Int) (s : Str) :
    getUEL g k = .ok (true, s) ↔ 0 ≤ k ∧ ∃ n, umFindUEL g s = .ok (true, n, k) ∧ umUelGet g n = .ok (true, s, k) := by
  obtain ⟨h1, h2⟩ := map_run e z cs g hc ho h
  exact C12_correspond_state g h1 h2.usr k s

/-! ### C23: over histories -/

/-- C23: after any history in which no user number was given to two elements, a mapped or filtered read delivers the same records in the
    same order whether it sorts them or streams them: `got` is the stable sorting of the translated records in either case, and keys are
    strictly increasing. Missing: histories that give a user number twice, for which it is wrong (`C23_reuse`). -/
theorem C23_history_partial (e : Env) (z : Cz) (hz : z.Good) (cs : List Call) (g : Gx) (hcs : ∀ c ∈ cs, c.WF)
    (hhist : Along (fun g c g' => NoReuse g c ∧ (c.opensRead = true → GoodElems g')) e z Gx.new cs) (hrun : run e z Gx.new cs = .ok g)
    (m : Nat) (d : SymDesc) (xs : List RawEntry) (h : Loaded z g m d xs) (hx : ∀ x ∈ xs, ∀ e ∈ x.key, 1 ≤ e ∧ e ≤ (systemInfo g).2)
    (hroom : ∀ u, g.uel = some u → u.usr.highest + (systemInfo g).2 < intMax)
    (nr : Int) (ht : Targets g nr m) (hne : d.dim ≠ 0 ∨ xs ≠ []) (acts : List Int) (As : List Act) (hl : d.dim.toNat ≤ acts.length)
    (hA : List.Forall₂ (ActIs g) (acts.take d.dim.toNat) As) (key : List Int) (hk : key.length = d.dim.toNat) :
    ∃ outs g1 n us got g2, Delivered g.rsv (acrOf g) d xs outs ∧ dataReadFilteredStart z g nr acts = .ok (g1, (true, n)) ∧
      NumsOf g us ∧ DeliversMap g1 key got g2 ∧ StableSorted Prod.fst (mapAll As us (recPairs outs)).2 (recPairs got) ∧
      (d.dim ≠ 0 → (got.map RecOut.key).Pairwise (· < ·)) ∧
      (g1.mode = .rMapR → recPairs got = (mapAll As us (recPairs outs)).2) := by
  obtain ⟨hg, hi⟩ := map_run e z cs g hcs hhist hrun
  obtain ⟨outs, g1, n, us, got, g2, a1, a2, a3, a4⟩ := C22_filtered_partial z hz g m d xs h ⟨hg, hi, hx, hroom⟩ nr ht hne acts As hl hA key hk
  refine ⟨outs, g1, n, us, got, g2, a1, a2, a3.nums, a3.gets, a3.recs, ?_, ?_⟩
  · intro h0
    refine a3.order ?_
    obtain ⟨s, hs1, _, hs3⟩ := h.data
    obtain ⟨lo, hi', hst⟩ := hs3.data
    have := hst.dim
    rw [hs1.dim] at this
    omega
  · exact a3.stream

/-! ### concrete histories -/

/-- gdxDataReadMap until it fails, each time with the array of the last call (`keep`) or with a new one; keys and first changed positions -/
def mapKeysRead (keep : Bool) : Nat → Gx → List Int → Res (Gx × List (List Int × Nat))
  | 0, g, _ => .ok (g, [])
  | n + 1, g, key => do
    let (g, o) ← dataReadMap g key
    match o with
    | none => .ok (g, [])
    | some r => do
      let (g, rs) ← mapKeysRead keep n g (if keep then r.key else key)
      pure (g, (r.key, r.frst) :: rs)

/-- three elements, a parameter over them and one over pairs of them -/
def exMap22 : List Call :=
  [.openWrite false 0 [65] 0, .uelRawStart, .uelRaw [97], .uelRaw [98], .uelRaw [99], .uelDone,
   .rawStart [112] [] 1 1 0, .writeRaw [1] [1], .writeRaw [2] [2], .writeRaw [3] [3], .writeDone,
   .rawStart [113] [] 2 1 0, .writeRaw [1, 2] [1], .writeRaw [1, 3] [2], .writeRaw [2, 1] [3], .writeRaw [3, 2] [4], .writeDone,
   .rawStart [115] [] 0 1 0, .writeDone]

/-- the file reopened, further calls, then a mapped read of symbol `nr` -/
def mapped22 (keep : Bool) (cs : List Call) (nr : Int) (acts key : List Int) : Res (Bool × List (List Int × Nat)) :=
  reopened26 exMap22 fun g => do
    let g ← run ⟨[]⟩ Cz.id g cs
    let (g, _) ← dataReadFilteredStart Cz.id g nr acts
    let (_, l) ← mapKeysRead keep 9 g key
    pure (decide (g.mode = .rMapR), l)

/-- elements are delivered as they are -/
example : mapped22 true [] 1 [-2] [0] = .ok (true, [([1], 1), ([2], 1), ([3], 1)]) := by decide +kernel

/-- a filter over two user numbers, streamed -/
example : mapped22 true [.uelMapStart, .uelMap 5 [97], .uelMap 7 [98], .uelMap 9 [99], .uelDone, .filterStart 1, .filterAdd 5, .filterAdd 9,
    .filterDone] 1 [1] [0] = .ok (true, [([5], 1), ([9], 1)]) := by decide +kernel

/-- the same with user numbers in the other order: sorted -/
example : mapped22 true [.uelMapStart, .uelMap 7 [97], .uelMap 5 [98], .uelMap 9 [99], .uelDone, .filterStart 1, .filterAdd 5, .filterAdd 7,
    .filterDone] 1 [1] [0] = .ok (false, [([5], 1), ([7], 1)]) := by decide +kernel

/-- all positions strict -/
example : mapped22 true [.uelMapStart, .uelMap 1 [97], .uelMap 2 [98], .uelMap 3 [99], .uelDone] 2 [0, 0] [0, 0] =
    .ok (true, [([1, 2], 1), ([1, 3], 2), ([2, 1], 1), ([3, 2], 1)]) := by decide +kernel

/-- C23 is wrong when a user number is given again: the filter 1 with the user numbers 5 and 7 was found to be in order when it was
    registered; then the third element gets the number 5 too. The records are streamed as 5, 7, 5. -/
theorem C23_reuse : mapped22 true [.uelMapStart, .uelMap 5 [97], .uelMap 7 [98], .uelDone, .filterStart 1, .filterAdd 5, .filterAdd 7, .filterDone,
    .uelMapStart, .uelMap 5 [99], .uelDone] 1 [1] [0] = .ok (true, [([5], 1), ([7], 1), ([5], 1)]) := by decide +kernel

/-- C22, the second position strict and the first expanding, only `b` with a number at the beginning: of the records (a,b), (a,c), (b,a),
    (c,b) the third is delivered although `a` had no number when reading began, the second is not although `c` has one in the end. -/
theorem C22_mixed : mapped22 true [.uelMapStart, .uelMap 1 [98], .uelDone] 2 [-1, 0] [0, 0] =
    .ok (false, [([1, 2], 1), ([2, 1], 1), ([3, 1], 1)]) := by decide +kernel

/-- C22 is wrong for a caller who gives a new array to each call of gdxDataReadMap: the second key should be 1, 3. -/
theorem C22_fresh : mapped22 false [.uelMapStart, .uelMap 1 [97], .uelMap 2 [98], .uelMap 3 [99], .uelDone] 2 [0, 0] [0, 0] =
    .ok (true, [([1, 2], 1), ([0, 3], 1), ([2, 1], 1), ([3, 2], 1)]) := by decide +kernel

/-- C24 is wrong for mapped reads of the universe: the first record is compared with the last record of the read before. -/
theorem C24_universe_stale :
    mapped22 true [.uelMapStart, .uelMap 1 [97], .uelMap 2 [98], .uelDone, .readMapStart 1, .readMap [0], .readDone] 0 [0] [0] =
      .ok (true, [([1], 0), ([2], 1)]) ∧
    mapped22 true [.uelMapStart, .uelMap 1 [97], .uelMap 2 [98], .uelDone] 0 [0] [0] = .ok (true, [([1], 1), ([2], 1)]) := by decide +kernel

/-- C37 for mapped reads of a scalar without record: one default record; but after a sorted mapped read the call that should find the end
    uses the deleted sort list. -/
theorem C37_mapped_stale : mapped22 true [] 3 [] [] = .ok (false, [([], 0)]) ∧
    mapped22 true [.uelMapStart, .uelMap 2 [97], .uelMap 1 [98], .uelDone, .readMapStart 1, .readDone] 3 [] [] = .ub := by decide +kernel

/-- C22 with an element number that is not in the table (written with gdxDataWriteRaw) in the sorting variant: a strict read looks beyond
    the end of the table. -/
theorem C22_beyond : reopened26 [.openWrite false 0 [65] 0, .uelRawStart, .uelRaw [97], .uelRaw [98], .uelDone, .rawStart [112] [] 1 1 0,
      .writeRaw [9] [1], .writeDone]
    (fun g => do
      let g ← run ⟨[]⟩ Cz.id g [.uelMapStart, .uelMap 2 [97], .uelMap 1 [98], .uelDone]
      let (_, b) ← dataReadMapStart Cz.id g 1
      pure b) = .ub := by decide +kernel

/-! ### C37: scalars without record -/

/-- A scalar for which no record was written is delivered by the mapped reader with its default values; the next call finds the end
    (see `C37_mapped_stale` for the condition on ReadPtr). -/
theorem C37_mapped_partial (z : Cz) (hz : z.Good) (g : Gx) (m : Nat) (d : SymDesc) (h : Loaded z g m d []) (nr : Int) (ht : Targets g nr m)
    (h0 : d.dim = 0) (hp : g.readPtr = none) (acts key : List Int) :
    ∃ g1 g2 g3, dataReadFilteredStart z g nr acts = .ok (g1, (true, 1)) ∧
      dataReadMap g1 key = .ok (g2, some ⟨[], defaults g.rsv d.typ d.ui, 0⟩) ∧ dataReadMap g2 [] = .ok (g3, none) := by
  obtain ⟨hm, hsv, ⟨s, hs1, hs2, hs3⟩, u, hu, hshort⟩ := h
  obtain ⟨fs, hfs⟩ := Option.isSome_iff_exists.mp hs3.filt
  have hdim : s.dim = 0 := hs1.dim.trans h0
  obtain ⟨lo, hi, hd⟩ := hs3.data
  have hcnt : s.dataCount = 0 := hd.cnt
  have hprep := hs3.prepare hm ht (acts := acts) (das := []) (nm := .rMap) (by rw [hdim]; exact Nat.zero_le _) (fun l _ => by rw [hdim]; rfl)
  obtain ⟨nr', bs, out, t, h1, h2, h3, h4, h5⟩ := hd.header hz
  have hres : ∃ g1, prepareRead z g nr acts .rMap = .ok (g1, 1) ∧ g1.scalarFrst = true ∧ g1.mode = .rMap ∧ g1.cur = .sym (m + 1) ∧
      g1.names = g.names ∧ g1.rsv = g.rsv ∧ g1.readPtr = g.readPtr := by
    rw [hprep]
    unfold prepareData
    rw [h1, rdStrE_encStr (by decide)]
    simp only [ne_eq, not_true_eq_false, if_false]
    have hb : (UInt8.ofNat s.dim.toNat).toNat = s.dim.toNat := by rw [hdim]; rfl
    simp only [rdOk, wrByte, List.cons_append, List.nil_append, rdByte_cons, need, Res.bind_ok]
    rw [hb, if_neg (by simp only [Gx.atBlock, not_not]; omega), rdInt_wrInt _ h2]
    simp only [Res.bind_ok]
    rw [if_pos ⟨hdim, hcnt⟩]
    exact ⟨_, rfl, rfl, rfl, rfl, rfl, rfl, rfl⟩
  obtain ⟨g1, e1, e2, e3, e4, e5, e6, e7⟩ := hres
  have hcur : g1.curSym = .ok s := by
    obtain ⟨syms, n1, n2⟩ := hs3.names
    unfold Gx.curSym
    rw [e4, e5, n1]
    exact at1_of (by omega) (by simpa using n2)
  refine ⟨g1, { g1 with scalarFrst := false }, { g1 with scalarFrst := false }, ?_, ?_, ?_⟩
  · unfold dataReadFilteredStart
    rw [e1]
    rfl
  · unfold dataReadMap
    have e : g1.chk [.rMap, .rMapR] = (g1, true) := by
      unfold Gx.chk
      rw [if_pos (by rw [e3]; simp)]
    rw [e]
    simp only [Bool.true_eq_false, if_false]
    rw [if_neg (by rw [e4]; simp), if_pos ⟨by rw [e4]; simp, e2⟩, hcur]
    simp only [Res.bind_ok, Res.pure_eq]
    rw [e6, default_values, hs1.typ, hs1.ui]
  · rw [dataReadMap_list (g := { g1 with scalarFrst := false }) e3 (by show g1.cur ≠ _; rw [e4]; simp) rfl]
    show (match g1.readPtr with | none => _ | some [] => _ | some (r :: rs) => _) = _
    rw [e7, hp]
    rfl

#print axioms C22_filtered_partial
#print axioms C22_mapped_partial
#print axioms C22_universe_partial
#print axioms C22_filter
#print axioms C12_history_partial
#print axioms C23_history_partial
#print axioms C37_mapped_partial

end Gdx.Props
