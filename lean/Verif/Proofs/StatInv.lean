import Verif.Props.Elements
import Verif.Proofs.MapStatus
import Verif.Proofs.Kept
import Verif.Proofs.BitArr

/-!
What the mapped reader relies on holds after every history: user numbers correspond to elements, a cached status of the
user map is right, and filters marked as sorted are sorted.
-/

namespace Gdx

open Gdx.Spec Gdx.Props

/-! ### tables that only get more user numbers -/

/-- the numbers of `u` are kept and numbers that are not in use may be added -/
structure UExt (u v : Uel) : Prop where
  keep : ∀ (n : Nat) (s : Str) (k : Int), u.ents[n]? = some (s, k) → 0 ≤ k → ∃ s', v.ents[n]? = some (s', k)
  new : ∀ (n : Nat) (s : Str) (k : Int), v.ents[n]? = some (s, k) → 0 ≤ k → (∃ s', u.ents[n]? = some (s', k)) ∨ u.usr.get k = -1

theorem UExt.of_ents {u v : Uel} (h : v.ents = u.ents) : UExt u v :=
  ⟨fun n s k hn _ => ⟨s, h ▸ hn⟩, fun n s k hn _ => Or.inl ⟨s, h ▸ hn⟩⟩

theorem UExt.refl (u : Uel) : UExt u u := .of_ents rfl

theorem UExt.trans {u v w : Uel} (hu : UsrOk u) (hv : UsrOk v) (h1 : UExt u v) (h2 : UExt v w) : UExt u w := by
  refine ⟨?_, ?_⟩
  · intro n s k hn hk
    obtain ⟨s', h3⟩ := h1.keep n s k hn hk
    exact h2.keep n s' k h3 hk
  · intro n s k hn hk
    rcases h2.new n s k hn hk with ⟨s', h3⟩ | h3
    · exact h1.new n s' k h3 hk
    · by_cases hg : u.usr.get k = -1
      · exact Or.inr hg
      · obtain ⟨m, x, _, h5⟩ := hu.fwd k hg
        obtain ⟨x', h6⟩ := h1.keep m x k h5 hk
        rcases hv.bwd m x' k h6 with h7 | ⟨_, h7⟩
        · omega
        · omega

theorem UExt.add (u : Uel) (s : Str) : UExt u { u with ents := u.ents ++ [(s, -1)] } := by
  refine ⟨?_, ?_⟩
  · intro n x k hn _
    refine ⟨x, ?_⟩
    show (u.ents ++ [(s, -1)])[n]? = _
    rw [List.getElem?_append_left (List.getElem?_eq_some_iff.mp hn).1]
    exact hn
  · intro n x k hn hk
    have hn : (u.ents ++ [(s, -1)])[n]? = some (x, k) := hn
    rcases Nat.lt_or_ge n u.ents.length with hl | hl
    · rw [List.getElem?_append_left hl] at hn
      exact Or.inl ⟨x, hn⟩
    · rw [List.getElem?_append_right hl] at hn
      rcases Nat.eq_zero_or_pos (n - u.ents.length) with h0 | h0
      · rw [h0] at hn
        cases hn
        omega
      · rw [List.getElem?_eq_none (by simp; omega)] at hn
        cases hn

theorem UExt.addObject (u : Uel) (s : Str) : UExt u (u.addObject s).1 := by
  unfold Uel.addObject
  split
  · exact .refl u
  · exact .add u s

theorem UExt.assign {u : Uel} {en : Nat} {s : Str} {d k : Int} {m : IntMap} (he : at1 u.ents en = .ok (s, d)) (hd : d < 0)
    (hk : u.usr.get k = -1) : UExt u { u.setMap en k with usr := m, stat := none } := by
  obtain ⟨he1, he2, he3⟩ := at1_ok he
  have hen : ((en : Int) - 1).toNat = en - 1 := by omega
  rw [hen] at he3
  refine ⟨?_, ?_⟩
  · intro n x j hn hj
    show ∃ s', (u.setMap en k).ents[n]? = some (s', j)
    rw [setMap_get]
    split
    · rename_i h
      subst h
      rw [he3] at hn
      cases hn
      omega
    · exact ⟨x, hn⟩
  · intro n x j hn hj
    have hn : (u.setMap en k).ents[n]? = some (x, j) := hn
    rw [setMap_get] at hn
    split at hn
    · rename_i h
      subst h
      rw [he3] at hn
      cases hn
      exact Or.inr hk
    · exact Or.inl ⟨x, hn⟩

/-- an entry is confirmed: nothing changes -/
theorem confirm_same {u : Uel} (hu : UsrOk u) {hi : Int} {s : Str} {d : Int} (h : at1 u.ents (u.usr.get hi) = .ok (s, d)) :
    u.setMap (u.usr.get hi).toNat hi = u := by
  obtain ⟨g1, g2, g3⟩ := at1_ok h
  obtain ⟨n, s', h4, h5⟩ := hu.fwd hi (by omega)
  have : (u.setMap (u.usr.get hi).toNat hi).ents = u.ents := by
    apply List.ext_getElem?
    intro i
    rw [setMap_get]
    split
    · have : i = n := by omega
      subst this
      rw [h5]
      rfl
    · rfl
  show ({ u with ents := (u.setMap (u.usr.get hi).toNat hi).ents } : Uel) = u
  rw [this]

theorem UelStep.ext {lc : Lic} {a b : Uel} (h : UelStep lc a b) (hu : UsrOk a) : UExt a b := by
  cases h with
  | add s h1 h2 h3 => exact .add a s
  | stat x h => exact .of_ents rfl
  | newUsr en s d m h hd hm =>
    refine .assign h hd ?_
    by_contra hne
    have := hu.hi _ hne
    omega
  | confirm hi s d h1 h hd =>
    rw [confirm_same hu h]
    exact .refl a

/-! ### filters -/

/-- a filter admits only numbers that are in use, and it is sorted if it is marked so -/
def FiltOk (us : Users) (f : Filt) : Prop := FiltUp us f ∧ (∀ v, f.mem v = true → ∃ e, us.num e = v) ∧ f.map.Inv

theorem num_ents {u : Uel} {n : Nat} {s : Str} {k : Int} (h : u.ents[n]? = some (s, k)) : u.users.num ((n : Int) + 1) = k := by
  have hl := (List.getElem?_eq_some_iff.mp h).1
  obtain ⟨q1, q2⟩ := num_of (u := u) (e := (n : Int) + 1) (by omega) (by unfold Uel.size; omega)
  rw [q2]
  have : ((n : Int) + 1 - 1).toNat = n := by omega
  have h2 := (List.getElem?_eq_some_iff.mp h).2
  simp only [this, List.getElem_map, h2]

theorem ents_num {u : Uel} {e : Int} (h : 0 ≤ u.users.num e) : ∃ s, u.ents[(e - 1).toNat]? = some (s, u.users.num e) ∧ 1 ≤ e := by
  obtain ⟨q1, q2, q3⟩ := num_at h
  rw [List.length_map] at q1
  refine ⟨(u.ents[(e - 1).toNat]).1, ?_, q2⟩
  rw [List.getElem?_eq_getElem q1, q3, List.getElem_map]

theorem UExt.num_keep {u v : Uel} (h : UExt u v) {e : Int} (he : 0 ≤ u.users.num e) : v.users.num e = u.users.num e := by
  obtain ⟨s, h1, h2⟩ := ents_num he
  obtain ⟨s', h3⟩ := h.keep _ _ _ h1 he
  have := num_ents h3
  rwa [show (((e - 1).toNat : Nat) : Int) + 1 = e by omega] at this

theorem UExt.num_new {u v : Uel} (hu : UsrOk u) (h : UExt u v) {e e' : Int} (he : 0 ≤ v.users.num e) (he' : u.users.num e' = v.users.num e) :
    u.users.num e = v.users.num e := by
  obtain ⟨s, h1, h2⟩ := ents_num he
  rcases h.new _ _ _ h1 he with ⟨s', h3⟩ | h3
  · have := num_ents h3
    rwa [show (((e - 1).toNat : Nat) : Int) + 1 = e by omega] at this
  · obtain ⟨x, h4, h5⟩ := ents_num (u := u) (e := e') (by omega)
    rw [he'] at h4
    rcases hu.bwd _ _ _ h4 with h6 | ⟨_, h6⟩
    · omega
    · omega

theorem FiltOk.ext {u v : Uel} (hu : UsrOk u) (h : UExt u v) {f : Filt} (hf : FiltOk u.users f) : FiltOk v.users f := by
  have hback : ∀ e, f.mem (v.users.num e) = true → u.users.num e = v.users.num e := by
    intro e he
    obtain ⟨e', h1⟩ := hf.2.1 _ he
    exact h.num_new hu (mem_nonneg he) h1
  refine ⟨?_, ?_⟩
  · intro hs e e' hlt h1 h2
    have b1 := hback e h1
    have b2 := hback e' h2
    rw [← b1, ← b2]
    exact hf.1 hs e e' hlt (b1 ▸ h1) (b2 ▸ h2)
  · refine ⟨?_, hf.2.2⟩
    intro x hx
    obtain ⟨e, rfl⟩ := hf.2.1 x hx
    exact ⟨e, h.num_keep (mem_nonneg hx)⟩

/-! ### gdxUELRegisterMap -/

theorem uelRegisterMap_ext {g : Gx} (k : Int) (s : Str) (hgood : GoodElems g) (h : UsrCons g) (hr : NoReuse g (.uelMap k s)) :
    (uelRegisterMap g k s).All fun x => x.1.filters = g.filters ∧ x.1.mode = g.mode ∧
      ∀ v, x.1.uel = some v → ∃ u, g.uel = some u ∧ UsrOk v ∧ UExt u v ∧ (v.stat = none ∨ v = u) := by
  unfold uelRegisterMap
  refine Res.All.bind' ?_
  intro t ht
  have hsame : ∀ v, g.uel = some v → ∃ u, g.uel = some u ∧ UsrOk v ∧ UExt u v ∧ (v.stat = none ∨ v = u) :=
    fun v hv => ⟨v, hv, h v hv, .refl v, Or.inr rfl⟩
  rcases chk_cases g [.mapElem] with ⟨hm, hc⟩ | ⟨hm, hc⟩
  · rw [hc]
    simp only [Bool.true_eq_false, if_false]
    split
    · exact ⟨rfl, rfl, hsame⟩
    rename_i hgd
    have hgd : goodUEL t = true := by simpa using hgd
    refine Res.All.bind' ?_
    intro u hu
    have hu := need_ok hu
    have htt := trimR_trimmed ht
    have h0 := addObject_usrOk hgd htt (h u hu)
    have hx0 := UExt.addObject u t
    have hgo : UelGood (u.addObject t).1 := by
      unfold Uel.addObject
      split
      · exact hgood u hu
      · rename_i hl
        exact UelStep.good (lc := fun _ => True) (.add u t hgd htt hl (Or.inr trivial)) (hgood u hu)
    refine Res.All.bind (Q := fun r => UsrOk r.1 ∧ UExt u r.1 ∧ r.1.stat = none) ?_ ?_
    · unfold Uel.addUsrIndxNew
      simp only
      obtain ⟨x, hx1, hx2⟩ := addObject_at (u := u) (s := t)
      refine Res.All.bind' ?_
      intro d hd
      obtain ⟨s', hs'⟩ := userMap_ok hd
      rw [hx1] at hs'
      cases hs'
      split
      · rename_i hneg
        refine Res.All.bind' ?_
        intro m hm
        have hfree : (u.addObject t).1.usr.get k = -1 := by
          by_contra hne
          obtain ⟨n, y, h1, h2⟩ := h0.fwd k hne
          have hk0 : 0 ≤ k := (IntMap.set_ok hm).1
          have hy := hr k s u rfl hu n y (addObject_ents u t n y k hk0 h2)
          rw [← trimR_ok ht] at hy
          obtain ⟨g1, g2, g3⟩ := at1_ok hx1
          have e1 : (u.addObject t).1.strs[n]? = some y := by unfold Uel.strs; rw [List.getElem?_map, h2]; rfl
          have e2 : (u.addObject t).1.strs[(((u.addObject t).2 : Int) - 1).toNat]? = some s' := by
            unfold Uel.strs; rw [List.getElem?_map, g3]; rfl
          have := hgo.distinct.eq e1 e2 (sameName_tr (cs := false) hy (sameName_comm (cs := false) hx2))
          rw [← this, h2] at g3
          cases g3
          omega
        exact ⟨h0.assign hx1 hneg hfree hm none, (hx0.trans (h u hu) h0 (.assign hx1 hneg hfree)), rfl⟩
      · have hst := UelStep.usrOk (lc := fun _ => True) (.stat _ none (Or.inl rfl)) h0
        split
        · exact ⟨hst, hx0.trans (h u hu) h0 (.of_ents rfl), rfl⟩
        · exact ⟨hst, hx0.trans (h u hu) h0 (.of_ents rfl), rfl⟩
    · rintro ⟨u', n⟩ ⟨p1, p2, p3⟩
      simp only at p1 p2 p3 ⊢
      have hfin : ∀ v, some u' = some v → ∃ u, g.uel = some u ∧ UsrOk v ∧ UExt u v ∧ (v.stat = none ∨ v = u) := by
        intro v hv
        cases hv
        exact ⟨u, hu, p1, p2, Or.inl p3⟩
      split
      · exact ⟨rfl, rfl, hfin⟩
      · exact ⟨rfl, rfl, hfin⟩
  · rw [hc]
    exact ⟨rfl, rfl, hsame⟩

/-! ### the invariants of one object -/

/-- user numbers and filters -/
structure FiltInv (g : Gx) : Prop where
  usr : UsrCons g
  filt : ∀ u fs, g.uel = some u → g.filters = some fs → ∀ f ∈ fs, FiltOk u.users f
  last : g.mode = .rFilter → ∀ fs f, g.filters = some fs → fs.getLast? = some f → f.sorted = false

/-- all that mapped reading relies on -/
structure MapInv (g : Gx) : Prop extends FiltInv g where
  right : ∀ u, g.uel = some u → StatRight u
  inRd : ∀ u, g.uel = some u → u.stat ≠ none → InRead g

theorem FiltInv.same {a b : Gx} (h : FiltInv a) (hu : b.uel = a.uel) (hf : b.filters = a.filters) (hm : b.mode = .rFilter → a.mode = .rFilter) :
    FiltInv b :=
  ⟨fun u hu' => h.usr u (hu ▸ hu'), fun u fs h1 h2 => h.filt u fs (hu ▸ h1) (hf ▸ h2), fun h1 fs f h2 => h.last (hm h1) fs f (hf ▸ h2)⟩

theorem FiltInv.ext {a b : Gx} (h : FiltInv a) {u v : Uel} (hu : a.uel = some u) (hv : b.uel = some v) (hok : UsrOk v) (hx : UExt u v)
    (hf : b.filters = a.filters) (hm : b.mode = a.mode) : FiltInv b := by
  refine ⟨?_, ?_, ?_⟩
  · intro w hw
    rw [hv] at hw
    cases hw
    exact hok
  · intro w fs hw hfs f hmem
    rw [hv] at hw
    cases hw
    exact (h.filt u fs hu (hf ▸ hfs) f hmem).ext (h.usr u hu) hx
  · intro h1 fs f h2
    exact h.last (hm ▸ h1) fs f (hf ▸ h2)

theorem FiltInv.prim {lc : Lic} (hl : ¬ lc .filt) : ∀ a b, Prim lc a b → FiltInv a → FiltInv b := by
  intro a b h hg
  cases h with
  | ctrl h _ hf =>
    rcases hf with ⟨h1, h2⟩ | h1
    · exact hg.same (congrArg Core.uel h) h1 h2
    · exact absurd h1 hl
  | uel u u' hu hs => exact hg.ext hu rfl (hs.usrOk (hg.usr u hu)) (hs.ext (hg.usr u hu)) rfl rfl
  | addSym syms acros s c m h ha hs hc hm =>
    refine hg.same rfl rfl ?_
    intro h1
    rcases hm with hm | hm
    · exact hm ▸ h1
    · exact absurd h1 hm
  | _ => exact hg.same rfl rfl id

theorem UExt.rename (u : Uel) (n : Nat) (s : Str) : UExt u (u.rename n s) := by
  have hget : ∀ i, (u.rename n s).ents[i]? = if n - 1 = i then (u.ents[i]?).map fun e => (s, e.2) else u.ents[i]? := by
    intro i
    unfold Uel.rename
    rw [List.getElem?_modify]
    split <;> simp
  refine ⟨?_, ?_⟩
  · intro i x k h hk
    rw [hget]
    split
    · rw [h]; exact ⟨s, rfl⟩
    · exact ⟨x, h⟩
  · intro i x k h hk
    rw [hget] at h
    split at h
    · cases hi : u.ents[i]? with
      | none => rw [hi] at h; cases h
      | some e =>
        rw [hi] at h
        cases h
        exact Or.inl ⟨e.1, rfl⟩
    · exact Or.inl ⟨x, h⟩

theorem FiltInv.step (e : Env) (z : Cz) {g g' : Gx} {c : Call} (hc : c.WF) (hl : ¬ c.lic .filt) (hr : c.opensRead = false) (hw : c.opensWrite = false)
    (ha : Aft g) (hgood : GoodElems g) (hn : NoReuse g c) (hg : step e z g c = .ok g') (h : FiltInv g) : FiltInv g' := by
  refine (step_inv_l (P := FiltInv) (FiltInv.prim hl) ?_ (fun _ h => h.same rfl rfl id) e z hc hr hw ha ?_ ?_ h).of_ok hg
  · intro x f lg hx
    exact ⟨fun u hu => (by cases hu), fun u fs hu => (by cases hu), fun hm => (by cases hm)⟩
  · rintro k s rfl
    refine (uelRegisterMap_ext k s hgood h.usr hn).mono ?_
    rintro ⟨x, b⟩ ⟨h1, h2, h3⟩
    cases hu : x.uel with
    | none => exact ⟨fun u hu' => (by rw [hu] at hu'; cases hu'), fun u fs hu' => (by rw [hu] at hu'; cases hu'),
        fun hm fs f hf => h.last (h2 ▸ hm) fs f (h1 ▸ hf)⟩
    | some v =>
      obtain ⟨u, p1, p2, p3, _⟩ := h3 v hu
      exact h.ext p1 hu p2 p3 h1 h2
  · rintro o s rfl
    refine renameUEL_inv (P := FiltInv) ?_ o s h
    rintro x u u' hu ⟨n, s, _, _, _, _, _⟩ hx
    exact hx.ext hu rfl ((hx.usr u hu).rename n s) (.rename u n s) rfl rfl

/-! ### the cached status -/

/-- nothing is cached -/
def NoStat (g : Gx) : Prop := ∀ u, g.uel = some u → u.stat = none

theorem NoStat.prim {lc : Lic} (hl : ¬ lc .stat) : ∀ a b, Prim lc a b → NoStat a → NoStat b := by
  intro a b h hg
  cases h with
  | ctrl h _ _ => intro u hu; exact hg u (by rw [← show b.uel = a.uel from congrArg Core.uel h]; exact hu)
  | uel u u' hu hs =>
    intro v hv
    cases hv
    cases hs with
    | add s h1 h2 h3 => exact hg u hu
    | stat x h =>
      rcases h with h | ⟨_, h⟩
      · exact h
      · exact absurd h hl
    | newUsr => rfl
    | confirm => exact hg u hu
  | _ => exact hg

theorem NoStat.step (e : Env) (z : Cz) {g g' : Gx} {c : Call} (hc : c.WF) (hl : ¬ c.lic .stat) (hr : c.opensRead = false) (hw : c.opensWrite = false)
    (ha : Aft g) (hg : step e z g c = .ok g') (h : NoStat g) : NoStat g' := by
  refine (step_inv_l (P := NoStat) (NoStat.prim hl) ?_ (fun _ h => h) e z hc hr hw ha ?_ ?_ h).of_ok hg
  · intro x f lg hx u hu
    cases hu
  · rintro k s rfl
    refine uelRegisterMap_inv (lc := fun _ => False) (P := NoStat) (NoStat.prim id) ?_ k s h
    rintro x u u' hu ⟨en, s, d, k, m, _, _, _⟩ hx v hv
    cases hv
    rfl
  · rintro o s rfl
    refine renameUEL_inv (P := NoStat) ?_ o s h
    rintro x u u' hu ⟨n, s, _, _, _, _, _⟩ hx v hv
    cases hv
    exact hx u hu

/-- user numbers and a right status -/
structure StatInv (g : Gx) : Prop where
  usr : UsrCons g
  right : ∀ u, g.uel = some u → StatRight u

theorem StatInv.prim {lc : Lic} (hl : ¬ lc .elem) : ∀ a b, Prim lc a b → StatInv a → StatInv b := by
  intro a b h hg
  refine ⟨UsrCons.prim a b (h.mono fun _ _ => trivial) hg.usr, ?_⟩
  have hr := hg.right
  cases h with
  | ctrl h _ _ => intro u hu; exact hr u (by rw [← show b.uel = a.uel from congrArg Core.uel h]; exact hu)
  | uel u u' hu hs =>
    intro v hv
    cases hv
    cases hs with
    | add s h1 h2 h3 h4 =>
      rcases h4 with h4 | h4
      · intro st hst
        have hst : u.stat = some st := hst
        rw [h4] at hst
        cases hst
      · exact absurd h4 hl
    | stat x h =>
      intro st hst
      have hst : x = some st := hst
      rcases h with h | ⟨h, _⟩
      · rw [h] at hst; cases hst
      · rw [h] at hst; cases hst; rfl
    | newUsr =>
      intro st hst
      cases hst
    | confirm hi s d h1 h hd =>
      rw [confirm_same (hg.usr u hu) h]
      exact hr u hu
  | _ => exact hr

theorem calcStat_rename (u : Uel) (n : Nat) (s : Str) : (u.rename n s).calcStat = u.calcStat := by
  unfold Uel.calcStat
  rw [show (u.rename n s).ents.map Prod.snd = u.ents.map Prod.snd from ?_]
  apply List.ext_getElem?
  intro i
  unfold Uel.rename
  simp only [List.getElem?_map, List.getElem?_modify]
  cases u.ents[i]? with
  | none => rfl
  | some e =>
    simp only [Option.map_some, Option.map_eq_map]
    split <;> rfl

theorem StatInv.step (e : Env) (z : Cz) {g g' : Gx} {c : Call} (hc : c.WF) (hl : ¬ c.lic .elem) (hr : c.opensRead = false) (hw : c.opensWrite = false)
    (ha : Aft g) (hgood : GoodElems g) (hn : NoReuse g c) (hg : step e z g c = .ok g') (h : StatInv g) : StatInv g' := by
  refine (step_inv_l (P := StatInv) (StatInv.prim hl) ?_ (fun _ h => ⟨h.usr, h.right⟩) e z hc hr hw ha ?_ ?_ h).of_ok hg
  · intro x f lg hx
    exact ⟨fun u hu => (by cases hu), fun u hu => (by cases hu)⟩
  · rintro k s rfl
    refine (uelRegisterMap_ext k s hgood h.usr hn).mono ?_
    rintro ⟨x, b⟩ ⟨h1, h2, h3⟩
    refine ⟨?_, ?_⟩
    · intro v hv
      obtain ⟨u, p1, p2, p3, _⟩ := h3 v hv
      exact p2
    · intro v hv
      obtain ⟨u, p1, p2, p3, p4⟩ := h3 v hv
      rcases p4 with p4 | rfl
      · intro st hst
        rw [p4] at hst
        cases hst
      · exact h.right v p1
  · rintro o s rfl
    refine renameUEL_inv (P := StatInv) ?_ o s h
    rintro x u u' hu ⟨n, s, _, _, _, _, _⟩ hx
    refine ⟨?_, ?_⟩
    · intro v hv
      cases hv
      exact (hx.usr u hu).rename n s
    · intro v hv
      cases hv
      intro st hst
      rw [calcStat_rename]
      exact hx.right u hu st hst

/-! ### opening -/

/-- what the invariants are about -/
def Gx.mapPart (g : Gx) : Option Uel × Option (List Filt) × Mode := (g.uel, g.filters, g.mode)

theorem openHeader_part (g : Gx) (l : List UInt8) : (openHeader g l).All fun x => x.1.mapPart = g.mapPart := by
  unfold openHeader
  refine Res.All.bind' ?_
  rintro ⟨b, l⟩ _
  simp only
  split
  · rfl
  split
  · rfl
  refine Res.All.bind' ?_
  rintro ⟨v, l⟩ _
  simp only
  split
  · rfl
  refine Res.All.bind' ?_
  rintro ⟨c, l⟩ _
  simp only
  refine Res.All.bind' ?_
  rintro ⟨m, l⟩ _
  simp only
  split
  · rfl
  refine Res.All.bind' ?_
  rintro ⟨ix, l⟩ _
  rfl

theorem openTexts_part (z : Cz) (ix : Index) (g : Gx) : (openTexts z ix g).All fun x => x.1.mapPart = g.mapPart := by
  unfold openTexts
  refine Res.All.bind' ?_
  intro l _
  simp only
  split
  · rfl
  refine Res.All.bind' ?_
  rintro ⟨n, l⟩ _
  simp only
  refine Res.All.bind' ?_
  rintro ⟨strs, l⟩ _
  simp only
  refine Res.All.bind' ?_
  rintro ⟨t, mp⟩ _
  simp only
  split <;> rfl

theorem openAcros_part (z : Cz) (ix : Index) (g : Gx) : (openAcros z ix g).All fun x => x.1.mapPart = g.mapPart := by
  unfold openAcros
  refine Res.All.bind' ?_
  intro l _
  simp only
  split
  · rfl
  refine Res.All.bind' ?_
  rintro ⟨a, l⟩ _
  simp only
  split <;> rfl

theorem openDoms_part (z : Cz) (ix : Index) (g : Gx) : (openDoms z ix g).All fun x => x.1.mapPart = g.mapPart := by
  unfold openDoms
  refine Res.All.bind' ?_
  intro l _
  simp only
  split
  · rfl
  refine Res.All.bind' ?_
  rintro ⟨n, l⟩ _
  simp only
  refine Res.All.bind' ?_
  rintro ⟨strs, l⟩ _
  simp only
  split
  · rfl
  refine Res.All.bind' ?_
  intro syms _
  refine Res.All.bind' ?_
  rintro ⟨syms, l⟩ _
  simp only
  split <;> rfl

/-- while a file is being opened -/
structure OpenInv (g : Gx) : Prop extends FiltInv g where
  mode : g.mode = .notOpen
  noStat : NoStat g

theorem OpenInv.same {a b : Gx} (h : OpenInv a) (hp : b.mapPart = a.mapPart) : OpenInv b := by
  have h1 : b.uel = a.uel := congrArg Prod.fst hp
  have h2 : b.filters = a.filters := congrArg (fun x => x.2.1) hp
  have h3 : b.mode = a.mode := congrArg (fun x => x.2.2) hp
  exact { h.toFiltInv.same h1 h2 (fun h => h3 ▸ h) with mode := h3.trans h.mode, noStat := fun u hu => h.noStat u (h1 ▸ hu) }

theorem OpenInv.filters {a b : Gx} (h : OpenInv a) (h1 : b.uel = a.uel) (h2 : b.filters = some []) (h3 : b.mode = a.mode) : OpenInv b where
  usr := fun u hu => h.usr u (h1 ▸ hu)
  filt := fun u fs _ hf f hm => by rw [h2] at hf; cases hf; cases hm
  last := fun hm => by rw [h3, h.mode] at hm; cases hm
  mode := h3.trans h.mode
  noStat := fun u hu => h.noStat u (h1 ▸ hu)

theorem usrOk_fresh (strs : List Str) : UsrOk { Uel.empty with ents := strs.map fun s => (s, -1) } := by
  refine ⟨?_, ?_, ?_, ?_⟩
  · intro k hk; exact absurd (IntMap.empty_get k) hk
  · intro n s k h
    have h : (strs.map fun s => (s, (-1 : Int)))[n]? = some (s, k) := h
    rw [List.getElem?_map] at h
    cases hn : strs[n]? with
    | none => rw [hn] at h; cases h
    | some x => rw [hn] at h; cases h; exact Or.inl rfl
  · intro k hk; exact absurd (IntMap.empty_get k) hk
  · show (0 : Int) ≤ 0; omega

theorem OpenInv.uel {a b : Gx} (h : OpenInv a) (h0 : a.filters = some []) (strs : List Str)
    (h1 : b.uel = some { Uel.empty with ents := strs.map fun s => (s, -1) }) (h2 : b.filters = a.filters) (h3 : b.mode = a.mode) : OpenInv b where
  usr := fun u hu => by rw [h1] at hu; cases hu; exact usrOk_fresh strs
  filt := fun u fs _ hf f hm => by rw [h2, h0] at hf; cases hf; cases hm
  last := fun hm => by rw [h3, h.mode] at hm; cases hm
  mode := h3.trans h.mode
  noStat := fun u hu => by rw [h1] at hu; cases hu; rfl

theorem openSyms_map (z : Cz) (ix : Index) (g : Gx) (h : OpenInv g) :
    (openSyms z ix g).All fun x => OpenInv x.1 ∧ (x.2 = true → x.1.filters = some []) := by
  unfold openSyms
  refine Res.All.bind' ?_
  intro l _
  simp only
  split
  · exact ⟨h.same rfl, fun h => nomatch h⟩
  refine Res.All.bind' ?_
  rintro ⟨n, l⟩ _
  simp only
  refine Res.All.bind' ?_
  rintro ⟨syms, l⟩ _
  simp only
  split <;> split <;> exact ⟨h.filters rfl rfl rfl, fun _ => rfl⟩

theorem openUels_map (z : Cz) (ix : Index) (g : Gx) (h : OpenInv g) (h0 : g.filters = some []) : (openUels z ix g).All fun x => OpenInv x.1 := by
  unfold openUels
  refine Res.All.bind' ?_
  intro l _
  simp only
  split
  · exact h.uel h0 [] rfl rfl rfl
  refine Res.All.bind' ?_
  rintro ⟨n, l⟩ _
  simp only
  refine Res.All.bind' ?_
  rintro ⟨strs, l⟩ _
  simp only
  split <;> exact h.uel h0 strs rfl rfl rfl

theorem thenOk_of {P Q : Gx → Prop} {r : Res (Gx × Bool)} {f : Gx → Res (Gx × Bool)} (hr : r.All fun x => P x.1 ∧ (x.2 = true → Q x.1))
    (hf : ∀ g, P g → Q g → (f g).All fun x => P x.1) : (thenOk r f).All fun x => P x.1 := by
  unfold thenOk
  refine Res.All.bind hr ?_
  rintro ⟨g, ok⟩ ⟨h1, h2⟩
  cases ok with
  | false => exact h1
  | true => exact hf g h1 (h2 rfl)

theorem openTables_map (z : Cz) (ix : Index) (m : Int) (g : Gx) (h : OpenInv g) : (openTables z ix m g).All fun x => OpenInv x.1 := by
  unfold openTables
  refine thenOk_of (P := OpenInv) (Q := fun x => x.filters = some []) (openSyms_map z ix g h) fun g1 h1 h1' => ?_
  refine thenOk_all (P := OpenInv) (openUels_map z ix g1 h1 h1') fun g2 h2 => ?_
  refine thenOk_all (P := OpenInv) ?_ fun g3 h3 => ?_
  · split
    · exact (openTexts_part z ix g2).mono fun _ h => h2.same h
    · exact h2
  refine thenOk_all (P := OpenInv) ?_ fun g4 h4 => ?_
  · split
    · exact (openAcros_part z ix g3).mono fun _ h => h3.same h
    · exact h3
  simp only
  split
  · exact (openDoms_part z ix _).mono fun _ h => h4.same h
  · exact h4.same rfl

theorem MapInv.opened {a b : Gx} (h : OpenInv a) (h1 : b.uel = a.uel) (h2 : b.filters = a.filters) (h3 : b.mode ≠ .rFilter) : MapInv b where
  usr := fun u hu => h.usr u (h1 ▸ hu)
  filt := fun u fs hu hf => h.filt u fs (h1 ▸ hu) (h2 ▸ hf)
  last := fun hm => absurd hm h3
  right := fun u hu st hs => by rw [h.noStat u (h1 ▸ hu)] at hs; cases hs
  inRd := fun u hu hs => absurd (h.noStat u (h1 ▸ hu)) hs

theorem OpenInv.map {g : Gx} (h : OpenInv g) : MapInv g := .opened h rfl rfl (by rw [h.mode]; decide)

theorem MapInv.opening {g : Gx} (h : MapInv g) (hm : g.mode = .notOpen) : OpenInv g :=
  { h.toFiltInv with
    mode := hm
    noStat := fun u hu => by
      by_contra hne
      rcases h.inRd u hu hne with h1 | ⟨⟨h1, _⟩, _⟩
      · rw [hm] at h1; revert h1; decide
      · rw [hm] at h1; revert h1; decide }

/-- the object before opening, or in an open or half opened state -/
theorem openReadXX_map (z : Cz) (g : Gx) (d : Disk) (m : Int) (h : MapInv g) : (openReadXX z g d m).All fun x => MapInv x.1 ∧
    (x.2.1 = true → ∃ a, OpenInv a ∧ x.1.uel = a.uel ∧ x.1.filters = a.filters ∧ x.1.mode = .rInit) := by
  unfold openReadXX
  by_cases hm : g.mode = .notOpen
  · rw [if_neg (by simpa using hm)]
    have h0 := h.opening hm
    cases d with
    | noName => exact ⟨(h0.same (b := (openNoGood { g.initErrors with readPtr := none } Err.noFile).1) rfl).map, fun h => nomatch h⟩
    | ioErr e => exact ⟨(h0.same (b := (openNoGood { g.initErrors with readPtr := none } e).1) rfl).map, fun h => nomatch h⟩
    | content f =>
      refine Res.All.bind' ?_
      rintro ⟨o, l⟩ _
      simp only
      split
      · exact ⟨(h0.same (b := (openNoGood { g.initErrors with readPtr := none, opened := true, file := f, log := [] } errBadDataFormat).1) rfl).map, fun h => nomatch h⟩
      split
      · trivial
      refine Res.All.bind (openHeader_part _ l) ?_
      rintro ⟨g1, ix⟩ h1
      replace h1 : OpenInv g1 := h0.same h1
      cases ix with
      | none => exact ⟨(h1.same (b := (openFail g1).1) rfl).map, fun h => nomatch h⟩
      | some ix =>
        refine Res.All.bind (openTables_map z ix m g1 h1) ?_
        rintro ⟨g2, ok⟩ h2
        simp only
        split
        · exact ⟨(h2.same (b := (openFail g2).1) rfl).map, fun h => nomatch h⟩
        · exact ⟨.opened h2 rfl rfl (fun h => nomatch h), fun _ => ⟨g2, h2, rfl, rfl, rfl⟩⟩
  · rw [if_pos hm]
    exact ⟨h, fun h => nomatch h⟩

/-! ### the filter calls -/

theorem modLast_mem {α : Type} {l : List α} {F : α → α} {f x : α} (hl : l.getLast? = some f) (h : x ∈ modLast l F) : x ∈ l ∨ x = F f := by
  unfold modLast at h
  obtain ⟨i, hi⟩ := List.mem_iff_getElem?.mp h
  rw [List.getElem?_modify] at hi
  have hlast : l[l.length - 1]? = some f := by rw [← hl, List.getLast?_eq_getElem?]
  cases hx : l[i]? with
  | none => rw [hx] at hi; cases hi
  | some y =>
    rw [hx] at hi
    simp only [Option.map_eq_map, Option.map_some, Option.some.injEq] at hi
    split at hi
    · rename_i h1
      rw [← h1, hlast] at hx
      cases hx
      exact Or.inr hi.symm
    · subst hi
      exact Or.inl (List.mem_of_getElem? hx)

theorem modLast_last {α : Type} {l : List α} {F : α → α} {f : α} (hl : l.getLast? = some f) : (modLast l F).getLast? = some (F f) := by
  unfold modLast
  rw [List.getLast?_eq_getElem?, List.length_modify, List.getElem?_modify, ← List.getLast?_eq_getElem?, hl]
  simp

theorem empty_mem (f : Filt) (h : f.map = BitArr.empty) (v : Int) : f.mem v = false := by
  unfold Filt.mem
  rw [h]
  have : BitArr.empty.get v = false := by
    unfold BitArr.get BitArr.empty
    simp
  rw [this, Bool.and_false]

theorem MapInv.raise {g : Gx} (h : MapInv g) (n : Int) : MapInv (g.raise n) :=
  { h.toFiltInv.same rfl rfl id with right := h.right, inRd := fun u hu hs => (h.inRd u hu hs).same rfl rfl }

theorem filterRegisterStart_map {g : Gx} (h : MapInv g) (nr : Int) : (filterRegisterStart g nr).All fun x => MapInv x.1 := by
  unfold filterRegisterStart
  rcases chk_cases g [.rInit] with ⟨hm, hc⟩ | ⟨hm, hc⟩
  · rw [hc]
    simp only [Bool.true_eq_false, if_false]
    split
    · exact h.raise _
    refine Res.All.bind' ?_
    intro u hu
    refine Res.All.bind' ?_
    intro l hl
    have hl := need_ok hl
    refine { usr := h.usr, filt := ?_, last := ?_, right := h.right, inRd := ?_ }
    · intro v fs hv hfs f hf
      cases hfs
      rcases List.mem_append.mp hf with hf | hf
      · exact h.filt v l hv hl f (List.mem_of_mem_eraseP hf)
      · rw [List.mem_singleton] at hf
        subst hf
        exact ⟨(fun hs => nomatch hs), (fun x hx => by rw [empty_mem _ rfl] at hx; cases hx), .empty⟩
    · intro _ fs f hfs hf
      cases hfs
      rw [List.getLast?_concat] at hf
      cases hf
      rfl
    · intro v hv hs
      exact Or.inl (show ReadMode .rFilter by decide)
  · rw [hc]
    exact h.raise _

theorem filterRegister_map {g : Gx} (h : MapInv g) (um : Int) : (filterRegister g um).All fun x => MapInv x.1 := by
  unfold filterRegister
  rcases chk_cases g [.rFilter] with ⟨hm, hc⟩ | ⟨hm, hc⟩
  · rw [hc]
    simp only [Bool.true_eq_false, if_false]
    refine Res.All.bind' ?_
    intro l hl
    have hl := need_ok hl
    refine Res.All.bind' ?_
    intro f hf
    have hf := need_ok hf
    refine Res.All.bind' ?_
    intro u hu
    have hu := need_ok hu
    split
    · exact h.raise _
    split
    · rename_i hget
      refine Res.All.bind' ?_
      intro m hmp
      have hfok := h.filt u l hu hl f (List.mem_of_getLast? hf)
      have hso := h.last (List.mem_singleton.mp hm) l f hl hf
      obtain ⟨m1, m2⟩ := BitArr.set_true_ok hfok.2.2 hmp
      refine { usr := h.usr, filt := ?_, last := ?_, right := h.right, inRd := ?_ }
      · intro v fs hv hfs f' hf'
        have hv : g.uel = some v := hv
        rw [hu] at hv
        cases hv
        cases hfs
        rcases modLast_mem hf hf' with hf' | rfl
        · exact h.filt u l hu hl f' hf'
        · refine ⟨fun hs => ?_, fun x hx => ?_, m1⟩
          · have hs : f.sorted = true := hs
            rw [hso] at hs
            cases hs
          · by_cases hxu : x = um
            · subst hxu
              obtain ⟨n, s, h3, h4⟩ := (h.usr u hu).fwd x (by omega)
              exact ⟨_, num_ents h4⟩
            · refine hfok.2.1 x ?_
              unfold Filt.mem at hx ⊢
              simp only [Bool.and_eq_true, decide_eq_true_eq] at hx ⊢
              exact ⟨hx.1, by simpa [m2, hxu] using hx.2⟩
      · intro _ fs f' hfs hf'
        cases hfs
        rw [modLast_last hf] at hf'
        cases hf'
        exact hso
      · intro v hv hs
        exact (h.inRd v hv hs).same rfl rfl
    · exact h.raise _
  · rw [hc]
    exact h.raise _

theorem filterRegisterDone_map {g : Gx} (h : MapInv g) : (filterRegisterDone g).All fun x => MapInv x.1 := by
  unfold filterRegisterDone
  rcases chk_cases g [.rFilter] with ⟨hm, hc⟩ | ⟨hm, hc⟩
  · rw [hc]
    simp only [Bool.true_eq_false, if_false]
    refine Res.All.bind' ?_
    intro l hl
    have hl := need_ok hl
    refine Res.All.bind' ?_
    intro f hf
    have hf := need_ok hf
    cases hu : g.uel with
    | none =>
      exact { usr := (fun v hv => nomatch hv), filt := (fun v fs hv => nomatch hv), last := (fun h => nomatch h),
              right := (fun v hv => nomatch hv), inRd := (fun v hv => nomatch hv) }
    | some u =>
      simp only
      have hst := (h.right u hu).mapStat
      have hents : u.mapStat.1.ents = u.ents := by unfold Uel.mapStat; split <;> rfl
      have husers : u.mapStat.1.users = u.users := by unfold Uel.mapStat; split <;> rfl
      have husr : UsrOk u.mapStat.1 := by
        have := h.usr u hu
        unfold Uel.mapStat
        split
        · exact this
        · exact ⟨this.fwd, this.bwd, this.hi, this.hi0⟩
      have hr : StatRight u.mapStat.1 := by
        unfold Uel.mapStat
        split
        · exact h.right u hu
        · intro st hs
          cases hs
          rfl
      refine { usr := ?_, filt := ?_, last := (fun h => nomatch h), right := ?_, inRd := fun _ _ _ => Or.inl (show ReadMode .rInit by decide) }
      · intro v hv
        cases hv
        exact husr
      · intro v fs hv hfs f' hf'
        cases hv
        cases hfs
        rw [husers]
        rcases modLast_mem hf hf' with hf' | rfl
        · exact h.filt u l hu hl f' hf'
        · have hfok := h.filt u l hu hl f (List.mem_of_getLast? hf)
          refine ⟨?_, hfok.2⟩
          refine filtUp_of ?_
          intro hs
          have hs : (if u.mapStat.2 = .unsorted then filtGrows f (u.ents.map Prod.snd) (-1) else true) = true := hs
          rw [hst] at hs
          split at hs
          · refine Or.inr ?_
            have hcongr : ∀ (vs : List Int) (lv : Int) (b : Bool), filtGrows { f with sorted := b } vs lv = filtGrows f vs lv := by
              intro vs
              induction vs with
              | nil => intros; rfl
              | cons v vs ih =>
                intro lv b
                unfold filtGrows
                rw [ih v b, ih lv b]
                rfl
            rw [hcongr]
            exact hs
          · rename_i hne
            exact Or.inl hne
      · intro v hv
        cases hv
        exact hr
  · rw [hc]
    exact h.raise _

/-! ### every call -/

theorem lic_filt {c : Call} (h : c.lic .filt) : (∃ n, c = .filterStart n) ∨ (∃ n, c = .filterAdd n) ∨ c = .filterDone := by
  cases c <;> first | exact Or.inl ⟨_, rfl⟩ | exact Or.inr (Or.inl ⟨_, rfl⟩) | exact Or.inr (Or.inr rfl) | (cases h; done)

theorem lic_stat {c : Call} (h : c.lic .stat) : (∃ n, c = .readMapStart n) ∨ (∃ n a, c = .readFilteredStart n a) ∨ c = .filterDone := by
  cases c <;> first | exact Or.inl ⟨_, rfl⟩ | exact Or.inr (Or.inl ⟨_, _, rfl⟩) | exact Or.inr (Or.inr rfl) | (cases h; done)

theorem lic_elem {c : Call} (h : c.lic .elem) : (∃ k v, c = .writeStr k v) ∨ (∃ s, c = .uelRaw s) := by
  cases c <;> first | exact Or.inl ⟨_, _, rfl⟩ | exact Or.inr ⟨_, rfl⟩ | (cases h; done) | (rcases h with h | h <;> cases h)

theorem gdxClose_map (z : Cz) (g : Gx) : (gdxClose z g).All fun x => MapInv x.1 := by
  unfold gdxClose
  refine Res.All.bind' ?_
  intro g1 _
  refine Res.All.bind' ?_
  intro g2 _
  exact { usr := (fun v hv => nomatch hv), filt := (fun v fs hv => nomatch hv), last := (fun h => nomatch h),
          right := (fun v hv => nomatch hv), inRd := (fun v hv => nomatch hv) }

theorem openAppend_map (z : Cz) (g : Gx) (d : Disk) (p : Str) (h : MapInv g) : (openAppend z g d p).All fun x => MapInv x.1 := by
  unfold openAppend
  have h0 : MapInv { g with producer2 := p, appendActive := true } :=
    { h.toFiltInv.same rfl rfl id with right := h.right, inRd := fun u hu hs => (h.inRd u hu hs).same rfl rfl }
  refine Res.All.bind (openReadXX_map z _ d 0 h0) ?_
  rintro ⟨g1, r⟩ ⟨h1, h2⟩
  simp only
  split
  · exact h1
  rename_i hr
  split
  · refine Res.All.bind (gdxClose_map z _) ?_
    rintro ⟨g2, x⟩ h2
    exact h2
  · obtain ⟨a, h3, h4, h5, h6⟩ := h2 (by simpa using hr)
    exact .opened h3 h4 h5 (fun h => nomatch h)

theorem openWrite_map (e : Env) (g : Gx) (n : Bool) (i : Int) (p : Str) (c : Int) (h : MapInv g) :
    (openWriteEx e g n i p c).All fun x => MapInv x.1 := by
  have h0 : ∀ b : Gx, b.mapPart = g.mapPart → b.modeAft = g.modeAft → MapInv b := by
    intro b hp ha
    have h1 : b.uel = g.uel := congrArg Prod.fst hp
    have h2 : b.filters = g.filters := congrArg (fun x => x.2.1) hp
    have h3 : b.mode = g.mode := congrArg (fun x => x.2.2) hp
    exact { h.toFiltInv.same h1 h2 (fun h => h3 ▸ h) with
            right := fun u hu => h.right u (h1 ▸ hu), inRd := fun u hu hs => (h.inRd u (h1 ▸ hu) hs).same h3 ha }
  unfold openWriteEx
  split
  · exact h0 _ rfl rfl
  split
  · exact h0 _ rfl rfl
  split
  · exact h0 _ rfl rfl
  refine Res.All.bind' ?_
  intro k _
  refine { usr := ?_, filt := ?_, last := (fun h => nomatch h), right := ?_, inRd := ?_ }
  · intro u hu; cases hu; exact UsrOk.empty
  · intro u fs hu hf f hm; cases hf; cases hm
  · intro u hu; cases hu; intro st hs; cases hs
  · intro u hu hs; cases hu; exact absurd rfl hs

theorem stateOf_pair {α : Type} {r : Res (Gx × α)} {g : Gx} (h : stateOf r = .ok g) : ∃ a, r = .ok (g, a) := by
  unfold stateOf at h
  obtain ⟨⟨x, a⟩, h1, h2⟩ := Res.bind_eq_ok.mp h
  cases h2
  exact ⟨a, h1⟩

theorem elem_inRead {g g' : Gx} (h : InRead g) (e : Env) (z : Cz) {c : Call} (hl : c.lic .elem) (hg : step e z g c = .ok g') : g'.uel = g.uel := by
  rcases lic_elem hl with ⟨k, v, rfl⟩ | ⟨s, rfl⟩
  · obtain ⟨r, hg⟩ := stateOf_pair hg
    unfold dataWriteStr at hg
    have hne : ¬ g.mode = .wDomStr := fun hm => h.notWrite.2 (by rw [hm]; decide)
    simp only [if_neg hne] at hg
    rw [h.chk [.wStr] (by intro m hm; rw [List.mem_singleton] at hm; subst hm; decide)] at hg
    cases hg
    rfl
  · obtain ⟨r, hg⟩ := stateOf_pair hg
    unfold uelRegisterRaw at hg
    have hc : g.chk [.rawElem] = (g.raise Err.badMode, false) := by
      rcases chk_cases g [.rawElem] with ⟨hm, _⟩ | ⟨_, hc⟩
      · rw [List.mem_singleton] at hm
        rcases h with h | ⟨⟨_, h⟩, _⟩
        · rw [hm] at h; exact absurd h (by decide)
        · exact absurd hm h
      · exact hc
    rw [hc] at hg
    cases hg
    rfl

theorem MapInv.step (e : Env) (z : Cz) {g g' : Gx} {c : Call} (hc : c.WF) (ha : Aft g) (hgood : GoodElems g) (hn : NoReuse g c)
    (hg : step e z g c = .ok g') (h : MapInv g) : MapInv g' := by
  by_cases hr : c.opensRead = true
  · cases c with
    | openRead d m => exact (stateOf_all ((openReadXX_map z g d m h).mono fun x h => h.1)).of_ok hg
    | openAppend d p => exact (stateOf_all (openAppend_map z g d p h)).of_ok hg
    | _ => cases hr
  have hr : c.opensRead = false := by simpa using hr
  by_cases hw : c.opensWrite = true
  · cases c with
    | openWrite n i p k => exact (stateOf_all (openWrite_map e g n i p k h)).of_ok hg
    | _ => cases hw
  have hw : c.opensWrite = false := by simpa using hw
  by_cases hcl : c = .close
  · subst hcl
    exact (stateOf_all (gdxClose_map z g)).of_ok hg
  by_cases hf : c.lic .filt
  · rcases lic_filt hf with ⟨n, rfl⟩ | ⟨n, rfl⟩ | rfl
    · exact (stateOf_all (filterRegisterStart_map h n)).of_ok hg
    · exact (stateOf_all (filterRegister_map h n)).of_ok hg
    · exact (stateOf_all (filterRegisterDone_map h)).of_ok hg
  have hfi := FiltInv.step e z hc hf hr hw ha hgood hn hg h.toFiltInv
  have hin : c.inFile = true := by cases c <;> first | rfl | (cases hr; done) | (cases hw; done) | exact absurd rfl hcl
  by_cases hs : c.lic .stat
  · have hne : ¬ c.lic .elem := by
      rcases lic_stat hs with ⟨n, rfl⟩ | ⟨n, a, rfl⟩ | rfl
      · exact fun h => nomatch h
      · exact fun h => nomatch h
      · exact absurd (Or.inl rfl) hf
    have hst := StatInv.step e z hc hne hr hw ha hgood hn hg ⟨h.usr, h.right⟩
    have hmode : ReadMode g'.mode := by
      rcases lic_stat hs with ⟨n, rfl⟩ | ⟨n, a, rfl⟩ | rfl
      · exact (stateOf_all (P := fun x : Gx => ReadMode x.mode) ((readStart_evo .all z g n _ .rMap ⟨fun _ => trivial, by decide⟩ (by decide)).mono fun x h => h.2)).of_ok hg
      · exact (stateOf_all (P := fun x : Gx => ReadMode x.mode) ((readStart_evo .all z g n _ .rMap ⟨fun _ => trivial, by decide⟩ (by decide)).mono fun x h => h.2)).of_ok hg
      · exact absurd (Or.inl rfl) hf
    exact { hfi with right := hst.right, inRd := fun _ _ _ => Or.inl hmode }
  by_cases hno : NoStat g
  · have hno' := hno.step e z hc hs hr hw ha hg
    exact { hfi with right := fun u hu st hst => (by rw [hno' u hu] at hst; cases hst), inRd := fun u hu hst => absurd (hno' u hu) hst }
  · have hrd : InRead g := by
      by_contra hnr
      exact hno fun u hu => by by_contra hne; exact hnr (h.inRd u hu hne)
    have hrd' := (hrd.step e z c hin).of_ok hg
    by_cases hel : c.lic .elem
    · have hu := elem_inRead hrd e z hel hg
      exact { hfi with right := fun u hu' => h.right u (hu ▸ hu'), inRd := fun _ _ _ => hrd' }
    · exact { hfi with right := (StatInv.step e z hc hel hr hw ha hgood hn hg ⟨h.usr, h.right⟩).right, inRd := fun _ _ _ => hrd' }

theorem MapInv.new : MapInv Gx.new where
  usr := fun v hv => nomatch hv
  filt := fun v fs hv => nomatch hv
  last := fun h => nomatch h
  right := fun v hv => nomatch hv
  inRd := fun v hv => nomatch hv

/-- over a history in which no user number is given twice -/
theorem map_run (e : Env) (z : Cz) (cs : List Call) (g : Gx) (hc : ∀ c ∈ cs, c.WF)
    (ho : Along (fun g c g' => NoReuse g c ∧ (c.opensRead = true → GoodElems g')) e z Gx.new cs) (h : run e z Gx.new cs = .ok g) :
    GoodElems g ∧ MapInv g := by
  refine ((run_all (P := fun x => GoodElems x ∧ MapInv x) e z ?_ cs Gx.new hc aft_new ⟨GoodElems.new, MapInv.new⟩ ho).of_ok h).2
  rintro g c g' hc ha hg' ⟨hq1, hq2⟩ ⟨hg, hm⟩
  refine ⟨?_, hm.step e z hc ha hg hq1 hg'⟩
  by_cases hr : c.opensRead = false
  · by_cases hw : c.opensWrite = false
    · exact (step_inv GoodElems.prim (fun _ _ _ h => h) (fun _ _ u hu => by cases hu) GoodElems.jump (fun _ h => h) e z hc hr hw ha hg).of_ok hg'
    · cases c with
      | openWrite n i p k => exact (stateOf_all (GoodElems.openWrite e g n i p k hg)).of_ok hg'
      | _ => exact absurd rfl hw
  · exact hq2 (by simpa using hr)

end Gdx
