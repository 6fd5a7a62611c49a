import Verif.Proofs.DumpCsv
import Verif.Proofs.MergeNames

/-!
gdxdump: the names of the columns.
-/

namespace Gdx.Dump
open Gdx

/-- the name a column has if no other column has it: the name of the domain, `Dim` and the position for the universe -/
def baseOf (i : Nat) (s : Str) : Str := if s = star then [68, 105, 109] ++ intToStr ((i : Int) + 1) else s

/-- a name made from `b` -/
def IsName (b t : Str) : Prop := t = b ∨ ∃ k : Nat, k ≤ 1000 ∧ t = b ++ [95] ++ intToStr k

theorem intToStr_inj {a b : Nat} (ha : a < 10 ^ 20) (hb : b < 10 ^ 20) (h : intToStr (a : Int) = intToStr (b : Int)) : a = b := by
  rw [Merge.intToStr_nat, Merge.intToStr_nat] at h
  exact Merge.digits_inj 20 a b ha hb h

theorem uniq_first {base : Str} {prev : List Str} {f : Nat} {s : Str} {nr : Int} (h : s ∉ prev) : uniq base prev (f + 1) s nr = .ok (s, nr) := by
  unfold uniq
  rw [if_neg h]

theorem uniq_spec {base : Str} {prev : List Str} : ∀ {f : Nat} {s : Str} {nr : Nat} {t : Str} {nr' : Int}, uniq base prev f s nr = .ok (t, nr') →
    t ∉ prev ∧ (t = s ∨ ∃ k : Nat, nr ≤ k ∧ k < nr + f ∧ t = base ++ [95] ++ intToStr k) ∧ ∃ m : Nat, nr' = m ∧ m ≤ nr + f
  | 0, _, _, _, _, h => by cases h
  | f + 1, s, nr, t, nr', h => by
    unfold uniq at h
    split at h
    · obtain ⟨h1, h2, m, h3, h4⟩ := uniq_spec (nr := nr + 1) (by push_cast; exact h)
      refine ⟨h1, Or.inr ?_, m, h3, by omega⟩
      rcases h2 with rfl | ⟨k, k1, k2, rfl⟩
      · exact ⟨nr, le_refl _, by omega, rfl⟩
      · exact ⟨k, by omega, by omega, rfl⟩
    · rename_i hs
      cases h
      exact ⟨hs, Or.inl rfl, nr, rfl, by omega⟩

theorem uniq_ub {base : Str} {prev : List Str} : ∀ {f : Nat} {s : Str} {nr : Nat}, uniq base prev f s nr = .ub → ∀ k, k + 1 < f → base ++ [95] ++ intToStr ((nr + k : Nat) : Int) ∈ prev
  | 0, _, _, _, k, hk => by omega
  | f + 1, s, nr, h, k, hk => by
    unfold uniq at h
    split at h
    · have h' : uniq base prev f (base ++ [95] ++ intToStr (nr : Int)) ((nr + 1 : Nat) : Int) = .ub := by push_cast; exact h
      cases k with
      | zero =>
        cases f with
        | zero => omega
        | succ f =>
          unfold uniq at h'
          split at h'
          · assumption
          · cases h'
      | succ k =>
        have := uniq_ub h' k (by omega)
        rw [show nr + (k + 1) = nr + 1 + k by omega]
        exact this
    · cases h

theorem uniq_ok {base : Str} {prev : List Str} {f : Nat} {s : Str} {nr : Nat} (hp : prev.length + 1 < f) (hn : nr + f < 10 ^ 20) : ∃ t nr', uniq base prev f s nr = .ok (t, nr') := by
  cases h : uniq base prev f s nr with
  | ok r => exact ⟨r.1, r.2, rfl⟩
  | ub =>
    exfalso
    have hall := uniq_ub h
    have hnd : ((List.range (f - 1)).map fun k => base ++ [95] ++ intToStr ((nr + k : Nat) : Int)).Nodup := by
      refine List.Nodup.map_on ?_ List.nodup_range
      intro x hx y hy hxy
      rw [List.mem_range] at hx hy
      have := intToStr_inj (by omega) (by omega) (List.append_cancel_left hxy)
      omega
    have hsub : ((List.range (f - 1)).map fun k => base ++ [95] ++ intToStr ((nr + k : Nat) : Int)) ⊆ prev := by
      intro x hx
      obtain ⟨k, hk, rfl⟩ := List.mem_map.mp hx
      rw [List.mem_range] at hk
      exact hall k (by omega)
    have := (hnd.subperm hsub).length_le
    rw [List.length_map, List.length_range] at this
    omega

theorem mem_prev {done : List Str} {i : Nat} {s : Str} (h : i + 2 ≤ done.length) (hi : done[i]? = some s) : s ∈ done.take (done.length - 1) := by
  refine List.mem_of_getElem? (i := i) ?_
  rw [List.getElem?_take, if_pos (by omega), hi]

/-- what is known of the names so far: as many as domains, made from these, different unless neighbours -/
structure NamesOf (ds names : List Str) : Prop where
  len : names.length = ds.length
  made : ∀ i s t, ds[i]? = some s → names[i]? = some t → IsName (baseOf i s) t
  diff : ∀ i j s t, i + 2 ≤ j → names[i]? = some s → names[j]? = some t → s ≠ t

theorem domNames_spec : ∀ (ds pre done : List Str) (nr : Nat), NamesOf pre done → pre.length + ds.length ≤ 20 → nr ≤ 30 * pre.length + 1 →
    ∃ names, domNames done nr ds = .ok names ∧ NamesOf (pre ++ ds) names ∧ done <+: names
  | [], pre, done, nr, h, _, _ => ⟨done, rfl, by rw [List.append_nil]; exact h, List.prefix_refl _⟩
  | s :: ds, pre, done, nr, h, hl, hn => by
    have hl' : pre.length + (ds.length + 1) ≤ 20 := hl
    have hlen := h.len
    obtain ⟨t, nr', hu⟩ := uniq_ok (base := baseOf done.length s) (prev := done.take (done.length - 1)) (f := 22) (s := baseOf done.length s) (nr := nr)
      (by rw [List.length_take]; omega) (by omega)
    obtain ⟨u1, u2, m, rfl, u3⟩ := uniq_spec hu
    have hstep : NamesOf (pre ++ [s]) (done ++ [t]) := by
      refine ⟨by simp [hlen], ?_, ?_⟩
      · intro i a b ha hb
        by_cases hi : i < done.length
        · rw [List.getElem?_append_left (by omega)] at ha hb
          exact h.made i a b ha hb
        · have hb' := (List.getElem?_eq_some_iff.mp hb).1
          simp at hb'
          have : i = done.length := by omega
          subst this
          rw [List.getElem?_concat_length] at hb
          rw [hlen, List.getElem?_concat_length] at ha
          cases ha
          cases hb
          rcases u2 with rfl | ⟨k, k1, k2, rfl⟩
          · exact Or.inl rfl
          · exact Or.inr ⟨k, by omega, rfl⟩
      · intro i j a b hij ha hb
        have hj := (List.getElem?_eq_some_iff.mp hb).1
        simp at hj
        rw [List.getElem?_append_left (by omega)] at ha
        by_cases hj' : j < done.length
        · rw [List.getElem?_append_left (by omega)] at hb
          exact h.diff i j a b hij ha hb
        · have : j = done.length := by omega
          subst this
          rw [List.getElem?_concat_length] at hb
          cases hb
          intro hab
          subst hab
          exact u1 (mem_prev hij ha)
    obtain ⟨names, n1, n2, n3⟩ := domNames_spec ds (pre ++ [s]) (done ++ [t]) m hstep (by simp; omega) (by simp; omega)
    refine ⟨names, ?_, by simpa using n2, (List.prefix_append done [t]).trans n3⟩
    unfold domNames
    dsimp only
    have hb : (if s = star then [68, 105, 109] ++ intToStr ((done.length : Int) + 1) else s) = baseOf done.length s := rfl
    rw [hb, hu, Res.bind_ok]
    exact n1

/-- the domains give different names: they are used as they are -/
theorem domNames_plain : ∀ (ds done : List Str) (nr : Int), (done ++ ds.mapIdx fun i s => baseOf (done.length + i) s).Nodup →
    domNames done nr ds = .ok (done ++ ds.mapIdx fun i s => baseOf (done.length + i) s)
  | [], done, nr, _ => by simp [domNames]
  | s :: ds, done, nr, h => by
    rw [List.mapIdx_cons] at h ⊢
    have he : (done ++ [baseOf done.length s]) ++ (ds.mapIdx fun i x => baseOf ((done ++ [baseOf done.length s]).length + i) x) =
        done ++ (baseOf (done.length + 0) s :: ds.mapIdx fun i s => baseOf (done.length + (i + 1)) s) := by
      have : ∀ i, done.length + 1 + i = done.length + (i + 1) := fun i => by omega
      simp [this]
    have hnot : baseOf done.length s ∉ done.take (done.length - 1) := by
      intro hc
      have := List.mem_of_mem_take hc
      rw [List.nodup_append] at h
      exact h.2.2 _ this _ (by simp) rfl
    unfold domNames
    dsimp only
    have hb : (if s = star then [68, 105, 109] ++ intToStr ((done.length : Int) + 1) else s) = baseOf done.length s := rfl
    rw [hb, uniq_first hnot, Res.bind_ok]
    have := domNames_plain ds (done ++ [baseOf done.length s]) nr (by rw [he]; exact h)
    rw [this, he]

end Gdx.Dump
