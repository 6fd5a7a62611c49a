import Verif.Proofs.RawSession

/-!
Writing valid records in raw mode is never undefined.
-/

namespace Gdx

open Spec

theorem acrDiv_total {d : Dbl} (h : d ≠ Dbl.posInf) : ∃ n, acrDiv d = .ok n := ⟨_, by unfold acrDiv; rw [if_neg h]⟩

theorem storeVal_num {t : SVTab} {x d : Dbl} (h : storeVal t x = .num d) : d ≠ Dbl.posInf := by
  unfold storeVal at h
  split at h
  · cases h
  split at h
  · cases h
  split at h
  · cases h
  · cases h
  · cases h
  · rename_i hf
    cases h
    rintro rfl
    revert hf
    decide

theorem checkAcros_total : ∀ (vs : List SVal) (l : List Acr), (∀ v ∈ vs, ∀ d, v = .num d → d ≠ Dbl.posInf) → ∃ l', checkAcros l vs = .ok l'
  | [], l, _ => ⟨l, rfl⟩
  | .code c :: vs, l, h => by
    unfold checkAcros
    exact checkAcros_total vs l fun v hv => h v (by simp [hv])
  | .num d :: vs, l, h => by
    unfold checkAcros
    have h' : ∀ v ∈ vs, ∀ d, v = .num d → d ≠ Dbl.posInf := fun v hv => h v (by simp [hv])
    split
    · obtain ⟨n, hn⟩ := acrDiv_total (h (.num d) (by simp) d rfl)
      rw [hn]
      exact checkAcros_total vs _ h'
    · exact checkAcros_total vs l h'

theorem noteElem_total {s : Sym} {l : List Given} (hs : SymLog s l) {key : List Int} {vals : List Dbl}
    (hv : vals.length = dataTypSize s.typ) (hk : ∀ k ∈ key, KeyOk k) : ∃ s', noteElem key vals s = .ok s' := by
  unfold noteElem
  split
  · cases vals with
    | nil =>
      exfalso
      have := hs.typ
      rename_i ht
      rcases ht with ht | ht
      · rw [ht] at hv
        revert hv
        decide
      · rw [ht] at this
        revert this
        decide
    | cons x xs =>
      rw [show at0 (x :: xs) 0 = .ok x from rfl]
      simp only [Res.bind_ok]
      generalize hs1 : (if nonZero x = true then { s with setText := true } else s) = s1
      have hb : s1.bitmap = s.bitmap := by subst hs1; split <;> rfl
      split
      · rename_i k b hkb
        rw [hb] at hkb
        obtain ⟨_, hbi, _⟩ := hs.bits b hkb
        have := hk k (by simp)
        unfold KeyOk at this
        obtain ⟨b', hb', _⟩ := b.set_true_or hbi k (Or.inl (by omega))
        rw [hb']
        exact ⟨_, rfl⟩
      · exact ⟨_, rfl⟩
  · exact ⟨s, rfl⟩

theorem acceptRec_total {g : Gx} {m : Nat} {d : SymDesc} {rs : List Rec} {l : List Given} (h : Sess g m d rs l) {key : List Int}
    {vals : List Dbl} {bs : List UInt8} (hv : vals.length = g.dataSize) (hk : ∀ k ∈ key, KeyOk k) (ha : g.acros.isSome = true)
    (hc : (rs.length : Int) < intMax) : ∃ x, acceptRec g key vals bs = .ok x := by
  unfold acceptRec
  rw [if_neg (by have := h.blk.cnt; omega)]
  obtain ⟨ac, hac⟩ := Option.isSome_iff_exists.mp ha
  obtain ⟨syms, s, e1, e2, e3, e4⟩ := h.sym
  obtain ⟨syms', s', f1, f2, f3, f4, f5⟩ := h.blk.sym
  rw [e1] at f1
  cases f1
  rw [e2] at f2
  cases f2
  rw [hac]
  simp only [need, Res.bind_ok]
  obtain ⟨ac', hac'⟩ := checkAcros_total (vals.map (storeVal g.sv)) ac (by
    intro v hv d hd
    obtain ⟨x, _, hx⟩ := List.mem_map.mp hv
    exact storeVal_num (hx.trans hd))
  rw [hac']
  simp only [Res.bind_ok]
  have hcs : ∀ {g' : Gx}, g'.cur = g.cur → g'.names = g.names → g'.curSym = .ok s := by
    intro g' h1 h2
    unfold Gx.curSym
    rw [h1, h2, h.blk.cur, e1]
    exact at1_nat e2
  rw [hcs rfl rfl]
  obtain ⟨s2, hs2⟩ := noteElem_total e4 (hv.trans f4) hk
  simp only [Res.bind_ok]
  rw [hs2]
  simp only [Res.bind_ok]
  unfold Gx.modCur
  simp only [h.blk.cur, e1]
  rw [if_pos ⟨by omega, (List.getElem?_eq_some_iff.mp e2).1⟩]
  exact ⟨_, rfl⟩

theorem LastSeen.ok {dim : Nat} {last : List Int} {c : Nat} {o : Option (List Int)} (h : LastSeen dim last c o)
    (hk : ∀ l, o = some l → ∀ k ∈ l, KeyOk k) : LastOk dim last c o := by
  cases h with
  | init => exact .init
  | seen hl _ hc =>
    obtain ⟨n, rfl⟩ : ∃ n, c = n + 1 := ⟨c - 1, by omega⟩
    exact .seen hl (hk _ rfl)

theorem Blk.lastOk {g : Gx} {m : Nat} {rs : List Rec} (h : Blk g m rs) (hk : ∀ r ∈ rs, ∀ k ∈ r.key, KeyOk k) :
    LastOk g.nd g.last g.dataCount.toNat (lastKey none rs) := by
  rw [h.cnt]
  refine h.last.ok ?_
  intro l hl
  obtain ⟨r, hr, rfl⟩ := lastKey_some hl
  exact hk r hr

/-- a valid record: written or refused, but nothing undefined -/
theorem Sess.doWriteTotal {g : Gx} {m : Nat} {d : SymDesc} {rs : List Rec} {l : List Given} (h : Sess g m d rs l)
    {key : List Int} {vals : List Dbl} (hkl : key.length = g.nd) (hk : KeyFits g.bounds key) (hv : vals.length = g.dataSize)
    (hrs : ∀ r ∈ rs, ∀ k ∈ r.key, KeyOk k) (hd : ∀ syms, g.names = some syms → ∃ bad, domBad syms g.wrBits key = .ok bad)
    (ha : g.acros.isSome = true) (hc : (rs.length : Int) < intMax) : ∃ x, Gdx.doWrite g key vals = .ok x := by
  unfold Gdx.doWrite
  rw [if_neg (by
    rintro (hx | hx | hx)
    · exact hx hkl
    · exact hx hv
    · exact hx fun k hk' => (hk.2 k hk').i32)]
  obtain ⟨syms, s, e1, e2, e3, e4⟩ := h.sym
  obtain ⟨bad, hb⟩ := hd syms e1
  rw [e1]
  simp only [need, Res.bind_ok]
  rw [hb]
  simp only [Res.bind_ok]
  split
  · exact ⟨_, rfl⟩
  have hmain : ∃ o, encKey g.nd g.nd (g.bounds.map posDesc) g.last g.dataCount.toNat key = .ok o ∧
      ∀ bs l, o = .put bs l → l = key := by
    by_cases h0 : g.nd = 0
    · have hk0 : key = [] := List.length_eq_zero_iff.mp (hkl.trans h0)
      have hl0 : g.last = [] := List.length_eq_zero_iff.mp (h.blk.last.length.trans h0)
      refine ⟨.put [1] [], ?_, ?_⟩
      · rw [h0, hk0, hl0]
        simp [encKey, firstDiff]
      · intro bs l hx
        cases hx
        exact hk0.symm
    · have h20 : g.nd ≤ 20 := by have := h.blk.dim; unfold Gx.nd; omega
      rcases encKey_cases (by omega) (le_refl _) h20 h.blk.bl (h.blk.lastOk hrs) hkl hk with ⟨l, _, _, ho⟩ | ⟨l, _, _, ho⟩ | ⟨_, b, ho, _⟩
      · exact ⟨_, ho, by intro bs l hx; cases hx⟩
      · exact ⟨_, ho, by intro bs l hx; cases hx⟩
      · exact ⟨_, ho, by intro bs l hx; cases hx; rfl⟩
  obtain ⟨o, ho, hput⟩ := hmain
  rw [ho]
  simp only [Res.bind_ok]
  cases o with
  | dup => exact ⟨_, rfl⟩
  | unsorted => exact ⟨_, rfl⟩
  | put bs l =>
    have := hput bs l rfl
    subst this
    exact acceptRec_total h hv hk.2 ha hc

theorem Sess.writeTotal {g : Gx} {m : Nat} {d : SymDesc} {rs : List Rec} {l : List Given} (h : Sess g m d rs l) (hr : RawMode g.mode)
    {key : List Int} {vals : List Dbl} (hkl : key.length = g.nd) (hk : KeyFits g.bounds key) (hv : vals.length = g.dataSize)
    (hrs : ∀ r ∈ rs, ∀ k ∈ r.key, KeyOk k) (hd : ∀ syms, g.names = some syms → ∃ bad, domBad syms g.wrBits key = .ok bad)
    (ha : g.acros.isSome = true) (hc : (rs.length : Int) < intMax) : ∃ x, dataWriteRaw g key vals = .ok x := by
  rw [dataWriteRaw_raw hr]
  exact (h.mode .wRaw).doWriteTotal hkl hk hv hrs hd ha hc

theorem domBad_none (syms : List Sym) : ∀ (ws : List (Option Nat)) (key : List Int), (∀ w ∈ ws, w = none) →
    domBad syms ws key = .ok (key.map fun _ => false)
  | [], [], _ => rfl
  | _ :: _, [], _ => rfl
  | [], k :: ks, _ => by
    unfold domBad
    rw [domBad_none syms [] ks (by simp)]
    rfl
  | w :: ws, k :: ks, h => by
    have := h w (by simp)
    subst this
    unfold domBad
    rw [domBad_none syms ws ks fun w hw => h w (by simp [hw])]
    rfl

end Gdx
