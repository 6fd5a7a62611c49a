import Verif.Proofs.Block
import Mathlib.Data.List.Induction

/-!
The encoded records of a data block, built up record by record (writer) and taken off record by record (reader).
-/

namespace Gdx
open Spec

/-- element numbers as they are stored -/
def KeyNum (k : Int) : Prop := 0 ≤ k ∧ I32 k

/-- The bytes `b` written for `key` behind the key `prev` are read back by a reader that knows `prev`. -/
def KeyDec (dim thr : Nat) (ps : List PosDesc) (prev : Option (List Int)) (key : List Int) (b : List UInt8) : Prop :=
  ∀ (last' : List Int) (r : List UInt8), last'.length = dim → (∀ l, prev = some l → last' = l) →
    decKey dim thr ps last' (b ++ r) = some (some (dimFrst dim prev key, key), r)

/-- A record that can be stored behind `prev` -/
structure RecFits (dim nv : Nat) (prev : Option (List Int)) (r : Rec) : Prop where
  len : r.key.length = dim
  num : ∀ k ∈ r.key, KeyNum k
  nval : r.vals.length = nv
  wf : ∀ v ∈ r.vals, v.Wf
  ord : dim = 0 ∨ ∀ l, prev = some l → l < r.key

/-- `out` are the bytes of the records `rs` behind the key `p` -/
inductive Enc (dim thr nv : Nat) (ps : List PosDesc) : Option (List Int) → List Rec → List UInt8 → Prop
  | nil (p : Option (List Int)) : Enc dim thr nv ps p [] []
  | cons {p : Option (List Int)} {r : Rec} {rs : List Rec} {b out : List UInt8} (hk : KeyDec dim thr ps p r.key b)
      (hb : b ≠ []) (hf : RecFits dim nv p r) (h : Enc dim thr nv ps (some r.key) rs out) :
      Enc dim thr nv ps p (r :: rs) (b ++ encSVals r.vals ++ out)

/-- the last key -/
def lastKey : Option (List Int) → List Rec → Option (List Int)
  | p, [] => p
  | _, r :: rs => lastKey (some r.key) rs

theorem lastKey_snoc (p : Option (List Int)) (rs : List Rec) (r : Rec) : lastKey p (rs ++ [r]) = some r.key := by
  induction rs generalizing p with
  | nil => rfl
  | cons x xs ih => exact ih _

theorem lastKey_some {rs : List Rec} {l : List Int} (h : lastKey none rs = some l) : ∃ r ∈ rs, r.key = l := by
  induction rs using List.reverseRecOn with
  | nil => cases h
  | append_singleton rs r _ =>
    rw [lastKey_snoc] at h
    cases h
    exact ⟨r, by simp, rfl⟩

theorem lastKey_none {rs : List Rec} (h : lastKey none rs = none) : rs = [] := by
  induction rs using List.reverseRecOn with
  | nil => rfl
  | append_singleton rs r _ => rw [lastKey_snoc] at h; cases h

namespace Enc
variable {dim thr nv : Nat} {ps : List PosDesc} {p : Option (List Int)} {rs : List Rec} {out : List UInt8}

theorem snoc {r : Rec} {b : List UInt8} (h : Enc dim thr nv ps p rs out) (hk : KeyDec dim thr ps (lastKey p rs) r.key b)
    (hb : b ≠ []) (hf : RecFits dim nv (lastKey p rs) r) : Enc dim thr nv ps p (rs ++ [r]) (out ++ (b ++ encSVals r.vals)) := by
  induction h with
  | nil p =>
    have := Enc.cons hk hb hf (Enc.nil (dim := dim) (thr := thr) (nv := nv) (ps := ps) (some r.key))
    simpa [lastKey] using this
  | cons hk' hb' hf' _ ih =>
    have := Enc.cons hk' hb' hf' (ih hk hf)
    simpa [List.append_assoc] using this

theorem fits (h : Enc dim thr nv ps p rs out) :
    ∀ r ∈ rs, r.key.length = dim ∧ (∀ k ∈ r.key, KeyNum k) ∧ r.vals.length = nv ∧ ∀ v ∈ r.vals, v.Wf := by
  induction h with
  | nil => simp
  | cons _ _ hf _ ih =>
    intro r hr
    rcases List.mem_cons.mp hr with rfl | hr
    · exact ⟨hf.len, hf.num, hf.nval, hf.wf⟩
    · exact ih r hr

/-- the keys increase -/
theorem sorted (h : Enc dim thr nv ps p rs out) (hd : dim ≠ 0) :
    (rs.map Rec.key).Pairwise (· < ·) ∧ ∀ l, p = some l → ∀ r ∈ rs, l < r.key := by
  induction h with
  | nil => simp
  | cons _ _ hf _ ih =>
    have h1 := hf.ord.resolve_left hd
    refine ⟨?_, ?_⟩
    · rw [List.map_cons, List.pairwise_cons]
      refine ⟨?_, ih.1⟩
      intro k hk
      obtain ⟨r, hr, rfl⟩ := List.mem_map.mp hk
      exact ih.2 _ rfl r hr
    · intro l hl r hr
      rcases List.mem_cons.mp hr with rfl | hr
      · exact h1 l hl
      · exact List.lt_trans (h1 l hl) (ih.2 _ rfl r hr)

theorem length_le (h : Enc dim thr nv ps p rs out) : rs.length ≤ out.length := by
  induction h with
  | nil => simp
  | cons _ hb _ _ ih =>
    have := List.length_pos_iff.mpr hb
    simp only [List.length_cons, List.length_append]
    omega

/-- taking off one record -/
theorem dec {r : Rec} (h : Enc dim thr nv ps p (r :: rs) out) : ∃ out', Enc dim thr nv ps (some r.key) rs out' ∧
    ∀ (last' : List Int) (x : List UInt8), last'.length = dim → (∀ l, p = some l → last' = l) →
      decRec dim thr nv ps last' (out ++ x) = some (some (dimFrst dim p r.key, r), out' ++ x) := by
  cases h with
  | cons hk hb hf h =>
    rename_i b out'
    refine ⟨out', h, ?_⟩
    intro last' x hl hp
    unfold decRec
    rw [show b ++ encSVals r.vals ++ out' ++ x = b ++ (encSVals r.vals ++ (out' ++ x)) by simp [List.append_assoc]]
    rw [hk last' _ hl hp]
    simp only [Option.bind_eq_bind, Option.bind_some]
    have hv := rdSVals_encSVals r.vals hf.wf (out' ++ x)
    rw [hf.nval] at hv
    rw [hv]
    rfl

theorem decEnd (ht : thr < 255) (last' : List Int) (x : List UInt8) :
    decRec dim thr nv ps last' ((255 : UInt8) :: x) = some (none, x) := by
  have h1 : decKey dim thr ps last' (255 :: x) = some (none, x) := by
    unfold decKey
    simp [ht]
  unfold decRec
  rw [h1]
  rfl

/-- reading everything -/
theorem decRecs (h : Enc dim thr nv ps p rs out) (ht : thr < 255) : ∀ (fuel : Nat) (last' : List Int) (x : List UInt8),
    rs.length < fuel → last'.length = dim → (∀ l, p = some l → last' = l) →
    decRecs dim thr nv ps fuel last' (out ++ 255 :: x) = some (annotate dim p rs, x) := by
  induction rs generalizing p out with
  | nil =>
    intro fuel last' x hf _ _
    cases h
    obtain ⟨f, rfl⟩ : ∃ f, fuel = f + 1 := ⟨fuel - 1, by omega⟩
    exact decRecs_end ht
  | cons r rs ih =>
    intro fuel last' x hf hl hp
    obtain ⟨f, rfl⟩ : ∃ f, fuel = f + 1 := ⟨fuel - 1, by omega⟩
    obtain ⟨out', h', hd⟩ := h.dec
    unfold Gdx.decRecs
    rw [hd last' _ hl hp]
    simp only [Option.bind_eq_bind, Option.bind_some]
    rw [ih h' f r.key x (by simp at hf; omega) (h.fits r (by simp)).1 (by intro l hl; cases hl; rfl)]
    rfl

end Enc

/-! ### one key -/

/-- LastElem while writing: as initialised, or the last key -/
inductive LastSeen (dim : Nat) : List Int → Nat → Option (List Int) → Prop
  | init : LastSeen dim (List.replicate dim indexInitial) 0 none
  | seen {l : List Int} {c : Nat} (hl : l.length = dim) (hk : ∀ k ∈ l, KeyNum k) (hc : 1 ≤ c) : LastSeen dim l c (some l)

theorem LastSeen.length {dim : Nat} {l : List Int} {c : Nat} {o : Option (List Int)} (h : LastSeen dim l c o) :
    l.length = dim := by cases h <;> simp_all

/-- What the key part of DoWrite can do, for keys that are element numbers. -/
theorem encKey_res {dim thr : Nat} (hdim2 : dim ≤ thr) (hthr : thr ≤ 20) {ps : List PosDesc} (h0 : dim = 0 → thr = 0)
    {last key : List Int} {cnt : Nat} {prev : Option (List Int)} (hps : ps.length = dim) (hlast : LastSeen dim last cnt prev)
    (hk : key.length = dim) (hn : ∀ k ∈ key, KeyNum k) {o : KeyOut} (h : encKey dim thr ps last cnt key = .ok o) :
    (o = .dup ∧ dim ≠ 0 ∧ prev = some key) ∨
    (o = .unsorted ∧ dim ≠ 0 ∧ ∃ l, prev = some l ∧ key < l) ∨
    (∃ b, o = .put b key ∧ b ≠ [] ∧ (dim = 0 ∨ ∀ l, prev = some l → l < key) ∧ KeyDec dim thr ps prev key b) := by
  have hll := hlast.length
  have hk32 : ∀ k ∈ key, I32 k := fun k hm => (hn k hm).2
  have hne : ∀ b l, o = .put b l → b ≠ [] := by
    intro b l e
    subst e
    have := encKey_put_ne_nil h
    exact List.length_pos_iff.mp this
  have hcopy := h
  unfold encKey at h
  cases hf : firstDiff key last with
  | ub => rw [hf] at h; simp at h
  | ok q =>
    rw [hf] at h
    simp only [Res.bind_ok] at h
    cases q with
    | none =>
      have e := firstDiff_none (hk.trans hll.symm) hf
      simp only at h
      by_cases hd : dim = 0
      · subst hd
        have := h0 rfl
        subst this
        rw [if_neg (by omega)] at h
        simp only [Res.pure_eq, Res.ok.injEq] at h
        subst h
        right; right
        refine ⟨[1], by rw [e], by simp, Or.inl rfl, ?_⟩
        intro last' r hl' _
        rw [List.length_eq_zero_iff.mp hl', List.length_eq_zero_iff.mp hk]
        cases prev <;> simp [decKey, bumpLast, dimFrst]
      · cases hlast with
        | init =>
          exfalso
          have := hn indexInitial (by rw [e]; exact List.mem_replicate.mpr ⟨by omega, rfl⟩)
          unfold KeyNum indexInitial at this
          omega
        | seen hl hkk hc =>
          rw [if_pos ⟨by omega, hc⟩] at h
          simp only [Res.pure_eq, Res.ok.injEq] at h
          left
          exact ⟨h.symm, hd, by rw [e]⟩
    | some q =>
      obtain ⟨d, x⟩ := q
      obtain ⟨h1, h2, h3, h4, h5, a, b, ha, hb, hab⟩ := firstDiff_some hf
      obtain ⟨hlt1, hlt2⟩ := firstDiff_lt hf
      have hd : dim ≠ 0 := by omega
      simp only at h
      by_cases hx : x < 0
      · rw [if_pos hx] at h
        simp only [Res.pure_eq, Res.ok.injEq] at h
        cases hlast with
        | init =>
          exfalso
          have := List.eq_of_mem_replicate (List.mem_of_getElem? hb)
          have h0 := hn a (List.mem_of_getElem? ha)
          unfold KeyNum at h0
          unfold indexInitial at this
          omega
        | seen hl hkk hc =>
          right; left
          exact ⟨h.symm, hd, last, rfl, hlt2 hx⟩
      · right; right
        have hx0 : 0 < x := by omega
        have hcat := take_append_drop_of_take_eq h3
        rw [if_neg hx] at h
        have hput : ∃ bb, o = .put bb key := by
          split at h
          · simp only [Res.pure_eq, Res.ok.injEq] at h
            rw [hcat] at h
            exact ⟨_, h.symm⟩
          · cases he : encElems (ps.drop d) (key.drop d) with
            | ub => rw [he] at h; simp at h
            | ok eb =>
              rw [he, hcat] at h
              simp only [Res.bind_ok, Res.pure_eq, Res.ok.injEq] at h
              exact ⟨_, h.symm⟩
        obtain ⟨bb, rfl⟩ := hput
        refine ⟨bb, rfl, hne _ _ rfl, Or.inr ?_, ?_⟩
        · intro l hl
          cases hlast with
          | init => cases hl
          | seen _ _ _ => cases hl; exact hlt1 hx0
        · cases hlast with
          | init =>
            intro last' r hl' _
            have hbi := List.eq_of_mem_replicate (List.mem_of_getElem? hb)
            have hai := hn a (List.mem_of_getElem? ha)
            unfold KeyNum at hai
            unfold indexInitial at hbi
            have hd0 : d = 0 := by
              by_contra hdd
              cases key with
              | nil => simp at hk; omega
              | cons k0 key =>
                cases dim with
                | zero => omega
                | succ dim =>
                  rw [List.replicate_succ] at h3
                  obtain ⟨d', rfl⟩ : ∃ d', d = d' + 1 := ⟨d - 1, by omega⟩
                  simp at h3
                  have := hn k0 (by simp)
                  unfold KeyNum at this
                  unfold indexInitial at h3
                  omega
            subst hd0
            rw [if_neg (by unfold deltaForWrite; omega)] at h
            cases he : encElems (ps.drop 0) (key.drop 0) with
            | ub => rw [he] at h; simp at h
            | ok eb =>
              rw [he] at h
              simp only [Res.bind_ok, Res.pure_eq, Res.ok.injEq, KeyOut.put.injEq] at h
              obtain ⟨rfl, _⟩ := h
              have hdec := decElems_encElems (by simp [hps, hk]) (fun k hkm => hk32 k (List.mem_of_mem_drop hkm)) he r
              unfold decKey
              simp only [List.cons_append, rdByte_cons, Option.bind_eq_bind, Option.bind_some]
              have h11 : (UInt8.ofNat (0 + 1)).toNat = 1 := rfl
              rw [h11, if_neg (by omega), if_neg (by omega)]
              simp only [Nat.sub_self, List.take_zero, List.nil_append, hdec, Option.bind_some, dimFrst]
              rw [if_neg (by omega)]
              simp
          | seen hl hkk hc =>
            intro last' r hl' hprev
            have e := hprev last rfl
            subst e
            have hne : key ≠ last' := by
              intro hc; subst hc
              rw [ha] at hb; simp at hb; omega
            obtain ⟨_, fd, hfd, _, hfd2⟩ := decKey_encKey hdim2 hthr hps hll hk hk32 (Or.inr hne) hcopy r
            obtain ⟨f1, f2, f3, f4⟩ := hfd2 hd
            rw [hfd]
            simp only [dimFrst]
            rw [if_neg (by omega), firstChange_eq f1 (by omega) (by omega) f3 f4]

end Gdx
