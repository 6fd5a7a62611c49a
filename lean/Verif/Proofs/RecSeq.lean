import Verif.Spec.Records
import Verif.Proofs.Rec
import Mathlib.Data.List.Forall2

/-! Sequences of records: what the writer accepts and what the reader gives back. -/

namespace Gdx
open Spec

/-- A key entry fits the declared bounds of its position. -/
def Fits (b : Int × Int) (k : Int) : Prop := b.1 ≤ k ∧ k ≤ b.2 ∧ I32 (k - b.1)

theorem encElem_ok {b : Int × Int} {k : Int} (h : Fits b k) : ∃ bs, encElem (posDesc b) k = .ok bs := by
  obtain ⟨h1, h2, h3⟩ := h
  unfold encElem posDesc
  simp only [h3, not_true_eq_false, if_false]
  split
  · exact ⟨_, rfl⟩
  · next hs =>
    unfold getIntegerSize at hs
    split at hs
    · cases hs
    · split at hs
      · cases hs
      · split at hs
        · rw [if_pos (by omega)]; exact ⟨_, rfl⟩
        · cases hs
  · next hs =>
    unfold getIntegerSize at hs
    split at hs
    · cases hs
    · split at hs
      · rw [if_pos (by omega)]; exact ⟨_, rfl⟩
      · split at hs <;> cases hs

theorem encElems_ok {bs : List (Int × Int)} {ks : List Int} (h : List.Forall₂ Fits bs ks) :
    ∃ o, encElems (bs.map posDesc) ks = .ok o := by
  induction h with
  | nil => exact ⟨[], rfl⟩
  | cons h _ ih =>
    obtain ⟨a, ha⟩ := encElem_ok h
    obtain ⟨o, ho⟩ := ih
    refine ⟨a ++ o, ?_⟩
    simp [encElems, ha, ho]

theorem firstChange_eq {prev key : List Int} {fd : Nat} (h1 : 1 ≤ fd) (hl : prev.length = key.length)
    (hfd : fd ≤ key.length)
    (ht : key.take (fd - 1) = prev.take (fd - 1)) (hne : key[fd - 1]? ≠ prev[fd - 1]?) :
    firstChange prev key = fd := by
  obtain ⟨d, rfl⟩ : ∃ d, fd = d + 1 := ⟨fd - 1, by omega⟩
  simp only [Nat.add_sub_cancel] at ht hne
  unfold firstChange
  congr 1
  clear h1
  induction d generalizing prev key with
  | zero =>
    cases prev with
    | nil => simp at hl; rw [← hl] at hfd; simp at hfd
    | cons p prev =>
      cases key with
      | nil => simp at hl
      | cons k key =>
        simp at hne
        have : p ≠ k := fun h => hne h.symm
        simp [List.findIdx_cons, this]
  | succ d ih =>
    cases prev with
    | nil => simp at hl; rw [← hl] at hfd; simp at hfd
    | cons p prev =>
      cases key with
      | nil => simp at hl
      | cons k key =>
        simp at ht hne hl hfd
        obtain ⟨rfl, ht⟩ := ht
        have := ih hl (by simpa using hfd) ht hne
        simp only [ne_eq, decide_not] at this
        simp [List.findIdx_cons, this]

/-- the bounds under which the whole key can be written -/
def KeyFits (bs : List (Int × Int)) (key : List Int) : Prop :=
  List.Forall₂ Fits bs key ∧ ∀ k ∈ key, KeyOk k

theorem KeyFits.drop {bs : List (Int × Int)} {key : List Int} (h : KeyFits bs key) (d : Nat) :
    ∃ o, encElems ((bs.map posDesc).drop d) (key.drop d) = .ok o := by
  rw [← List.map_drop]
  exact encElems_ok (List.forall₂_drop d h.1)

/-- The writer's memory of the last key: initial, or the key of the last accepted record. -/
inductive LastOk (dim : Nat) : List Int → Nat → Option (List Int) → Prop
  | init : LastOk dim (List.replicate dim indexInitial) 0 none
  | seen {l : List Int} {c : Nat} (hl : l.length = dim) (hk : ∀ k ∈ l, KeyOk k) : LastOk dim l (c + 1) (some l)

theorem LastOk.length {dim : Nat} {l : List Int} {c : Nat} {o : Option (List Int)} (h : LastOk dim l c o) :
    l.length = dim := by cases h <;> simp_all

theorem LastOk.diff {dim : Nat} {l : List Int} {c : Nat} {o : Option (List Int)} (h : LastOk dim l c o)
    {k : Int} (hk : KeyOk k) {b : Int} (hb : b ∈ l) : I32 (k - b) := by
  unfold KeyOk at hk
  cases h with
  | init =>
    have := List.eq_of_mem_replicate hb
    subst this
    unfold indexInitial I32
    omega
  | seen hl hk' =>
    have := hk' b hb
    unfold KeyOk at this
    unfold I32
    omega

theorem Spec.KeyOk.i32 {k : Int} (h : KeyOk k) : I32 k := by unfold KeyOk at h; unfold I32; omega

/-- One record against the writer's memory (dimension ≥ 1). -/
theorem encKey_cases {dim thr : Nat} (hdim : 1 ≤ dim) (hdim2 : dim ≤ thr) (hthr : thr ≤ 20) {bs : List (Int × Int)}
    {last key : List Int} {cnt : Nat} {prev : Option (List Int)}
    (hbs : bs.length = dim) (hlast : LastOk dim last cnt prev) (hk : key.length = dim) (hfit : KeyFits bs key) :
    (∃ l, prev = some l ∧ key = l ∧ encKey dim thr (bs.map posDesc) last cnt key = .ok .dup) ∨
    (∃ l, prev = some l ∧ key < l ∧ encKey dim thr (bs.map posDesc) last cnt key = .ok .unsorted) ∨
    ((∀ l, prev = some l → l < key) ∧ ∃ b, encKey dim thr (bs.map posDesc) last cnt key = .ok (.put b key) ∧
      ∀ (last' : List Int) (r : List UInt8), last'.length = dim → (∀ l, prev = some l → last' = l) →
        decKey dim thr (bs.map posDesc) last' (b ++ r) = some (some (dimFrst dim prev key, key), r)) := by
  obtain ⟨o, ho⟩ := firstDiff_ok (k := key) (l := last) (fun a ha b hb => hlast.diff (hfit.2 a ha) hb)
  have hll := hlast.length
  have hk32 : ∀ k ∈ key, I32 k := fun k hm => (hfit.2 k hm).i32
  have hpsl : (bs.map posDesc).length = dim := by simp [hbs]
  cases o with
  | none =>
    have e := firstDiff_none (hk.trans hll.symm) ho
    cases hlast with
    | init =>
      exfalso
      have h0 := hfit.2 indexInitial (by rw [e]; exact List.mem_replicate.mpr ⟨by omega, rfl⟩)
      unfold KeyOk indexInitial at h0
      omega
    | seen hl hkk =>
      left
      refine ⟨last, rfl, e, ?_⟩
      unfold encKey
      rw [ho]
      simp; omega
  | some p =>
    obtain ⟨d, x⟩ := p
    obtain ⟨h1, h2, h3, h4, h5, a, b, ha, hb, hab⟩ := firstDiff_some ho
    obtain ⟨hlt1, hlt2⟩ := firstDiff_lt ho
    by_cases hx : x < 0
    · cases hlast with
      | init =>
        exfalso
        have hbm := List.mem_of_getElem? hb
        have := List.eq_of_mem_replicate hbm
        have h0 := hfit.2 a (List.mem_of_getElem? ha)
        unfold KeyOk at h0
        unfold indexInitial at this
        omega
      | seen hl hkk =>
        right; left
        refine ⟨last, rfl, hlt2 hx, ?_⟩
        unfold encKey
        rw [ho]
        simp [hx]
    · right; right
      have hx0 : 0 < x := by omega
      have hcat := take_append_drop_of_take_eq h3
      -- the accepted bytes
      obtain ⟨eb, heb⟩ := hfit.drop d
      have hput : ∃ b, encKey dim thr (bs.map posDesc) last cnt key = .ok (.put b key) := by
        unfold encKey
        rw [ho]
        simp only [Res.bind_ok]
        rw [if_neg hx]
        split
        · rw [hcat]; exact ⟨_, rfl⟩
        · rw [heb, hcat]; exact ⟨_, rfl⟩
      obtain ⟨bb, hbb⟩ := hput
      cases hlast with
      | init =>
        refine ⟨by simp, bb, hbb, ?_⟩
        intro last' r hl' _
        -- the first position already differs, so the record is written in full
        have hd0 : d = 0 := by
          by_contra hd
          have hpos : 0 < d := by omega
          cases key with
          | nil => simp at hk; omega
          | cons k0 key =>
            cases dim with
            | zero => omega
            | succ dim =>
              rw [List.replicate_succ] at h3
              obtain ⟨d', rfl⟩ : ∃ d', d = d' + 1 := ⟨d - 1, by omega⟩
              simp at h3
              have := hfit.2 k0 (by simp)
              unfold KeyOk at this
              unfold indexInitial at h3
              omega
        subst hd0
        have hxbig : 256 ≤ x := by
          have hbm := List.mem_of_getElem? hb
          have := List.eq_of_mem_replicate hbm
          have h0 := hfit.2 a (List.mem_of_getElem? ha)
          unfold KeyOk at h0
          unfold indexInitial at this
          omega
        have hbytes : bb = (1 : UInt8) :: eb := by
          unfold encKey at hbb
          rw [ho] at hbb
          simp only [Res.bind_ok] at hbb
          rw [if_neg hx, if_neg (by unfold deltaForWrite; omega), heb] at hbb
          simp only [Res.bind_ok, Res.pure_eq, Res.ok.injEq, KeyOut.put.injEq] at hbb
          exact hbb.1.symm
        subst hbytes
        have hdec := decElems_encElems (by simp [hbs, hk]) (fun k hkm => hk32 k (List.mem_of_mem_drop hkm)) heb r
        unfold decKey
        simp only [List.cons_append, rdByte_cons, Option.bind_eq_bind, Option.bind_some]
        have h11 : (1 : UInt8).toNat = 1 := rfl
        rw [h11, if_neg (by omega), if_neg (by omega)]
        simp only [Nat.sub_self, List.take_zero, List.nil_append, hdec, Option.bind_some, dimFrst]
        rw [if_neg (by omega)]
        simp
      | seen hl hkk =>
        refine ⟨by intro l hl; cases hl; exact hlt1 hx0, bb, hbb, ?_⟩
        intro last' r hl' hprev
        have e := hprev last rfl
        subst e
        have hne : key ≠ last' := by
          intro hc; subst hc
          rw [ha] at hb; simp at hb; omega
        obtain ⟨_, fd, hfd, _, hfd2⟩ :=
          decKey_encKey hdim2 hthr hpsl hll hk hk32 (Or.inr hne) hbb r
        obtain ⟨f1, f2, f3, f4⟩ := hfd2 (by omega)
        rw [hfd]
        simp only [dimFrst]
        rw [if_neg (by omega), firstChange_eq f1 (by omega) (by omega) f3 f4]

theorem decRecs_end {dim dfr nv : Nat} {ps : List PosDesc} {fuel : Nat} {last : List Int} {r : List UInt8}
    (h : dfr < 255) : decRecs dim dfr nv ps (fuel + 1) last ((255 : UInt8) :: r) = some ([], r) := by
  have h1 : decKey dim dfr ps last (255 :: r) = some (none, r) := by
    unfold decKey
    simp [h]
  unfold decRecs decRec
  rw [h1]
  rfl

/-- Writing a sequence of records behind the writer's memory: never undefined, accepts exactly the spec's records, and
    the bytes read back as these records with the right first changed position. -/
theorem putRecs_spec {dim thr : Nat} (hdim : 1 ≤ dim) (hdim2 : dim ≤ thr) (hthr : thr ≤ 20) {bs : List (Int × Int)} {nv : Nat}
    (hbs : bs.length = dim) (recs : List Rec)
    (hk : ∀ r ∈ recs, r.key.length = dim ∧ KeyFits bs r.key)
    (hv : ∀ r ∈ recs, r.vals.length = nv ∧ ∀ v ∈ r.vals, v.Wf)
    {w : Wr} {prev : Option (List Int)} (hw : LastOk dim w.last w.cnt prev) :
    ∃ w' out prev', putRecs dim thr (bs.map posDesc) w recs = .ok w' ∧ LastOk dim w'.last w'.cnt prev' ∧
      w'.out = w.out ++ out ∧ w'.cnt = w.cnt + (accepted prev recs).length ∧
      w'.errs = w.errs ++ refused prev recs ∧
      ∀ (fuel : Nat) (last' : List Int) (r : List UInt8), (accepted prev recs).length < fuel →
        last'.length = dim → (∀ l, prev = some l → last' = l) →
        decRecs dim thr nv (bs.map posDesc) fuel last' (out ++ 255 :: r) =
          some (annotate dim prev (accepted prev recs), r) := by
  induction recs generalizing w prev with
  | nil =>
    refine ⟨w, [], prev, rfl, hw, by simp, by simp [accepted], by simp [refused], ?_⟩
    intro fuel last' r hf _ _
    obtain ⟨f, rfl⟩ : ∃ f, fuel = f + 1 := ⟨fuel - 1, by simp [accepted] at hf; omega⟩
    rw [List.nil_append, decRecs_end (by omega)]
    simp [accepted, annotate]
  | cons r0 rs ih =>
    obtain ⟨hk1, hk2⟩ := hk r0 (by simp)
    obtain ⟨hv1, hv2⟩ := hv r0 (by simp)
    have ihk := fun r hr => hk r (List.mem_cons_of_mem r0 hr)
    have ihv := fun r hr => hv r (List.mem_cons_of_mem r0 hr)
    rcases encKey_cases hdim hdim2 hthr hbs hw hk1 hk2 with ⟨l, hp, he, henc⟩ | ⟨l, hp, hlt, henc⟩ | ⟨hlt, b, henc, hdec⟩
    · -- duplicate
      subst hp
      have hacc : accepted (some l) (r0 :: rs) = accepted (some l) rs := by
        simp only [accepted]; rw [if_neg (by rw [he]; exact List.lt_irrefl l)]
      have href : refused (some l) (r0 :: rs) = (.dup, r0) :: refused (some l) rs := by
        simp only [refused]; rw [if_neg (by rw [he]; exact List.lt_irrefl l), if_pos he]
      obtain ⟨w', out, prev', h1, h2, h3, h4, h5, h6⟩ :=
        ih ihk ihv (w := { w with errs := w.errs ++ [(.dup, r0)] }) hw
      refine ⟨w', out, prev', ?_, h2, h3, by rw [hacc]; exact h4, ?_, ?_⟩
      · simp only [putRecs, putRec, henc, Res.bind_ok, Res.pure_eq]; exact h1
      · rw [h5, href]; simp
      · rw [hacc]; exact h6
    · -- not sorted
      subst hp
      have hnl : ¬ l < r0.key := fun h => List.lt_irrefl _ (List.lt_trans h hlt)
      have hne : r0.key ≠ l := fun h => by rw [h] at hlt; exact List.lt_irrefl _ hlt
      have hacc : accepted (some l) (r0 :: rs) = accepted (some l) rs := by
        simp only [accepted]; rw [if_neg hnl]
      have href : refused (some l) (r0 :: rs) = (.unsorted, r0) :: refused (some l) rs := by
        simp only [refused]; rw [if_neg hnl, if_neg hne]
      obtain ⟨w', out, prev', h1, h2, h3, h4, h5, h6⟩ :=
        ih ihk ihv (w := { w with errs := w.errs ++ [(.unsorted, r0)] }) hw
      refine ⟨w', out, prev', ?_, h2, h3, by rw [hacc]; exact h4, ?_, ?_⟩
      · simp only [putRecs, putRec, henc, Res.bind_ok, Res.pure_eq]; exact h1
      · rw [h5, href]; simp
      · rw [hacc]; exact h6
    · -- accepted
      have hacc : accepted prev (r0 :: rs) = r0 :: accepted (some r0.key) rs := by
        cases prev with
        | none => rfl
        | some l => simp only [accepted]; rw [if_pos (hlt l rfl)]
      have href : refused prev (r0 :: rs) = refused (some r0.key) rs := by
        cases prev with
        | none => rfl
        | some l => simp only [refused]; rw [if_pos (hlt l rfl)]
      have hw' : LastOk dim r0.key (w.cnt + 1) (some r0.key) := LastOk.seen hk1 hk2.2
      obtain ⟨w', out, prev', h1, h2, h3, h4, h5, h6⟩ :=
        ih ihk ihv (w := { w with last := r0.key, cnt := w.cnt + 1, out := w.out ++ b ++ encSVals r0.vals }) hw'
      refine ⟨w', b ++ encSVals r0.vals ++ out, prev', ?_, h2, ?_, ?_, ?_, ?_⟩
      · simp only [putRecs, putRec, henc, Res.bind_ok, Res.pure_eq]; exact h1
      · rw [h3]; simp [List.append_assoc]
      · rw [h4, hacc]; simp; omega
      · rw [h5, href]
      · intro fuel last' r hf hl' hp'
        rw [hacc] at hf ⊢
        obtain ⟨f, rfl⟩ : ∃ f, fuel = f + 1 := ⟨fuel - 1, by simp at hf; omega⟩
        have hd := hdec last' (encSVals r0.vals ++ out ++ 255 :: r) hl' hp'
        have hvv := rdSVals_encSVals r0.vals hv2 (out ++ 255 :: r)
        rw [hv1] at hvv
        have hrec := h6 f r0.key r (by simp at hf; omega) hk1 (by intro l hl; cases hl; rfl)
        unfold decRecs decRec
        simp only [List.append_assoc] at hd hvv hrec ⊢
        rw [hd]
        simp only [Option.bind_eq_bind, Option.bind_some]
        rw [hvv]
        simp only [Option.bind_some]
        rw [hrec]
        simp [annotate]

end Gdx
