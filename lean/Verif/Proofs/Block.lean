import Verif.Proofs.RecSeq

namespace Gdx
open Spec

theorem decBounds_encBounds (bs : List (Int × Int)) (h : ∀ b ∈ bs, I32 b.1 ∧ I32 b.2) (r : List UInt8) :
    decBounds bs.length (encBounds bs ++ r) = some (bs, r) := by
  induction bs with
  | nil => simp [decBounds, encBounds]
  | cons b bs ih =>
    obtain ⟨h1, h2⟩ := h b (by simp)
    have e : encBounds (b :: bs) ++ r = wrInt b.1 ++ (wrInt b.2 ++ (encBounds bs ++ r)) := by
      simp [encBounds, List.append_assoc]
    rw [e]
    simp only [List.length_cons, decBounds]
    rw [rdInt_wrInt _ h1]
    simp only [Option.bind_eq_bind, Option.bind_some]
    rw [rdInt_wrInt _ h2]
    simp only [Option.bind_some]
    rw [ih (fun b hb => h b (List.mem_cons_of_mem _ hb))]
    simp

theorem decBlockHeader_enc {dim : Nat} (hd : dim ≤ 20) {nr : Int} (hn : I32 nr) (bs : List (Int × Int))
    (hl : bs.length = dim) (h : ∀ b ∈ bs, I32 b.1 ∧ I32 b.2) (r : List UInt8) :
    decBlockHeader dim (encBlockHeader dim nr bs ++ r) = some (.hdr bs, r) := by
  subst hl
  unfold decBlockHeader encBlockHeader
  simp only [List.append_assoc]
  rw [rdString_encStr markData (by decide)]
  simp only [Option.bind_eq_bind, Option.bind_some, ne_eq, not_true_eq_false, if_false]
  rw [rdByte_wrByte]
  have : (UInt8.ofNat bs.length).toNat = bs.length := by simp; omega
  simp only [Option.bind_some, this, not_true_eq_false, if_false]
  rw [rdInt_wrInt _ hn]
  simp only [Option.bind_some]
  rw [decBounds_encBounds bs h]
  simp

theorem encSVals_length_le (vs : List SVal) : vs.length ≤ (encSVals vs).length := by
  induction vs with
  | nil => simp [encSVals]
  | cons v vs ih =>
    have : 1 ≤ (encSVal v).length := by cases v <;> simp [encSVal]
    simp only [encSVals, List.map_cons, List.flatten_cons, List.length_append, List.length_cons] at ih ⊢
    omega

theorem encKey_put_ne_nil {dim thr : Nat} {ps : List PosDesc} {last key : List Int} {cnt : Nat} {b : List UInt8}
    {l : List Int} (h : encKey dim thr ps last cnt key = .ok (.put b l)) : 1 ≤ b.length := by
  unfold encKey at h
  cases hf : firstDiff key last with
  | ub => rw [hf] at h; simp at h
  | ok o =>
    rw [hf] at h
    simp only [Res.bind_ok] at h
    split at h
    · split at h
      · simp at h
      · simp at h; simp [← h.1]
    · split at h
      · simp at h
      · split at h
        · simp only [Res.pure_eq, Res.ok.injEq, KeyOut.put.injEq] at h; simp [← h.1]
        · rename_i d x _ _
          cases he : encElems (ps.drop d) (key.drop d) with
          | ub => rw [he] at h; simp at h
          | ok o =>
            rw [he] at h
            simp only [Res.bind_ok, Res.pure_eq, Res.ok.injEq, KeyOut.put.injEq] at h; simp [← h.1]

/-- Every stored record takes at least one byte. -/
theorem putRecs_cnt_le {dim thr : Nat} {ps : List PosDesc} {recs : List Rec} {w w' : Wr}
    (h : putRecs dim thr ps w recs = .ok w') :
    ∃ o, w'.out = w.out ++ o ∧ w'.cnt ≤ w.cnt + o.length := by
  induction recs generalizing w with
  | nil => simp only [putRecs, Res.ok.injEq] at h; subst h; exact ⟨[], by simp, by simp⟩
  | cons r rs ih =>
    simp only [putRecs] at h
    cases hp : putRec dim thr ps w r with
    | ub => rw [hp] at h; simp at h
    | ok w1 =>
      rw [hp] at h
      simp only [Res.bind_ok] at h
      obtain ⟨o, ho1, ho2⟩ := ih h
      unfold putRec at hp
      cases hk : encKey dim thr ps w.last w.cnt r.key with
      | ub => rw [hk] at hp; simp at hp
      | ok k =>
        rw [hk] at hp
        cases k with
        | dup => simp at hp; subst hp; exact ⟨o, ho1, ho2⟩
        | unsorted => simp at hp; subst hp; exact ⟨o, ho1, ho2⟩
        | put b l =>
          simp at hp
          subst hp
          have := encKey_put_ne_nil hk
          refine ⟨b ++ encSVals r.vals ++ o, by rw [ho1]; simp [List.append_assoc], ?_⟩
          simp at ho2 ⊢
          omega

/-- Writing scalars: every record is stored. -/
theorem putRecs_zero {nv : Nat} (recs : List Rec) (hk : ∀ r ∈ recs, r.key = [])
    (hv : ∀ r ∈ recs, r.vals.length = nv ∧ ∀ v ∈ r.vals, v.Wf) (w : Wr) (hw : w.last = []) (prev : Option (List Int)) :
    ∃ w' out, putRecs 0 0 [] w recs = .ok w' ∧ w'.last = [] ∧ w'.out = w.out ++ out ∧
      w'.cnt = w.cnt + recs.length ∧ w'.errs = w.errs ∧
      ∀ (fuel : Nat) (r : List UInt8), recs.length < fuel →
        decRecs 0 0 nv [] fuel [] (out ++ 255 :: r) = some (annotate 0 prev recs, r) := by
  induction recs generalizing w prev with
  | nil =>
    refine ⟨w, [], rfl, hw, by simp, by simp, rfl, ?_⟩
    intro fuel r hf
    obtain ⟨f, rfl⟩ : ∃ f, fuel = f + 1 := ⟨fuel - 1, by simp at hf; omega⟩
    rw [List.nil_append, decRecs_end (by omega)]
    rfl
  | cons r0 rs ih =>
    have hk0 := hk r0 (by simp)
    obtain ⟨hv1, hv2⟩ := hv r0 (by simp)
    have henc : encKey 0 0 [] w.last w.cnt r0.key = .ok (.put [1] []) := by
      rw [hk0, hw]; simp [encKey, firstDiff]
    obtain ⟨w', out, h1, h2, h3, h4, h5, h6⟩ :=
      ih (fun r hr => hk r (List.mem_cons_of_mem _ hr)) (fun r hr => hv r (List.mem_cons_of_mem _ hr))
        { w with last := [], cnt := w.cnt + 1, out := w.out ++ [1] ++ encSVals r0.vals } rfl (some r0.key)
    refine ⟨w', [1] ++ encSVals r0.vals ++ out, ?_, h2, ?_, ?_, h5, ?_⟩
    · simp only [putRecs, putRec, henc, Res.bind_ok, Res.pure_eq]; exact h1
    · rw [h3]; simp [List.append_assoc]
    · rw [h4]; simp; omega
    · intro fuel r hf
      obtain ⟨f, rfl⟩ : ∃ f, fuel = f + 1 := ⟨fuel - 1, by simp at hf; omega⟩
      have hvv := rdSVals_encSVals r0.vals hv2 (out ++ 255 :: r)
      rw [hv1] at hvv
      have hrec := h6 f r (by simp at hf; omega)
      have hd : decKey 0 0 [] [] ((1 : UInt8) :: (encSVals r0.vals ++ (out ++ 255 :: r))) =
          some (some (0, []), encSVals r0.vals ++ (out ++ 255 :: r)) := by
        simp [decKey, bumpLast]
      unfold decRecs decRec
      simp only [List.append_assoc, List.cons_append, List.nil_append]
      rw [hd]
      simp only [Option.bind_eq_bind, Option.bind_some]
      rw [hvv]
      simp only [Option.bind_some]
      rw [hrec]
      have : r0 = { key := [], vals := r0.vals } := by cases r0; simp_all
      simp only [Option.bind_some, annotate, dimFrst]
      rw [← this]
      cases prev <;> simp [dimFrst]

/-- Strictly increasing keys are all accepted. -/
theorem accepted_of_sorted {recs : List Rec} (h : (recs.map Rec.key).Pairwise (· < ·)) :
    accepted none recs = recs ∧ refused none recs = [] := by
  have gen : ∀ (recs : List Rec) (prev : Option (List Int)), (recs.map Rec.key).Pairwise (· < ·) →
      (∀ l, prev = some l → ∀ r ∈ recs, l < r.key) → accepted prev recs = recs ∧ refused prev recs = [] := by
    intro recs
    induction recs with
    | nil => intro prev _ _; cases prev <;> simp [accepted, refused]
    | cons r rs ih =>
      intro prev hp hl
      simp only [List.map_cons, List.pairwise_cons, List.mem_map, forall_exists_index, and_imp,
        forall_apply_eq_imp_iff₂] at hp
      have := ih (some r.key) hp.2 (by intro l hl; cases hl; exact hp.1)
      cases prev with
      | none => simp [accepted, refused, this]
      | some l => simp [accepted, refused, this, hl l rfl r (by simp)]
  exact gen recs none h (by simp)

/-- The accepted records have strictly increasing keys. -/
theorem accepted_sorted (prev : Option (List Int)) (recs : List Rec) :
    ((accepted prev recs).map Rec.key).Pairwise (· < ·) ∧ ∀ l, prev = some l → ∀ r ∈ accepted prev recs, l < r.key := by
  induction recs generalizing prev with
  | nil => cases prev <;> simp [accepted]
  | cons r rs ih =>
    cases prev with
    | none =>
      obtain ⟨h1, h2⟩ := ih (some r.key)
      simp only [accepted, List.map_cons, List.pairwise_cons, List.mem_map, forall_exists_index, and_imp,
        forall_apply_eq_imp_iff₂]
      exact ⟨⟨h2 _ rfl, h1⟩, by simp⟩
    | some l =>
      by_cases hlt : l < r.key
      · obtain ⟨h1, h2⟩ := ih (some r.key)
        simp only [accepted, if_pos hlt, List.map_cons, List.pairwise_cons, List.mem_map, forall_exists_index, and_imp,
          forall_apply_eq_imp_iff₂]
        refine ⟨⟨h2 _ rfl, h1⟩, ?_⟩
        intro l' hl' r' hr'
        cases hl'
        rcases List.mem_cons.1 hr' with rfl | hr'
        · exact hlt
        · exact List.lt_trans hlt (h2 _ rfl r' hr')
      · obtain ⟨h1, h2⟩ := ih (some l)
        simp only [accepted, if_neg hlt]
        exact ⟨h1, h2⟩

/-- A written block is read back as the accepted records. -/
theorem decBlock_encBlock {dim thr : Nat} (hdim : 1 ≤ dim) (hdim2 : dim ≤ thr) (hthr : thr ≤ 20) {nr : Int} (hn : I32 nr)
    {bs : List (Int × Int)} {nv : Nat} (hbs : bs.length = dim) (hb32 : ∀ b ∈ bs, I32 b.1 ∧ I32 b.2)
    (recs : List Rec) (hk : ∀ r ∈ recs, r.key.length = dim ∧ KeyFits bs r.key)
    (hv : ∀ r ∈ recs, r.vals.length = nv ∧ ∀ v ∈ r.vals, v.Wf) :
    ∃ bytes w, encBlock dim thr nr bs recs = .ok (bytes, w) ∧ w.cnt = (accepted none recs).length ∧
      w.errs = refused none recs ∧
      ∀ (last0 : Int) (r : List UInt8), decBlock dim thr nv last0 (bytes ++ r) =
        some (some (annotate dim none (accepted none recs)), r) := by
  obtain ⟨w, out, prev', h1, h2, h3, h4, h5, h6⟩ :=
    putRecs_spec hdim hdim2 hthr hbs recs hk hv (w := Wr.init dim) LastOk.init
  simp only [Wr.init, List.nil_append, Nat.zero_add] at h3 h4 h5
  refine ⟨encBlockHeader dim nr bs ++ w.out ++ [255], w, by unfold encBlock; rw [h1]; rfl, h4, h5, ?_⟩
  intro last0 r
  unfold decBlock
  have e : encBlockHeader dim nr bs ++ w.out ++ [255] ++ r = encBlockHeader dim nr bs ++ (out ++ 255 :: r) := by
    simp [h3]
  rw [e, decBlockHeader_enc (by omega) hn bs hbs hb32]
  simp only [Option.bind_eq_bind, Option.bind_some]
  obtain ⟨o, ho1, ho2⟩ := putRecs_cnt_le h1
  simp only [Wr.init, List.nil_append, Nat.zero_add] at ho1 ho2
  rw [h6 _ _ r (by rw [← h4]; simp; rw [h3] at ho1; subst ho1; omega) (by simp) (by simp)]
  simp

theorem decBlock_encBlock_zero {nr : Int} (hn : I32 nr) {nv : Nat} (recs : List Rec) (hk : ∀ r ∈ recs, r.key = [])
    (hv : ∀ r ∈ recs, r.vals.length = nv ∧ ∀ v ∈ r.vals, v.Wf) :
    ∃ bytes w, encBlock 0 0 nr [] recs = .ok (bytes, w) ∧ w.cnt = recs.length ∧ w.errs = [] ∧
      ∀ (last0 : Int) (r : List UInt8), decBlock 0 0 nv last0 (bytes ++ r) =
        some (some (annotate 0 none recs), r) := by
  obtain ⟨w, out, h1, h2, h3, h4, h5, h6⟩ := putRecs_zero recs hk hv (Wr.init 0) rfl none
  simp only [Wr.init, List.nil_append, Nat.zero_add] at h3 h4 h5
  refine ⟨encBlockHeader 0 nr [] ++ w.out ++ [255], w, ?_, h4, h5, ?_⟩
  · unfold encBlock; simp only [List.map_nil]; rw [h1]; rfl
  intro last0 r
  unfold decBlock
  have e : encBlockHeader 0 nr [] ++ w.out ++ [255] ++ r = encBlockHeader 0 nr [] ++ (out ++ 255 :: r) := by
    simp [h3]
  rw [e, decBlockHeader_enc (dim := 0) (by omega) hn [] rfl (by simp)]
  simp only [Option.bind_eq_bind, Option.bind_some, List.map_nil, List.replicate_zero]
  obtain ⟨o, ho1, ho2⟩ := putRecs_cnt_le h1
  simp only [Wr.init, List.nil_append, Nat.zero_add] at ho1 ho2
  rw [h6 _ r (by rw [← h4]; simp; rw [h3] at ho1; subst ho1; omega)]
  simp

end Gdx
