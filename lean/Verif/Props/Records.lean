import Verif.Proofs.Block

/-!
Record codec properties: C01, C24 (raw reader), C51, C53, C55 on the level of the data block of one symbol.
The API-level versions (whole sessions, files and reads) are in `Props/RawSession`.
-/

namespace Gdx.Props
open Gdx Gdx.Spec

/-- Bounds of gdxDataWriteRawStart: MinElem = 0, MaxElem = INT_MAX (gxfile.cpp:2233-2234). -/
def rawBounds (dim : Nat) : List (Int × Int) := List.replicate dim (0, intMax)

/-- A record of a symbol: right number of indices, indices that are element numbers, values in stored form. -/
structure GoodRec (dim nv : Nat) (r : Rec) : Prop where
  len : r.key.length = dim
  key : ∀ k ∈ r.key, 0 ≤ k ∧ k ≤ 2147483391
  nval : r.vals.length = nv
  val : ∀ v ∈ r.vals, v.Wf

/-- The key lies within the bounds, position by position. -/
def Within (bs : List (Int × Int)) (key : List Int) : Prop :=
  List.Forall₂ (fun b k => b.1 ≤ k ∧ k ≤ b.2) bs key

theorem keyFits_of_within {bs : List (Int × Int)} {key : List Int} (h : Within bs key)
    (hb : ∀ b ∈ bs, 0 ≤ b.1) (hk : ∀ k ∈ key, KeyOk k) : KeyFits bs key := by
  refine ⟨?_, hk⟩
  unfold Within at h
  induction h with
  | nil => exact .nil
  | @cons b k bs ks h1 _ ih =>
    refine .cons ?_ (ih (fun b hb' => hb b (by simp [hb'])) (fun k hk' => hk k (by simp [hk'])))
    have h2 := hb b (by simp)
    have h3 := hk k (by simp)
    unfold KeyOk at h3
    refine ⟨h1.1, h1.2, ?_⟩
    unfold I32
    omega

theorem within_raw {dim : Nat} {key : List Int} (hl : key.length = dim)
    (hk : ∀ k ∈ key, 0 ≤ k ∧ k ≤ 2147483391) : Within (rawBounds dim) key := by
  subst hl
  unfold Within rawBounds
  induction key with
  | nil => exact .nil
  | cons k ks ih =>
    refine .cons ?_ (ih fun k hk' => hk k (by simp [hk']))
    have := hk k (by simp)
    unfold intMax
    omega

/-- C51 (and C01, C24 for the raw reader): writing records one after the other, for every dimension 1..20, all bounds
    that contain the keys, all records and any following bytes: nothing is undefined; stored are exactly the records
    greater than all before; refused are exactly the others, in order, with the right reason; reading the block gives
    exactly the stored records with the exact first changed position, then the end of the data. -/
theorem C51_block (dim nv : Nat) (h1 : 1 ≤ dim) (h2 : dim ≤ 20) (nr : Int) (hn : I32 nr) (bs : List (Int × Int))
    (hl : bs.length = dim) (hb : ∀ b ∈ bs, 0 ≤ b.1 ∧ I32 b.1 ∧ I32 b.2) (recs : List Rec)
    (hr : ∀ r ∈ recs, GoodRec dim nv r ∧ Within bs r.key) :
    ∃ bytes w, encBlock dim dim nr bs recs = .ok (bytes, w) ∧ w.cnt = (accepted none recs).length ∧
      w.errs = refused none recs ∧
      ∀ (last0 : Int) (rest : List UInt8), decBlock dim dim nv last0 (bytes ++ rest) =
        some (some (annotate dim none (accepted none recs)), rest) :=
  decBlock_encBlock h1 (Nat.le_refl _) h2 hn hl (fun b hb' => (hb b hb').2) recs
    (fun r h => ⟨(hr r h).1.len, keyFits_of_within (hr r h).2 (fun b hb' => (hb b hb').1) (hr r h).1.key⟩)
    (fun r h => ⟨(hr r h).1.nval, (hr r h).1.val⟩)

-- three records of a 2-dimensional parameter, the second one out of order, with bounds
def exRecs : List Rec :=
  [⟨[3, 4], [.num 0x400921fb54442d18]⟩, ⟨[2, 9], [.code 5]⟩, ⟨[3, 250], [.code 6]⟩]
example : ∀ r ∈ exRecs, GoodRec 2 1 r ∧ Within [(1, 5), (4, 300)] r.key := by
  simp only [exRecs, List.mem_cons, List.not_mem_nil, or_false, forall_eq_or_imp, forall_eq]
  refine ⟨⟨⟨rfl, by decide, rfl, by simp [SVal.Wf]⟩, ?_⟩, ⟨⟨rfl, by decide, rfl, by simp [SVal.Wf]⟩, ?_⟩,
    ⟨⟨rfl, by decide, rfl, by simp [SVal.Wf]⟩, ?_⟩⟩ <;>
  exact .cons (by decide) (.cons (by decide) .nil)
example : (accepted none exRecs).map Rec.key = [[3, 4], [3, 250]] ∧
    (refused none exRecs).map (fun p => (p.1, p.2.key)) = [(.unsorted, [2, 9])] := by decide

/-- C01, data block: strictly increasing keys, every dimension 0..20; all records are read back in order with the
    right first changed position. -/
theorem C01_block (dim nv : Nat) (h2 : dim ≤ 20) (recs : List Rec) (hr : ∀ r ∈ recs, GoodRec dim nv r)
    (hs : (recs.map Rec.key).Pairwise (· < ·)) :
    ∃ bytes w, encBlock dim dim (-1) (rawBounds dim) recs = .ok (bytes, w) ∧ w.cnt = recs.length ∧ w.errs = [] ∧
      ∀ (last0 : Int) (rest : List UInt8), decBlock dim dim nv last0 (bytes ++ rest) =
        some (some (annotate dim none recs), rest) := by
  rcases Nat.eq_zero_or_pos dim with rfl | h1
  · exact decBlock_encBlock_zero (by decide) recs
      (fun r h => List.length_eq_zero_iff.mp (hr r h).len) (fun r h => ⟨(hr r h).nval, (hr r h).val⟩)
  · obtain ⟨ha, hb⟩ := accepted_of_sorted hs
    have := C51_block dim nv h1 h2 (-1) (by decide) (rawBounds dim) (by simp [rawBounds])
      (by intro b hb; rw [List.eq_of_mem_replicate hb]; decide) recs
      (fun r h => ⟨hr r h, within_raw (hr r h).len (hr r h).key⟩)
    rwa [ha, hb] at this

example : (∀ r ∈ [(⟨[3, 4], [.code 5]⟩ : Rec), ⟨[3, 250], [.code 6]⟩, ⟨[2147483391, 1], [.num 7]⟩], GoodRec 2 1 r) ∧
    (([⟨[3, 4], [.code 5]⟩, ⟨[3, 250], [.code 6]⟩, ⟨[2147483391, 1], [.num 7]⟩] : List Rec).map Rec.key).Pairwise
      (· < ·) := by
  constructor
  · simp only [List.mem_cons, List.not_mem_nil, or_false, forall_eq_or_imp, forall_eq]
    exact ⟨⟨rfl, by decide, rfl, by simp [SVal.Wf]⟩, ⟨rfl, by decide, rfl, by simp [SVal.Wf]⟩,
      ⟨rfl, by decide, rfl, by simp [SVal.Wf]⟩⟩
  · decide

/-- C53, data block: bounds that contain the keys do not change what is read back, nor what is counted and refused. -/
theorem C53_block (dim nv : Nat) (h1 : 1 ≤ dim) (h2 : dim ≤ 20) (bs : List (Int × Int)) (hl : bs.length = dim)
    (hb : ∀ b ∈ bs, 0 ≤ b.1 ∧ I32 b.1 ∧ I32 b.2) (recs : List Rec) (hr : ∀ r ∈ recs, GoodRec dim nv r)
    (hw : ∀ r ∈ recs, Within bs r.key) :
    ∃ bytes w bytes' w', encBlock dim dim (-1) bs recs = .ok (bytes, w) ∧
      encBlock dim dim (-1) (rawBounds dim) recs = .ok (bytes', w') ∧ w.cnt = w'.cnt ∧ w.errs = w'.errs ∧
      ∀ (last0 : Int) (rest : List UInt8),
        (decBlock dim dim nv last0 (bytes ++ rest)).isSome ∧
        decBlock dim dim nv last0 (bytes ++ rest) = decBlock dim dim nv last0 (bytes' ++ rest) := by
  obtain ⟨b1, w1, e1, c1, r1, d1⟩ := C51_block dim nv h1 h2 (-1) (by decide) bs hl hb recs (fun r h => ⟨hr r h, hw r h⟩)
  obtain ⟨b2, w2, e2, c2, r2, d2⟩ := C51_block dim nv h1 h2 (-1) (by decide) (rawBounds dim) (by simp [rawBounds])
      (by intro b hb; rw [List.eq_of_mem_replicate hb]; decide) recs
      (fun r h => ⟨hr r h, within_raw (hr r h).len (hr r h).key⟩)
  refine ⟨b1, w1, b2, w2, e1, e2, by rw [c1, c2], by rw [r1, r2], ?_⟩
  intro last0 rest
  rw [d1, d2]
  exact ⟨rfl, rfl⟩

/-- C53: the condition is needed. Keys outside of the bounds are an undefined outcome (assertion, or silently truncated
    bytes in a release build): one key position with bounds 1..10, key 300. -/
theorem C53_outside_bounds :
    encBlock 1 1 (-1) [(1, 10)] [⟨[300], [.code 5]⟩] = .ub := by decide

/-- C01: the restriction to element numbers is needed. A first raw record with index -256 in the only position produces
    bytes from which the index cannot be read back. -/
theorem C01_initial_key_lost : ∃ bytes w,
    encBlock 1 1 (-1) (rawBounds 1) [⟨[-256], [.code 5]⟩] = .ok (bytes, w) ∧ w.errs = [] ∧
    decBlock 1 1 1 (-1) bytes ≠ some (some [(1, ⟨[-256], [.code 5]⟩)], []) := by
  refine ⟨_, _, rfl, by decide, by decide⟩

/-- C01: a first raw record with a small negative index is read back as a different index. -/
theorem C01_negative_key_shifted : ∃ bytes w,
    encBlock 1 1 (-1) (rawBounds 1) [⟨[-100], [.code 5]⟩] = .ok (bytes, w) ∧ w.errs = [] ∧
    decBlock 1 1 1 (-1) bytes = some (some [(1, ⟨[155], [.code 5]⟩)], []) := by
  refine ⟨_, _, rfl, by decide, by decide⟩

/-- C55: records written with the code threshold 10 of the old format versions (dimension 1..10) are read back unchanged
    by the reader with DeltaForRead = 10 (gxfile.cpp:946). -/
theorem C55_old_format (dim nv : Nat) (h1 : 1 ≤ dim) (h2 : dim ≤ 10) (nr : Int) (hn : I32 nr) (recs : List Rec)
    (hr : ∀ r ∈ recs, GoodRec dim nv r) (hs : (recs.map Rec.key).Pairwise (· < ·)) :
    ∃ bytes w, encBlock dim 10 nr (rawBounds dim) recs = .ok (bytes, w) ∧ w.cnt = recs.length ∧ w.errs = [] ∧
      ∀ (last0 : Int) (rest : List UInt8), decBlock dim 10 nv last0 (bytes ++ rest) =
        some (some (annotate dim none recs), rest) := by
  obtain ⟨ha, hb⟩ := accepted_of_sorted hs
  have := decBlock_encBlock (thr := 10) h1 h2 (by omega) hn (bs := rawBounds dim) (nv := nv) (by simp [rawBounds])
    (by intro b hb; rw [List.eq_of_mem_replicate hb]; decide) recs
    (fun r h => ⟨(hr r h).len, keyFits_of_within (within_raw (hr r h).len (hr r h).key)
      (by intro b hb; rw [List.eq_of_mem_replicate hb]) (hr r h).key⟩)
    (fun r h => ⟨(hr r h).nval, (hr r h).val⟩)
  rwa [ha, hb] at this

/-- C55: the reader really needs the version's threshold: with the present one the old bytes give other records. -/
theorem C55_threshold_matters : ∃ bytes w,
    encBlock 2 10 0 (rawBounds 2) [⟨[1, 1], [.code 5]⟩, ⟨[1, 3], [.code 5]⟩] = .ok (bytes, w) ∧
    decBlock 2 10 1 (-1) bytes = some (some [(1, ⟨[1, 1], [.code 5]⟩), (2, ⟨[1, 3], [.code 5]⟩)], []) ∧
    decBlock 2 2 1 (-1) bytes = some (some [(1, ⟨[1, 1], [.code 5]⟩), (2, ⟨[1, 11], [.code 5]⟩)], []) :=
  ⟨_, _, rfl, by decide, by decide⟩

#print axioms C51_block
#print axioms C01_block
#print axioms C53_block
#print axioms C53_outside_bounds
#print axioms C01_initial_key_lost
#print axioms C01_negative_key_shifted
#print axioms C55_old_format
#print axioms C55_threshold_matters

end Gdx.Props
