import Verif.Model.ByteOrder
import Verif.Proofs.Prim

/-! C21: files are portable between byte orders. -/

namespace Gdx.Props
open Gdx

theorem memBytes_length (big : Bool) (n x : Nat) : (memBytes big n x).length = n := by
  unfold memBytes; split <;> simp

theorem memVal_memBytes (b1 b2 : Bool) (n x : Nat) (h : x < 256 ^ n) :
    memVal b2 (if b1 ≠ b2 then (memBytes b1 n x).reverse else memBytes b1 n x) = x := by
  have : decLE (encLE n x) = x := by rw [decLE_encLE, Nat.mod_eq_of_lt h]
  cases b1 <;> cases b2 <;> simp [memVal, memBytes, this]

theorem memVal_inj {b : Bool} {v w : List UInt8} (hl : v.length = w.length) (h : memVal b v = memVal b w) : v = w := by
  have key : ∀ {v w : List UInt8}, v.length = w.length → decLE v = decLE w → v = w := by
    intro v w hl h
    rw [← encLE_decLE v, ← encLE_decLE w, hl, h]
  unfold memVal at h
  split at h
  · have := key (by simpa using hl) h
    exact List.reverse_inj.mp this
  · exact key hl h

/-- the order mark a reader on machine `rb` finds in a header part written by machine `wb` -/
theorem initOrder_header (wb rb : Bool) (n pat : Nat) (hn : n < 256) (h : pat < 256 ^ n)
    (hp : memVal rb (memBytes (!rb) n pat) ≠ pat) (r : List UInt8) :
    initOrder rb n pat (UInt8.ofNat n :: memBytes wb n pat ++ r) = some (if wb ≠ rb then 1 else 0, r) := by
  unfold initOrder
  simp only [List.cons_append, rdByte_cons, Option.bind_eq_bind, Option.bind_some]
  have : (UInt8.ofNat n).toNat = n := by simp; omega
  rw [this, if_neg (by simp), rdBytes_append' (memBytes_length _ _ _)]
  simp only [Option.bind_some]
  have hv := memVal_memBytes wb rb n pat h
  by_cases hb : wb = rb
  · rw [if_neg (by simp [hb])] at hv
    rw [if_pos hv, if_neg (by simp [hb])]
  · rw [if_pos hb] at hv
    have : wb = !rb := by cases wb <;> cases rb <;> simp_all
    subst this
    rw [if_neg hp, if_pos hv, if_pos hb]

/-- C21: the header written on any machine is recognised on any machine: bytes are swapped exactly if the byte orders
    differ, and the marks are accepted. -/
theorem C21_header (wb rb : Bool) (r : List UInt8) :
    ∃ o, determineByteOrder rb (orderHeader wb ++ r) = some (o, r) ∧ goodByteOrder o = 0 ∧
      (o.word ≠ 0 ↔ wb ≠ rb) ∧ (o.int ≠ 0 ↔ wb ≠ rb) ∧ (o.dbl ≠ 0 ↔ wb ≠ rb) := by
  have h1 := initOrder_header wb rb 2 patWord (by decide) (by decide) (by cases rb <;> decide)
    (4 :: memBytes wb 4 patInt ++ (8 :: memBytes wb 8 patDouble ++ r))
  have h2 := initOrder_header wb rb 4 patInt (by decide) (by decide) (by cases rb <;> decide)
    (8 :: memBytes wb 8 patDouble ++ r)
  have h3 := initOrder_header wb rb 8 patDouble (by decide) (by decide) (by cases rb <;> decide +kernel) r
  refine ⟨⟨if wb ≠ rb then 1 else 0, if wb ≠ rb then 1 else 0, if wb ≠ rb then 1 else 0⟩, ?_, ?_, ?_, ?_, ?_⟩
  · have e : orderHeader wb ++ r = UInt8.ofNat 2 :: memBytes wb 2 patWord ++
        (UInt8.ofNat 4 :: memBytes wb 4 patInt ++ (UInt8.ofNat 8 :: memBytes wb 8 patDouble ++ r)) := by
      simp [orderHeader]
    rw [e]
    unfold determineByteOrder
    have h1' : initOrder rb 2 patWord (UInt8.ofNat 2 :: memBytes wb 2 patWord ++
        (UInt8.ofNat 4 :: memBytes wb 4 patInt ++ (UInt8.ofNat 8 :: memBytes wb 8 patDouble ++ r))) = _ := h1
    have h2' : initOrder rb 4 patInt (UInt8.ofNat 4 :: memBytes wb 4 patInt ++
        (UInt8.ofNat 8 :: memBytes wb 8 patDouble ++ r)) = _ := h2
    simp only [Option.bind_eq_bind]
    rw [h1']
    simp only [Option.bind_some]
    have e4 : (4 : UInt8) = UInt8.ofNat 4 := rfl
    have e8 : (8 : UInt8) = UInt8.ofNat 8 := rfl
    rw [e4, e8, h2']
    simp only [Option.bind_some]
    rw [e8, h3]
    rfl
  all_goals cases wb <;> cases rb <;> decide

/-- C21: a number of `n` bytes written on any machine is read with the same value on any machine, when the order mark
    says whether the byte orders differ. -/
theorem C21_value (wb rb : Bool) (n x order : Nat) (h : x < 256 ^ n) (ho : order ≠ 0 ↔ wb ≠ rb) (r : List UInt8) :
    rdOrdered rb n order (memBytes wb n x ++ r) = some (x, r) := by
  unfold rdOrdered
  rw [rdBytes_append' (memBytes_length _ _ _)]
  simp only [Option.bind_eq_bind, Option.bind_some, Option.some.injEq, Prod.mk.injEq, and_true]
  have := memVal_memBytes wb rb n x h
  by_cases hc : wb = rb
  · rw [if_neg (by simp [hc])] at this
    rw [if_neg (by rw [ho]; simp [hc]), this]
  · rw [if_pos hc] at this
    rw [if_pos (ho.mpr hc), this]

/-- the values (bit patterns) written one after the other by machine `wb` -/
def writeAll (wb : Bool) : List (OrdKind × Nat) → List UInt8
  | [] => []
  | (k, x) :: vs => memBytes wb k.size x ++ writeAll wb vs

/-- reading values of the given types -/
def readAllKinds (rb : Bool) (o : Orders) : List OrdKind → Rd (List Nat)
  | [], l => some ([], l)
  | k :: ks, l => do
    let (x, l) ← rdKind rb o k l
    let (xs, l) ← readAllKinds rb o ks l
    some (x :: xs, l)

/-- C21: a stream (header and any sequence of words, integers, 64-bit integers and doubles) written on a machine of any
    byte order is accepted and read with the same values on a machine of any byte order. -/
theorem C21_stream (wb rb : Bool) (vs : List (OrdKind × Nat)) (h : ∀ v ∈ vs, v.2 < 256 ^ v.1.size) (r : List UInt8) :
    ∃ o l, determineByteOrder rb (orderHeader wb ++ (writeAll wb vs ++ r)) = some (o, l) ∧ goodByteOrder o = 0 ∧
      readAllKinds rb o (vs.map Prod.fst) l = some (vs.map Prod.snd, r) := by
  obtain ⟨o, h1, h2, h3, h4, h5⟩ := C21_header wb rb (writeAll wb vs ++ r)
  refine ⟨o, _, h1, h2, ?_⟩
  clear h1
  induction vs with
  | nil => rfl
  | cons v vs ih =>
    obtain ⟨k, x⟩ := v
    have hx := h (k, x) (by simp)
    have hk : rdKind rb o k (memBytes wb k.size x ++ (writeAll wb vs ++ r)) = some (x, writeAll wb vs ++ r) := by
      cases k
      · exact C21_value wb rb 2 x _ hx h3 _
      · exact C21_value wb rb 4 x _ hx h4 _
      · exact C21_value wb rb 8 x _ hx h4 _
      · exact C21_value wb rb 8 x _ hx h5 _
    simp only [List.map_cons, readAllKinds, writeAll, List.append_assoc, Option.bind_eq_bind]
    rw [hk]
    simp only [Option.bind_some]
    rw [ih (fun v hv => h v (by simp [hv]))]
    rfl

/-- one part of the header is in order: right size, and the pattern in one of the two byte orders -/
def PartOk (n pat : Nat) (l r : List UInt8) : Prop :=
  ∃ big, l = UInt8.ofNat n :: memBytes big n pat ++ r

theorem initOrder_ok (rb : Bool) (n pat : Nat) (hn : n < 256) (l r : List UInt8) (o : Nat)
    (h : initOrder rb n pat l = some (o, r)) (h1 : o ≠ patBadSize) (h2 : o ≠ patBadOrder)
    (hpat : pat < 256 ^ n) : PartOk n pat l r := by
  unfold initOrder at h
  cases l with
  | nil => simp [rdByte] at h
  | cons sz l =>
    simp only [rdByte_cons, Option.bind_eq_bind, Option.bind_some] at h
    split at h
    · simp only [Option.some.injEq, Prod.mk.injEq] at h
      exact absurd h.1.symm h1
    · rename_i hs
      have hs : sz = UInt8.ofNat n := by
        have : sz.toNat = n := by simpa using hs
        rw [← this]; simp
      have hb : ∃ v r', rdBytes n l = some (v, r') := by
        cases hh : rdBytes n l with
        | none => rw [hh] at h; simp at h
        | some x => exact ⟨x.1, x.2, rfl⟩
      obtain ⟨v, r', hv⟩ := hb
      rw [hv] at h
      simp only [Option.bind_some] at h
      unfold rdBytes at hv
      split at hv
      · rename_i hlen
        simp only [Option.some.injEq, Prod.mk.injEq] at hv
        obtain ⟨e1, e2⟩ := hv
        have hl : l = v ++ r' := by rw [← e1, ← e2, List.take_append_drop]
        have hvl : v.length = n := by rw [← e1]; simp; omega
        split at h
        · rename_i hm
          simp only [Option.some.injEq, Prod.mk.injEq] at h
          have := memVal_memBytes rb rb n pat hpat
          rw [if_neg (by simp)] at this
          have := memVal_inj (b := rb) (by rw [memBytes_length, hvl]) (hm.trans this.symm)
          exact ⟨rb, by rw [hs, hl, h.2, this]; rfl⟩
        · split at h
          · rename_i hm
            simp only [Option.some.injEq, Prod.mk.injEq] at h
            have := memVal_memBytes (!rb) rb n pat hpat
            rw [if_pos (by simp)] at this
            have := memVal_inj (b := rb) (by simp [memBytes_length, hvl]) (hm.trans this.symm)
            exact ⟨!rb, by rw [hs, hl, h.2, List.reverse_inj.mp this]; rfl⟩
          · simp only [Option.some.injEq, Prod.mk.injEq] at h
            exact absurd h.1.symm h2
      · cases hv

/-- C21: only headers whose three marks are in order (each in one of the two byte orders) are accepted. -/
theorem C21_reject (rb : Bool) (l r : List UInt8) (o : Orders) (h : determineByteOrder rb l = some (o, r))
    (hg : goodByteOrder o = 0) :
    ∃ l1 l2, PartOk 2 patWord l l1 ∧ PartOk 4 patInt l1 l2 ∧ PartOk 8 patDouble l2 r := by
  unfold determineByteOrder at h
  simp only [Option.bind_eq_bind] at h
  rw [Option.bind_eq_some_iff] at h
  obtain ⟨⟨w, l1⟩, h1, h⟩ := h
  rw [Option.bind_eq_some_iff] at h
  obtain ⟨⟨i, l2⟩, h2, h⟩ := h
  rw [Option.bind_eq_some_iff] at h
  obtain ⟨⟨d, l3⟩, h3, h⟩ := h
  simp only [Option.some.injEq, Prod.mk.injEq] at h
  obtain ⟨rfl, rfl⟩ := h
  unfold goodByteOrder at hg
  simp only at hg
  have q : ∀ (P : Prop) [Decidable P] (k : Nat), 0 < k → (if P then k else 0) = 0 → ¬ P := by
    intro P _ k hk h hP
    rw [if_pos hP] at h
    omega
  refine ⟨l1, l2, ?_, ?_, ?_⟩
  · exact initOrder_ok rb 2 patWord (by decide) l l1 w h1 (q _ 1 (by decide) (by omega)) (q _ 2 (by decide) (by omega)) (by decide)
  · exact initOrder_ok rb 4 patInt (by decide) l1 l2 i h2 (q _ 4 (by decide) (by omega)) (q _ 8 (by decide) (by omega)) (by decide)
  · exact initOrder_ok rb 8 patDouble (by decide) l2 l3 d h3 (q _ 16 (by decide) (by omega)) (q _ 32 (by decide) (by omega)) (by decide)

example : orderHeader true = [2, 0x12, 0x34, 4, 0x12, 0x34, 0x56, 0x78, 8, 0x40, 0x09, 0x21, 0xfb, 0x54, 0x44, 0x2d, 0x18] := by
  decide +kernel
example : (determineByteOrder false [2, 0x12, 0x34, 4, 0x12, 0x34, 0x56, 0x79, 8, 0x40, 0x09, 0x21, 0xfb, 0x54, 0x44, 0x2d, 0x18]).map
    (fun x => goodByteOrder x.1) = some 8 := by decide +kernel

#print axioms C21_header
#print axioms C21_value
#print axioms C21_reject
#print axioms C21_stream

end Gdx.Props
