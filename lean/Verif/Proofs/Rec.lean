import Verif.Model.Rec
import Verif.Proofs.Val

/-! The record codec: reading a record gives back the record written. -/

namespace Gdx

/-! ### first difference -/

theorem firstDiff_none {k l : List Int} (hl : k.length = l.length) (h : firstDiff k l = .ok none) : k = l := by
  induction k generalizing l with
  | nil => cases l <;> simp_all
  | cons a k ih =>
    cases l with
    | nil => simp at hl
    | cons b l =>
      unfold firstDiff at h
      split at h
      · split at h
        · simp at h
        · next h0 =>
          cases hf : firstDiff k l with
          | ub => rw [hf] at h; simp at h
          | ok o =>
            rw [hf] at h
            cases o with
            | none => rw [ih (by simpa using hl) hf]; congr 1; omega
            | some p => obtain ⟨d, x⟩ := p; simp at h
      · simp at h

theorem firstDiff_some {k l : List Int} {d : Nat} {x : Int} (h : firstDiff k l = .ok (some (d, x))) :
    d < k.length ∧ d < l.length ∧ k.take d = l.take d ∧ x ≠ 0 ∧ I32 x ∧
      ∃ a b, k[d]? = some a ∧ l[d]? = some b ∧ a - b = x := by
  induction k generalizing l d with
  | nil => simp [firstDiff] at h
  | cons a k ih =>
    cases l with
    | nil => simp [firstDiff] at h
    | cons b l =>
      unfold firstDiff at h
      split at h
      · next h32 =>
        split at h
        · next h0 =>
          simp at h
          obtain ⟨rfl, rfl⟩ := h
          simp [h32]; omega
        · next h0 =>
          cases hf : firstDiff k l with
          | ub => rw [hf] at h; simp at h
          | ok o =>
            rw [hf] at h
            cases o with
            | none => simp at h
            | some p =>
              obtain ⟨d', x'⟩ := p
              simp at h
              obtain ⟨rfl, rfl⟩ := h
              obtain ⟨h1, h2, h3, h4, h5, h6⟩ := ih hf
              refine ⟨by simpa using h1, by simpa using h2, ?_, h4, h5, ?_⟩
              · simp [h3]; omega
              · simpa using h6
      · simp at h

theorem firstDiff_lt {k l : List Int} {d : Nat} {x : Int} (h : firstDiff k l = .ok (some (d, x))) :
    (0 < x → l < k) ∧ (x < 0 → k < l) := by
  induction k generalizing l d with
  | nil => simp [firstDiff] at h
  | cons a k ih =>
    cases l with
    | nil => simp [firstDiff] at h
    | cons b l =>
      unfold firstDiff at h
      split at h
      · next h32 =>
        split at h
        · next h0 =>
          simp at h
          obtain ⟨rfl, rfl⟩ := h
          constructor
          · intro hx
            exact List.Lex.rel (by omega)
          · intro hx
            exact List.Lex.rel (by omega)
        · next h0 =>
          cases hf : firstDiff k l with
          | ub => rw [hf] at h; simp at h
          | ok o =>
            rw [hf] at h
            cases o with
            | none => simp at h
            | some p =>
              obtain ⟨d', x'⟩ := p
              simp at h
              obtain ⟨rfl, rfl⟩ := h
              have e : a = b := by omega
              subst e
              obtain ⟨h1, h2⟩ := ih hf
              exact ⟨fun hx => List.Lex.cons (h1 hx), fun hx => List.Lex.cons (h2 hx)⟩
      · simp at h

/-- no overflow when the entries are close enough -/
theorem firstDiff_ok {k l : List Int} (h : ∀ a ∈ k, ∀ b ∈ l, I32 (a - b)) : ∃ o, firstDiff k l = .ok o := by
  induction k generalizing l with
  | nil => exact ⟨none, by simp [firstDiff]⟩
  | cons a k ih =>
    cases l with
    | nil => exact ⟨none, by simp [firstDiff]⟩
    | cons b l =>
      unfold firstDiff
      rw [if_pos (h a (by simp) b (by simp))]
      split
      · exact ⟨_, rfl⟩
      · obtain ⟨o, ho⟩ := ih (l := l) (fun x hx y hy => h x (by simp [hx]) y (by simp [hy]))
        rw [ho]
        cases o with
        | none => exact ⟨none, rfl⟩
        | some p => exact ⟨some (p.1 + 1, p.2), rfl⟩

/-! ### elements -/

theorem decElem_encElem {p : PosDesc} {k : Int} {bs : List UInt8} (hk : I32 k)
    (h : encElem p k = .ok bs) (r : List UInt8) : decElem p (bs ++ r) = some (k, r) := by
  unfold encElem at h
  simp only at h
  split at h
  · simp at h
  · next hv =>
    simp only [not_not] at hv
    have e : k - p.mn + p.mn = k := by omega
    unfold decElem
    split at h
    · next hs =>
      cases h
      simp [rdInt_wrInt _ hv, hk]
    · next hs =>
      split at h
      · next hr =>
        cases h
        have hw : (k - p.mn).toNat < 65536 := by omega
        have e2 : ((k - p.mn).toNat : Int) = k - p.mn := by omega
        simp [rdWord_wrWord _ hw]
        rw [show max (k - p.mn) 0 + p.mn = k by omega]
        exact ⟨hk, rfl⟩
      · simp at h
    · next hs =>
      split at h
      · next hr =>
        cases h
        simp
        have e2 : ((k - p.mn).toNat % 256 : Nat) = (k - p.mn).toNat := Nat.mod_eq_of_lt (by omega)
        have e3 : max (k - p.mn) 0 % 256 + p.mn = k := by omega
        rw [e3]
        exact ⟨hk, rfl⟩
      · simp at h

theorem decElems_encElems {ps : List PosDesc} {ks : List Int} {bs : List UInt8}
    (hl : ps.length = ks.length) (hk : ∀ k ∈ ks, I32 k)
    (h : encElems ps ks = .ok bs) (r : List UInt8) : decElems ps (bs ++ r) = some (ks, r) := by
  induction ps generalizing ks bs with
  | nil =>
    cases ks with
    | nil => simp [encElems] at h; subst h; simp [decElems]
    | cons k ks => simp at hl
  | cons p ps ih =>
    cases ks with
    | nil => simp at hl
    | cons k ks =>
      unfold encElems at h
      cases ha : encElem p k with
      | ub => rw [ha] at h; simp at h
      | ok a =>
        rw [ha] at h
        cases hb : encElems ps ks with
        | ub => rw [hb] at h; simp at h
        | ok b =>
          rw [hb] at h
          simp at h
          subst h
          unfold decElems
          rw [List.append_assoc, decElem_encElem (hk k (by simp)) ha]
          simp [ih (by simpa using hl) (fun x hx => hk x (by simp [hx])) hb]

/-! ### keys -/

theorem bumpLast_eq {l : List Int} {x : Int} {d : Nat} {a : Int} (hd : d + 1 = l.length) (ha : l[d]? = some a)
    (h32 : I32 (a + x)) : bumpLast x l = some (l.take d ++ [a + x]) := by
  induction l generalizing d with
  | nil => simp at hd
  | cons b l ih =>
    cases l with
    | nil =>
      simp at hd
      subst hd
      simp at ha
      subst ha
      simp [bumpLast, h32]
    | cons c l =>
      cases d with
      | zero => simp at hd
      | succ d =>
        have := ih (d := d) (by simpa using hd) (by simpa using ha)
        unfold bumpLast
        rw [this]
        simp

theorem take_append_drop_of_take_eq {k l : List Int} {d : Nat} (h : k.take d = l.take d) :
    l.take d ++ k.drop d = k := by rw [← h]; exact List.take_append_drop d k

/-- A key accepted by the writer, written against `last`, is read back by a reader whose last key is `last`;
    the reported first changed position is the first position where the keys differ. -/
theorem decKey_encKey {dim thr : Nat} {ps : List PosDesc} {last key : List Int} {cnt : Nat} {bs : List UInt8}
    {last' : List Int} (hdim : dim ≤ thr) (hthr : thr ≤ 20) (hps : ps.length = dim) (hl : last.length = dim) (hk : key.length = dim)
    (hk32 : ∀ k ∈ key, I32 k) (hne : dim = 0 ∨ key ≠ last)
    (h : encKey dim thr ps last cnt key = .ok (.put bs last')) (r : List UInt8) :
    last' = key ∧ ∃ fd, decKey dim thr ps last (bs ++ r) = some (some (fd, key), r) ∧
      (dim = 0 → thr = 0 → fd = 0) ∧
      (dim ≠ 0 → 1 ≤ fd ∧ fd ≤ dim ∧ key.take (fd - 1) = last.take (fd - 1) ∧ key[fd - 1]? ≠ last[fd - 1]?) := by
  unfold encKey at h
  cases hf : firstDiff key last with
  | ub => rw [hf] at h; simp at h
  | ok o =>
    rw [hf] at h
    cases o with
    | none =>
      have e := firstDiff_none (hk.trans hl.symm) hf
      have h0 : dim = 0 := by
        rcases hne with h0 | h0
        · exact h0
        · exact absurd e h0
      subst h0
      simp at h
      obtain ⟨rfl, rfl⟩ := h
      have : last = [] := List.length_eq_zero_iff.mp hl
      subst this
      subst e
      rcases Nat.eq_zero_or_pos thr with rfl | ht
      · refine ⟨rfl, 0, ?_, by simp, by simp⟩
        simp [decKey, bumpLast]
      · refine ⟨rfl, 1, ?_, by omega, by simp⟩
        unfold decKey
        have h11 : (1 : UInt8).toNat = 1 := rfl
        simp only [List.cons_append, List.nil_append, rdByte_cons, Option.bind_eq_bind, Option.bind_some]
        rw [h11, if_neg (by omega), if_neg (by omega)]
        have : ps = [] := List.length_eq_zero_iff.mp hps
        subst this
        simp [decElems]
    | some p =>
      obtain ⟨d, x⟩ := p
      obtain ⟨h1, h2, h3, h4, h5, a, b, ha, hb, hab⟩ := firstDiff_some hf
      have hcat := take_append_drop_of_take_eq h3
      simp only [Res.bind_ok] at h
      split at h
      · simp at h
      · next hx =>
        have hdiff : key[d]? ≠ last[d]? := by
          rw [ha, hb]; intro hc; simp at hc; omega
        split at h
        · next hc =>
          obtain ⟨hc1, hc2⟩ := hc
          simp only [Res.pure_eq, Res.ok.injEq, KeyOut.put.injEq] at h
          obtain ⟨rfl, rfl⟩ := h
          refine ⟨hcat, dim, ?_, by omega, fun _ => ⟨by omega, le_refl _, ?_, ?_⟩⟩
          · unfold deltaForWrite at hc2
            have hb1 : (UInt8.ofNat (thr + x.toNat)).toNat = thr + x.toNat := by
              simp; omega
            have hb2 : UInt8.ofNat (thr + x.toNat) ≠ 255 := by
              intro hc
              have := congrArg UInt8.toNat hc
              rw [hb1] at this
              simp at this
              omega
            have hbump : bumpLast ((((UInt8.ofNat (thr + x.toNat)).toNat : Nat)   : Int) - thr) last = some key := by
              rw [hb1]
              have e : ((thr + x.toNat : Nat) : Int) - thr = x := by omega
              have haI : I32 (b + x) := by
                have : b + x = a := by omega
                rw [this]
                exact hk32 a (List.mem_of_getElem? ha)
              rw [e, bumpLast_eq (d := d) (by omega) hb haI]
              congr 1
              rw [show b + x = a by omega]
              have hd : key.drop d = [a] := by
                have hlt : d < key.length := h1
                rw [List.drop_eq_getElem_cons hlt]
                have : key.drop (d + 1) = [] := by
                  apply List.drop_eq_nil_of_le; omega
                rw [this]
                congr 1
                rw [List.getElem?_eq_getElem hlt] at ha
                exact Option.some.inj ha
              rw [← hd]
              exact hcat
            unfold decKey
            simp only [List.cons_append, List.nil_append, rdByte_cons, Option.bind_eq_bind, Option.bind_some]
            rw [if_pos (by rw [hb1]; omega), if_neg hb2, hbump]
            simp
          · rw [← hc1]; simpa using h3
          · rw [← hc1]; simpa using hdiff
        · next hc =>
          cases he : encElems (ps.drop d) (key.drop d) with
          | ub => rw [he] at h; simp at h
          | ok eb =>
            rw [he] at h
            simp only [Res.bind_ok, Res.pure_eq, Res.ok.injEq, KeyOut.put.injEq] at h
            obtain ⟨rfl, rfl⟩ := h
            refine ⟨hcat, d + 1, ?_, by omega, fun _ => ⟨by omega, by omega, by simpa using h3, by simpa using hdiff⟩⟩
            have hb1 : (UInt8.ofNat (d + 1)).toNat = d + 1 := by simp; omega
            unfold decKey
            have hdec := decElems_encElems (by simp [hps, hk]) (fun k hkm => hk32 k (List.mem_of_mem_drop hkm)) he r
            simp only [List.cons_append, rdByte_cons, Option.bind_eq_bind, Option.bind_some]
            rw [hb1, if_neg (by omega), if_neg (by omega)]
            simp [hdec, hcat]

end Gdx
