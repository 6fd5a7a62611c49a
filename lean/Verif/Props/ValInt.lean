import Verif.Proofs.ValInt

/-! C76: utils::val accepts the text of an integer, and gives its value. -/

namespace Gdx.ValInt
open Gdx

def InInt (v : Int) : Prop := -2147483648 ≤ v ∧ v ≤ 2147483647

/-- no $ is followed by a small letter -/
def NoSmall (s : Text) : Prop := ¬ ∃ u c t, s = u ++ 36 :: c :: t ∧ 97 ≤ c

/-- no $ is followed by 0x -/
def NoPrefix (s : Text) : Prop := ¬ ∃ u x t, s = u ++ 36 :: 48 :: x :: t ∧ (x = 120 ∨ x = 88)

theorem asInt_in {v : Int} (h : InInt v) : asInt (clamp v) = v := by
  obtain ⟨h1, h2⟩ := h
  unfold asInt clamp
  rw [min_eq_right (by omega), max_eq_right (by omega), Int.bmod_eq_of_le] <;> omega

theorem valI_eq {k : Nat} {t : Str} (ht : t.head? ≠ some 32) (hl : (List.replicate k 32 ++ t).length ≤ 255) :
    valI (List.replicate k 32 ++ t) =
      let n : Int := (List.replicate k 32 ++ t).length
      let sd := unsign t
      let c0 : UInt8 := sd.head?.getD 0
      let c1 : UInt8 := sd.tail.head?.getD 0
      if (48 < c0 ∧ c0 ≤ 57) ∨ (c0 = 48 ∧ (c1 = 0 ∨ (48 ≤ c1 ∧ c1 ≤ 57))) then
        .ok (asInt (strtol 10 t).1, if (strtol 10 t).2 = [] then 0 else n - (strtol 10 t).2.length + 1)
      else if c0 = 36 then
        if (48 ≤ c1 ∧ c1 ≤ 57) ∨ (65 ≤ c1 ∧ c1 ≤ 70) then
          let r := strtol 16 (if t.head? = some 45 then 45 :: sd.tail else sd.tail)
          .ok (asInt r.1, if r.2 = [] then 0 else n - r.2.length + 1)
        else .ok (0, n - sd.tail.length + 1)
      else if c0 = 48 ∧ (c1 = 120 ∨ c1 = 88) then
        .ok (asInt (strtol 16 t).1, if (strtol 16 t).2 = [] then 0 else
          n - (if sd.length < (strtol 16 t).2.length + 2 then sd.tail.tail else (strtol 16 t).2).length + 1)
      else .ok (0, n - sd.length + 1) := by
  have h : (List.replicate k 32 ++ t).dropWhile (· = 32) = t := by
    rw [List.dropWhile_append_of_pos (by simp)]
    cases t with
    | nil => rfl
    | cons c t => simp at ht; simp [ht]
  unfold valI
  rw [if_neg (by omega)]
  simp only [h]
  rfl

theorem strtol_dec {t : Str} {n : Nat} (h : Numeral 10 (unsign t) n) : strtol 10 t = (clamp (signed t n), []) := by
  obtain ⟨h0, h1, rfl⟩ := (numeral_iff _ _ _).mp h
  obtain ⟨h2, h3⟩ := tw_all h1
  rw [strtol_eq]
  simp [h2, h3, h0]

theorem dig_x : ∀ x : UInt8, (x = 120 ∨ x = 88) → isDig 16 x = false := by
  rintro x (rfl | rfl) <;> decide

theorem skip0x_dig {s : Str} (h : ∀ c ∈ s, isDig 16 c = true) : skip0x s = s := by
  unfold skip0x
  split
  · next x d r =>
    rw [if_neg]
    rintro ⟨hx, _⟩
    have := h x (by simp)
    rw [dig_x x hx] at this; simp at this
  · rfl

theorem strtol_hex {t : Str} {n : Nat} (h : Numeral 16 (skip0x (unsign t)) n) : strtol 16 t = (clamp (signed t n), []) := by
  obtain ⟨h0, h1, rfl⟩ := (numeral_iff _ _ _).mp h
  obtain ⟨h2, h3⟩ := tw_all h1
  rw [strtol_eq]
  simp [h2, h3, h0]

theorem skip0x_hex {s : Str} {x : UInt8} {n : Nat} (hx : x = 120 ∨ x = 88) (h : Numeral 16 s n) : skip0x (48 :: x :: s) = s := by
  obtain ⟨h0, h1, _⟩ := (numeral_iff _ _ _).mp h
  cases s with
  | nil => simp at h0
  | cons d r => simp [skip0x, hx, h1 d (by simp)]

/-- a digit, by its code -/
theorem dec_code : ∀ c : UInt8, isDig 10 c = true ↔ 48 ≤ c ∧ c ≤ 57 := by
  have : ∀ c : Fin 256, isDig 10 (UInt8.ofFin c) = true ↔ 48 ≤ UInt8.ofFin c ∧ UInt8.ofFin c ≤ 57 := by decide +kernel
  exact fun c => this c.toFin

theorem hex_code : ∀ c : UInt8, isDig 16 c = true ↔ (48 ≤ c ∧ c ≤ 57) ∨ (65 ≤ c ∧ c ≤ 70) ∨ (97 ≤ c ∧ c ≤ 102) := by
  have : ∀ c : Fin 256, isDig 16 (UInt8.ofFin c) = true ↔ (48 ≤ UInt8.ofFin c ∧ UInt8.ofFin c ≤ 57) ∨ (65 ≤ UInt8.ofFin c ∧ UInt8.ofFin c ≤ 70) ∨
    (97 ≤ UInt8.ofFin c ∧ UInt8.ofFin c ≤ 102) := by decide +kernel
  exact fun c => this c.toFin

theorem dec_first : ∀ c : UInt8, 48 ≤ c ∧ c ≤ 57 → c = 48 ∨ (48 < c ∧ c ≤ 57) := by
  have : ∀ c : Fin 256, 48 ≤ UInt8.ofFin c ∧ UInt8.ofFin c ≤ 57 → UInt8.ofFin c = 48 ∨ (48 < UInt8.ofFin c ∧ UInt8.ofFin c ≤ 57) := by decide +kernel
  exact fun c => this c.toFin

theorem body_head {s : Str} {n : Nat} (h : Body s n) : ∃ c r, s = c :: r ∧ c ≠ 32 ∧ c ≠ 43 ∧ c ≠ 45 := by
  cases h with
  | dec h =>
    obtain ⟨h0, h1, _⟩ := (numeral_iff _ _ _).mp h
    cases s with
    | nil => simp at h0
    | cons c r =>
      have := h1 c (by simp)
      refine ⟨c, r, rfl, ?_, ?_, ?_⟩ <;> (rintro rfl; revert this; decide)
  | hex x hx h => exact ⟨48, _, rfl, by decide, by decide, by decide⟩
  | dollar h => exact ⟨36, _, rfl, by decide, by decide, by decide⟩

theorem signed_unsign {t : Str} {v : Int} (h : Signed t v) : ∃ n, Body (unsign t) n ∧ v = signed t n ∧ t.head? ≠ some 32 := by
  cases h with
  | @none _ n h =>
    obtain ⟨c, r, e, h1, h2, h3⟩ := body_head h
    refine ⟨n, ?_, ?_, ?_⟩
    · rw [unsign_of e h2 h3]; exact h
    · rw [signed, if_neg]; rw [e]; simpa using h3
    · rw [e]; simpa using h1
  | @plus s n h => exact ⟨n, h, rfl, by simp⟩
  | @minus s n h => exact ⟨n, h, rfl, by simp⟩

theorem blanks (s : Str) : ∃ k t, s = List.replicate k 32 ++ t ∧ t.head? ≠ some 32 := by
  refine ⟨(s.takeWhile (· = 32)).length, s.dropWhile (· = 32), ?_, ?_⟩
  · conv_lhs => rw [← List.takeWhile_append_dropWhile (p := (· = 32)) (l := s)]
    congr 1
    exact List.eq_replicate_iff.mpr ⟨rfl, fun c hc => by simpa using List.all_eq_true.mp List.all_takeWhile c hc⟩
  · intro hc
    have := List.head?_dropWhile_not (p := (· = 32)) s
    rw [hc] at this
    simp at this

/-- the text of an integer that an int can have gives that integer, unless a $ is followed by a small letter -/
theorem C76_number_partial {s : Text} {v : Int} (h : IntText s v) (hv : InInt v) (hl : s.length ≤ 255) (hs : NoSmall s) : valI s = .ok (v, 0) := by
  obtain ⟨k, t, rfl, ht⟩ := h
  obtain ⟨n, hb, rfl, h32⟩ := signed_unsign ht
  rw [valI_eq h32 hl]
  generalize hu : unsign t = u at hb
  cases hb with
  | dec h =>
    have e := strtol_dec (hu ▸ h)
    obtain ⟨h0, h1, _⟩ := (numeral_iff _ _ _).mp h
    have : (48 < u.head?.getD 0 ∧ u.head?.getD 0 ≤ 57) ∨ (u.head?.getD 0 = 48 ∧ (u.tail.head?.getD 0 = 0 ∨ (48 ≤ u.tail.head?.getD 0 ∧ u.tail.head?.getD 0 ≤ 57))) := by
      cases u with
      | nil => simp at h0
      | cons c r =>
        rcases dec_first c ((dec_code c).mp (h1 c (by simp))) with rfl | h
        · refine .inr ⟨rfl, ?_⟩
          cases r with
          | nil => exact .inl rfl
          | cons d r => exact .inr ((dec_code d).mp (h1 d (by simp)))
        · exact .inl h
    simp only [this, if_true, e]
    rw [asInt_in hv]
  | @hex w n x hx h =>
    have e := strtol_hex (t := t) (by rw [hu, skip0x_hex hx h]; exact h)
    have h1 : ¬ ((48 : UInt8) < 48 ∧ (48 : UInt8) ≤ 57 ∨ (48 : UInt8) = 48 ∧ (x = 0 ∨ 48 ≤ x ∧ x ≤ 57)) := by rcases hx with rfl | rfl <;> decide
    dsimp only
    rw [if_neg (by exact h1), if_neg (by exact (by decide : ¬ (48 : UInt8) = 36)), if_pos (by exact ⟨(rfl : (48 : UInt8) = 48), hx⟩), e]
    simp [asInt_in hv]
  | @dollar w n h =>
    obtain ⟨h0, h1, _⟩ := (numeral_iff _ _ _).mp h
    cases w with
    | nil => simp at h0
    | cons c r =>
      have hc : (48 ≤ c ∧ c ≤ 57) ∨ (65 ≤ c ∧ c ≤ 70) := by
        rcases (hex_code c).mp (h1 c (by simp)) with h | h | h
        · exact .inl h
        · exact .inr h
        · exfalso
          apply hs
          rcases sign_cases t with ⟨h1, _⟩ | h1 | h1
          · exact ⟨List.replicate k 32, c, r, by rw [← h1, hu], h.1⟩
          · exact ⟨List.replicate k 32 ++ [43], c, r, by rw [h1, hu]; simp, h.1⟩
          · exact ⟨List.replicate k 32 ++ [45], c, r, by rw [h1, hu]; simp, h.1⟩
      have h2 : ¬ ((48 : UInt8) < 36 ∧ (36 : UInt8) ≤ 57 ∨ (36 : UInt8) = 48 ∧ (c = 0 ∨ 48 ≤ c ∧ c ≤ 57)) := by simp
      have e : strtol 16 (if t.head? = some 45 then 45 :: (c :: r) else c :: r) = (clamp (signed t n), []) := by
        have hn : c ≠ 43 ∧ c ≠ 45 := by constructor <;> (rintro rfl; revert hc; decide)
        by_cases hm : t.head? = some 45
        · rw [if_pos hm, strtol_hex (n := n) (by show Numeral 16 (skip0x (c :: r)) n; rw [skip0x_dig h1]; exact h)]
          simp [signed, hm]
        · rw [if_neg hm, strtol_hex (n := n) (by rw [unsign_of rfl hn.1 hn.2, skip0x_dig h1]; exact h)]
          simp [signed, hm, hn.2]
      simp only [List.head?_cons, Option.getD_some, List.tail_cons, h2, if_false, if_true, hc, e]
      rw [asInt_in hv]

/-- what is accepted is the text of an integer, unless a $ is followed by 0x; the value is that integer, if an int can have it -/
theorem C76_accept_partial {s : Text} {i : Int} (h : valI s = .ok (i, 0)) (hp : NoPrefix s) : ∃ v, IntText s v ∧ (InInt v → i = v) := by
  have hl : s.length ≤ 255 := by
    by_contra hc
    unfold valI at h
    rw [if_pos (by omega)] at h
    cases h
  obtain ⟨k, t, hsp, h32⟩ := blanks s
  subst hsp
  suffices hh : ∃ n, Body (unsign t) n ∧ i = asInt (clamp (signed t n)) by
    obtain ⟨n, hb, rfl⟩ := hh
    exact ⟨_, ⟨k, t, rfl, signed_body hb⟩, asInt_in⟩
  have pos : ∀ {u : Str} {m : Nat}, ((if u = [] then (0 : Int) else (List.replicate k (32 : UInt8) ++ t).length - (m : Int) + 1) = 0) → m ≤ t.length → u = [] := by
    intro u m he hm
    by_contra hn
    rw [if_neg hn] at he
    simp at he; omega
  have sl : (unsign t).length ≤ t.length := by rcases sign_cases t with ⟨h, _⟩ | h | h <;> rw [h] <;> simp [unsign]
  have st : ∀ b s, (strtol b s).2.length ≤ s.length := by
    intro b s
    rw [strtol_eq]
    have h1 : (unsign s).length ≤ s.length := by rcases sign_cases s with ⟨h, _⟩ | h | h <;> rw [h] <;> simp [unsign]
    have h2 : ∀ s, (skip0x s).length ≤ s.length := by
      intro s; unfold skip0x; split
      · split <;> simp
      · exact le_refl _
    have h3 := h2 (unsign s)
    dsimp only
    split
    · split
      · simp
      · exact (List.dropWhile_suffix _).length_le.trans (h3.trans h1)
    · split
      · simp
      · exact (List.dropWhile_suffix _).length_le.trans h1
  rw [valI_eq h32 hl] at h
  dsimp only at h
  generalize hu : unsign t = u at h sl ⊢
  split at h
  · next hc =>
    have h := Res.ok.inj h
    have he := pos (congrArg Prod.snd h) (st 10 t)
    have hi := congrArg Prod.fst h
    dsimp only at hi
    rw [strtol_eq] at he hi
    simp only [Nat.reduceEqDiff, if_false, hu] at he hi
    by_cases hw : u.takeWhile (isDig 10) = []
    · rw [if_pos hw] at he
      dsimp only at he
      rw [he] at hu; rw [← hu] at hc
      exact absurd hc (by decide)
    · rw [if_neg hw] at he hi
      have ha := all_of_dw he
      refine ⟨_, .dec ((numeral_iff _ _ _).mpr ⟨?_, ha, rfl⟩), ?_⟩
      · rintro rfl; simp at hw
      · rw [← hi, (tw_all ha).1]
  · next hc =>
    split at h
    · next h36 =>
      obtain ⟨w, rfl⟩ : ∃ w, u = 36 :: w := by
        cases u with
        | nil => simp at h36
        | cons c w => simp at h36; exact ⟨w, by rw [h36]⟩
      split at h
      · next hd =>
        have h := Res.ok.inj h
        have hwl : (if t.head? = some 45 then 45 :: w else w).length ≤ t.length := by
          rcases sign_cases t with ⟨h1, h2⟩ | h1 | h1
          · rw [if_neg h2, ← h1, hu]; simp
          · rw [h1, hu]; simp; omega
          · rw [h1, hu]; simp
        simp only [List.tail_cons] at h hd
        have he := pos (congrArg Prod.snd h) ((st 16 _).trans hwl)
        have hi := congrArg Prod.fst h
        dsimp only at hi
        obtain ⟨c, r, rfl⟩ : ∃ c r, w = c :: r := by
          cases w with
          | nil => exact absurd hd (by decide)
          | cons c r => exact ⟨c, r, rfl⟩
        simp only [List.head?_cons, Option.getD_some] at hd
        have hn : c ≠ 43 ∧ c ≠ 45 := by constructor <;> (rintro rfl; revert hd; decide)
        have hun : unsign (if t.head? = some 45 then 45 :: (c :: r) else c :: r) = c :: r := by
          split
          · rfl
          · exact unsign_of rfl hn.1 hn.2
        have hsg : ∀ n, signed (if t.head? = some 45 then 45 :: (c :: r) else c :: r) n = signed t n := by
          intro n
          unfold signed
          by_cases hm : t.head? = some 45
          · simp [hm]
          · simp [hm, hn.2]
        have hsk : skip0x (c :: r) = c :: r := by
          unfold skip0x
          split
          · next x d r e =>
            rw [if_neg]
            · exact e.symm ▸ rfl
            rintro ⟨hx, _⟩
            apply hp
            cases e
            rcases sign_cases t with ⟨h1, _⟩ | h1 | h1
            · exact ⟨List.replicate k 32, x, d :: r, by rw [← h1, hu], hx⟩
            · exact ⟨List.replicate k 32 ++ [43], x, d :: r, by rw [h1, hu]; simp, hx⟩
            · exact ⟨List.replicate k 32 ++ [45], x, d :: r, by rw [h1, hu]; simp, hx⟩
          · rfl
        rw [strtol_eq] at he hi
        simp only [if_true, hun, hsk, hsg] at he hi
        by_cases hw : (c :: r).takeWhile (isDig 16) = []
        · exfalso
          have : isDig 16 c = true := (hex_code c).mpr (hd.imp id fun h => .inl h)
          simp [this] at hw
        · rw [if_neg hw] at he hi
          have ha := all_of_dw he
          refine ⟨_, .dollar ((numeral_iff _ _ _).mpr ⟨by simp, ha, rfl⟩), ?_⟩
          rw [← hi, (tw_all ha).1]
      · exfalso
        have h := congrArg Prod.snd (Res.ok.inj h)
        simp at h
        simp at sl
        omega
    · split at h
      · next hx' =>
        obtain ⟨x, w, rfl, hx⟩ : ∃ x w, u = 48 :: x :: w ∧ (x = 120 ∨ x = 88) := by
          cases u with
          | nil => exact absurd hx' (by decide)
          | cons c w =>
            cases w with
            | nil => revert hx'; simp
            | cons x w => simp at hx'; exact ⟨x, w, by rw [hx'.1], hx'.2⟩
        have h := Res.ok.inj h
        have hi := congrArg Prod.fst h
        have he : (strtol 16 t).2 = [] := by
          refine pos (congrArg Prod.snd h) ?_
          split
          · simp at sl ⊢; omega
          · exact st 16 t
        dsimp only at hi
        rw [strtol_eq] at he hi
        simp only [if_true, hu] at he hi
        have hsk : (∃ d r, w = d :: r ∧ isDig 16 d = true ∧ skip0x (48 :: x :: w) = w) ∨ skip0x (48 :: x :: w) = 48 :: x :: w := by
          cases w with
          | nil => right; rfl
          | cons d r =>
            by_cases hd : isDig 16 d = true
            · left; exact ⟨d, r, rfl, hd, by simp [skip0x, hx, hd]⟩
            · right; simp [skip0x, hd]
        rcases hsk with ⟨d, r, rfl, hd, hsk⟩ | hsk
        · rw [hsk] at he hi
          rw [if_neg (by simp [hd])] at he hi
          have ha := all_of_dw he
          refine ⟨_, .hex x hx ((numeral_iff _ _ _).mpr ⟨by simp, ha, rfl⟩), ?_⟩
          rw [← hi, (tw_all ha).1]
        · exfalso
          rw [hsk] at he
          have h48 : isDig 16 48 = true := by decide
          rw [if_neg (by simp [h48])] at he
          have := all_of_dw he x (by simp)
          rw [dig_x x hx] at this; simp at this
      · exfalso
        have h := congrArg Prod.snd (Res.ok.inj h)
        simp at h
        omega

/-- too long for the buffer: undefined -/
theorem C76_long {s : Text} (h : 255 < s.length) : valI s = .ub := by
  unfold valI
  rw [if_pos (by omega)]

/-- otherwise there is a result -/
theorem C76_defined {s : Text} (h : s.length ≤ 255) : ∃ r, valI s = .ok r := by
  obtain ⟨k, t, rfl, h32⟩ := blanks s
  rw [valI_eq h32 h]
  dsimp only
  generalize unsign t = sd
  by_cases h1 : (48 < sd.head?.getD 0 ∧ sd.head?.getD 0 ≤ 57) ∨ (sd.head?.getD 0 = 48 ∧ (sd.tail.head?.getD 0 = 0 ∨ (48 ≤ sd.tail.head?.getD 0 ∧ sd.tail.head?.getD 0 ≤ 57)))
  · rw [if_pos h1]; exact ⟨_, rfl⟩
  rw [if_neg h1]
  by_cases h2 : sd.head?.getD 0 = 36
  · rw [if_pos h2]
    by_cases h3 : (48 ≤ sd.tail.head?.getD 0 ∧ sd.tail.head?.getD 0 ≤ 57) ∨ (65 ≤ sd.tail.head?.getD 0 ∧ sd.tail.head?.getD 0 ≤ 70)
    · rw [if_pos h3]; exact ⟨_, rfl⟩
    · rw [if_neg h3]; exact ⟨_, rfl⟩
  rw [if_neg h2]
  by_cases h4 : sd.head?.getD 0 = 48 ∧ (sd.tail.head?.getD 0 = 120 ∨ sd.tail.head?.getD 0 = 88)
  · rw [if_pos h4]; exact ⟨_, rfl⟩
  · rw [if_neg h4]; exact ⟨_, rfl⟩

/-! ### Examples -/

def tx (s : String) : Text := s.toList.map fun c => c.toNat.toUInt8

example : valI (tx "  -120") = .ok (-120, 0) ∧ valI (tx "+$Ff") = .ok (255, 0) ∧ valI (tx "0Xff") = .ok (255, 0) ∧ valI (tx "12a") = .ok (12, 3) := by decide +kernel
example : IntText (tx "  -120") (-120) := by
  refine ⟨2, tx "-120", by decide +kernel, ?_⟩
  exact Signed.minus (n := 120) (.dec ⟨by decide, [1, 2, 0], .cons (.dec 1 (by decide)) (.cons (.dec 2 (by decide)) (.cons (.dec 0 (by decide)) .nil)), by decide, by decide⟩)

/-! ### Where it is different -/

/-- a number that is too large is accepted, with a different value -/
theorem C76_range : valI (tx "4294967297") = .ok (1, 0) ∧ valI (tx "2147483648") = .ok (-2147483648, 0) ∧ valI (tx "99999999999999999999") = .ok (-1, 0) := by decide +kernel

/-- after a $, a small letter is not accepted as the first digit -/
theorem C76_small : valI (tx "$ff") = .ok (0, 2) ∧ valI (tx "$0ff") = .ok (255, 0) := by decide +kernel

/-- after a $, 0x is accepted -/
theorem C76_prefix : valI (tx "$0x10") = .ok (16, 0) := by decide +kernel

#print axioms C76_number_partial
#print axioms C76_accept_partial
#print axioms C76_range

end Gdx.ValInt
