import Verif.Model.ValInt
import Verif.Spec.ValInt
import Mathlib.Data.Nat.Digits.Lemmas

/-! Lemmas on the conversion of strings into integers. -/

namespace Gdx.ValInt
open Gdx

theorem digit_iff (c : UInt8) (n : Nat) : digit c = some n ↔ Digit c n := by
  have h1 : ∀ c : Fin 256, ∀ n, digit (UInt8.ofFin c) = some n → (n < 10 ∧ UInt8.ofFin c = UInt8.ofNat (48 + n)) ∨
      (10 ≤ n ∧ n < 16 ∧ (UInt8.ofFin c = UInt8.ofNat (65 + (n - 10)) ∨ UInt8.ofFin c = UInt8.ofNat (97 + (n - 10)))) := by
    have : ∀ c : Fin 256, (match digit (UInt8.ofFin c) with
      | none => true
      | some n => decide ((n < 10 ∧ UInt8.ofFin c = UInt8.ofNat (48 + n)) ∨
        (10 ≤ n ∧ n < 16 ∧ (UInt8.ofFin c = UInt8.ofNat (65 + (n - 10)) ∨ UInt8.ofFin c = UInt8.ofNat (97 + (n - 10)))))) = true := by decide +kernel
    intro c n h
    have := this c
    rw [h] at this
    simpa using this
  constructor
  · intro h
    rcases h1 c.toFin n h with ⟨h, e⟩ | ⟨h, h', e | e⟩
    · have e : c = _ := e
      rw [e]; exact .dec n h
    · have e : c = _ := e
      obtain ⟨m, rfl⟩ := Nat.exists_eq_add_of_le h
      rw [e, Nat.add_sub_cancel_left]; exact .upper m (by omega)
    · have e : c = _ := e
      obtain ⟨m, rfl⟩ := Nat.exists_eq_add_of_le h
      rw [e, Nat.add_sub_cancel_left]; exact .lower m (by omega)
  · intro h
    cases h with
    | dec n h => interval_cases n <;> decide
    | upper n h => interval_cases n <;> decide
    | lower n h => interval_cases n <;> decide

theorem number_snoc (b : Nat) (s : Str) (c : UInt8) : number b (s ++ [c]) = number b s * b + (digit c).getD 0 := by simp [number]

theorem isDig_iff (b : Nat) (c : UInt8) : isDig b c = true ↔ ∃ n, digit c = some n ∧ n < b := by
  unfold isDig
  cases digit c <;> simp

theorem digits_number {b : Nat} {s : Str} {ds : List Nat} (h : List.Forall₂ Digit s ds) : Nat.ofDigits b ds.reverse = number b s := by
  induction s using List.reverseRecOn generalizing ds with
  | nil => cases h; rfl
  | append_singleton s c ih =>
    obtain ⟨ds₁, ds₂, h1, h2, rfl⟩ : ∃ ds₁ ds₂, List.Forall₂ Digit s ds₁ ∧ List.Forall₂ Digit [c] ds₂ ∧ ds = ds₁ ++ ds₂ := by
      exact ⟨ds.take s.length, ds.drop s.length, (List.forall₂_take_append ds s [c] h.flip).flip, (List.forall₂_drop_append ds s [c] h.flip).flip, by simp⟩
    obtain ⟨d, rfl⟩ : ∃ d, ds₂ = [d] := by cases h2 with | cons _ h3 => cases h3; exact ⟨_, rfl⟩
    have hd : Digit c d := by cases h2; assumption
    rw [List.reverse_append, List.reverse_singleton, List.singleton_append, Nat.ofDigits_cons, ih h1, number_snoc, (digit_iff c d).mpr hd]
    simp; ring

theorem numeral_iff (b : Nat) (s : Str) (n : Nat) : Numeral b s n ↔ s ≠ [] ∧ (∀ c ∈ s, isDig b c = true) ∧ n = number b s := by
  constructor
  · rintro ⟨h0, ds, h1, h2, rfl⟩
    refine ⟨h0, ?_, digits_number h1⟩
    clear h0
    induction h1 with
    | nil => simp
    | @cons c d s ds hc _ ih =>
      intro x hx
      rcases List.mem_cons.mp hx with rfl | hx
      · exact (isDig_iff b _).mpr ⟨d, (digit_iff _ d).mpr hc, h2 d (by simp)⟩
      · exact ih (fun d hd => h2 d (by simp [hd])) x hx
  · rintro ⟨h0, h1, rfl⟩
    have : ∃ ds, List.Forall₂ Digit s ds ∧ ∀ d ∈ ds, d < b := by
      clear h0
      induction s with
      | nil => exact ⟨[], .nil, by simp⟩
      | cons c s ih =>
        obtain ⟨ds, h, h'⟩ := ih fun c hc => h1 c (by simp [hc])
        obtain ⟨n, hn, hb⟩ := (isDig_iff b c).mp (h1 c (by simp))
        exact ⟨n :: ds, .cons ((digit_iff c n).mp hn) h, by simpa using ⟨hb, h'⟩⟩
    obtain ⟨ds, h, h'⟩ := this
    exact ⟨h0, ds, h, h', (digits_number h).symm⟩

/-- the sign is skipped -/
def unsign : Str → Str
  | 43 :: t => t
  | 45 :: t => t
  | t => t

def signed (s : Str) (n : Nat) : Int := if s.head? = some 45 then -n else n

theorem strtol_eq (b : Nat) (s : Str) : strtol b s =
    let t := if b = 16 then skip0x (unsign s) else unsign s
    if t.takeWhile (isDig b) = [] then (0, s) else (clamp (signed s (number b (t.takeWhile (isDig b)))), t.dropWhile (isDig b)) := by
  unfold strtol unsign signed
  rfl

theorem tw_all {p : UInt8 → Bool} : ∀ {s : Str}, (∀ c ∈ s, p c = true) → s.takeWhile p = s ∧ s.dropWhile p = []
  | [], _ => ⟨rfl, rfl⟩
  | c :: s, h => by
    obtain ⟨h1, h2⟩ := tw_all (s := s) fun c hc => h c (by simp [hc])
    simp [h c (by simp), h1, h2]

theorem all_of_dw {p : UInt8 → Bool} {s : Str} (h : s.dropWhile p = []) : ∀ c ∈ s, p c = true := by
  intro c hc
  have := List.takeWhile_append_dropWhile (p := p) (l := s)
  rw [h, List.append_nil] at this
  rw [← this] at hc
  exact List.all_eq_true.mp List.all_takeWhile c hc

theorem unsign_of {s : Str} {c : UInt8} {t : Str} (h : s = c :: t) (h1 : c ≠ 43) (h2 : c ≠ 45) : unsign s = s := by
  subst h
  unfold unsign
  split <;> simp_all

/-- the text is a sign, and what is behind it -/
theorem sign_cases (s : Str) : unsign s = s ∧ s.head? ≠ some 45 ∨ s = 43 :: unsign s ∨ s = 45 :: unsign s := by
  unfold unsign
  split
  · exact .inr (.inl rfl)
  · exact .inr (.inr rfl)
  · next h1 h2 =>
    refine .inl ⟨rfl, ?_⟩
    cases s with
    | nil => simp
    | cons c t => simp; rintro rfl; exact h2 t rfl

theorem signed_body {s : Str} {n : Nat} (h : Body (unsign s) n) : Signed s (signed s n) := by
  rcases sign_cases s with ⟨h1, h2⟩ | h1 | h1
  · rw [h1] at h; simpa [signed, h2] using Signed.none h
  · have : Signed (43 :: unsign s) n := .plus h
    rw [← h1] at this
    have h2 : s.head? ≠ some 45 := by rw [h1]; simp
    simpa [signed, h2] using this
  · have : Signed (45 :: unsign s) (-n) := .minus h
    rw [← h1] at this
    have h2 : s.head? = some 45 := by rw [h1]; simp
    simpa [signed, h2] using this

end Gdx.ValInt
