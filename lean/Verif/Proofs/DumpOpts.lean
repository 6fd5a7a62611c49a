import Verif.Spec.DumpOpts
import Verif.Proofs.DiffOpts

/-! gdxdump: from the arguments to the list of options, and from there to the variables. -/

namespace Gdx.DumpOpts
open Gdx.CmdPar Gdx.CmdLine Gdx.Spec
open Gdx.DiffOpts (str short uEqual)
open Gdx.Dump (DFmt)

theorem upper_append (a b : Str) : upper (a ++ b) = upper a ++ upper b := List.map_append

theorem same_upper {a b : Str} (h : SameNoCase a b) : upper a = upper b := (upper_iff a b).mpr h

theorem flag_key {w : Text} {k : Key} (h : IsFlag w k) : keyOf (upper w) = some k ∧ k.valued = false := by
  obtain ⟨n, hn, hs⟩ := h
  rw [same_upper hs]
  have : ∀ x ∈ flags, keyOf (upper (str x.1)) = some x.2 ∧ x.2.valued = false := by decide +kernel
  exact this (n, k) hn

theorem opt_key {w : Text} {k : Key} (h : IsOpt w k) : keyOf (upper w) = some k ∧ keyOf (upper (w ++ [61])) = some k ∧ k.valued = true := by
  obtain ⟨n, hn, hs⟩ := h
  rw [upper_append, same_upper hs]
  have : ∀ x ∈ options, keyOf (upper (str x.1)) = some x.2 ∧ keyOf (upper (str x.1) ++ upper [61]) = some x.2 ∧ x.2.valued = true := by decide +kernel
  exact this (n, k) hn

theorem table_doc : ∀ x ∈ table, (∃ n, (n, x.2) ∈ flags ∧ x.1 = upper (str n) ∧ x.2.valued = false) ∨ (∃ n, (n, x.2) ∈ options ∧ x.1 = upper (str n) ∧ x.2.valued = true) := by
  have : ∀ x ∈ table, (flags.any fun y => y.2 = x.2 && x.1 = upper (str y.1) && !x.2.valued) || (options.any fun y => y.2 = x.2 && x.1 = upper (str y.1) && x.2.valued) := by
    decide +kernel
  intro x hx
  have := this x hx
  rw [Bool.or_eq_true, List.any_eq_true, List.any_eq_true] at this
  rcases this with ⟨y, hy, h⟩ | ⟨y, hy, h⟩
  · left
    simp only [Bool.and_eq_true, decide_eq_true_eq, Bool.not_eq_true'] at h
    exact ⟨y.1, by rw [← h.1.1]; exact hy, h.1.2, h.2⟩
  · right
    simp only [Bool.and_eq_true, decide_eq_true_eq] at h
    exact ⟨y.1, by rw [← h.1.1]; exact hy, h.1.2, h.2⟩

theorem upper_eqsign {s : Str} {t : Str} (h : upper s = t ++ [61]) : ∃ w, s = w ++ [61] ∧ upper w = t := by
  unfold upper at h
  obtain ⟨a, b, rfl, h1, h2⟩ := List.map_eq_append_iff.mp h
  refine ⟨a, ?_, h1⟩
  obtain ⟨c, rfl, hc⟩ := List.map_eq_singleton_iff.mp h2
  have : c = 61 := by
    revert hc
    unfold upC
    split
    · rename_i hl
      intro hc
      simp only [UInt8.le_iff_toNat_le] at hl
      exfalso
      have e1 : (97 : UInt8).toNat = 97 := rfl
      have e2 : (122 : UInt8).toNat = 122 := rfl
      have hn : c.toNat < 256 := c.toNat_lt
      have : ∀ m : Nat, m < 256 → 97 ≤ m → m ≤ 122 → (UInt8.ofNat m) ^^^ 32 ≠ 61 := by decide +kernel
      have h3 := this c.toNat hn (by omega) (by omega)
      rw [UInt8.ofNat_toNat] at h3
      exact h3 hc
    · intro hc; exact hc
  rw [this]

theorem keyOf_some {s : Str} {k : Key} (h : keyOf (upper s) = some k) : IsFlag s k ∨ IsOpt s k ∨ ∃ w, s = w ++ [61] ∧ IsOpt w k := by
  unfold keyOf at h
  obtain ⟨x, hx, hh⟩ := List.exists_of_findSome?_eq_some h
  split at hh
  · rename_i hc
    have hk : x.2 = k := Option.some.inj hh
    rcases hc with hc | ⟨hv, hc⟩
    · rcases table_doc x hx with ⟨n, h1, h2, _⟩ | ⟨n, h1, h2, _⟩
      · left
        exact ⟨n, by rw [← hk]; exact h1, (upper_iff _ _).mp (by rw [hc, h2])⟩
      · right; left
        exact ⟨n, by rw [← hk]; exact h1, (upper_iff _ _).mp (by rw [hc, h2])⟩
    · obtain ⟨w, rfl, hw⟩ := upper_eqsign hc
      rcases table_doc x hx with ⟨n, h1, h2, h3⟩ | ⟨n, h1, h2, _⟩
      · rw [h3] at hv; cases hv
      · right; right
        exact ⟨w, rfl, n, by rw [← hk]; exact h1, (upper_iff _ _).mp (by rw [hw, h2])⟩
  · cases hh

theorem no61 {w n : Str} (h : SameNoCase w n) (hn : 61 ∉ upper n) : 61 ∉ w := by
  intro hw
  apply hn
  rw [← same_upper h]
  exact List.mem_map.mpr ⟨61, hw, rfl⟩

theorem opt_no61 {w : Text} {k : Key} (h : IsOpt w k) : 61 ∉ w ∧ w ≠ [39, 39] := by
  obtain ⟨n, hn, hs⟩ := h
  have : ∀ x ∈ options, 61 ∉ upper (str x.1) ∧ upper (str x.1) ≠ [39, 39] := by decide +kernel
  refine ⟨no61 hs (this (n, k) hn).1, ?_⟩
  rintro rfl
  exact (this (n, k) hn).2 (same_upper hs).symm

theorem flag_no61 {w : Text} {k : Key} (h : IsFlag w k) : 61 ∉ w ∧ w ≠ [39, 39] := by
  obtain ⟨n, hn, hs⟩ := h
  have : ∀ x ∈ flags, 61 ∉ upper (str x.1) ∧ upper (str x.1) ≠ [39, 39] := by decide +kernel
  refine ⟨no61 hs (this (n, k) hn).1, ?_⟩
  rintro rfl
  exact (this (n, k) hn).2 (same_upper hs).symm

/-! ### NextParam -/

theorem np_hold {v : Str} (r : List Str) (h : v ≠ []) : nextParam ⟨r, v⟩ = (noQuotes v, ⟨r, []⟩) := by
  unfold nextParam
  rw [if_pos h]

theorem np_free {a : Str} {r : List Str} (h : 61 ∉ a) (hf : Free r) : nextParam ⟨a :: r, []⟩ = (noQuotes a, ⟨r, []⟩) := by
  unfold nextParam
  rw [if_neg (by simp)]
  dsimp only
  rw [if_neg h]
  split
  · exact absurd rfl (hf _ rfl)
  · rfl

theorem noQuotes_eq {w : Str} : noQuotes (w ++ [61]) = w ++ [61] := by
  unfold noQuotes
  rw [if_neg]
  intro h
  have := congrArg List.getLast? h
  rw [List.getLast?_append] at this
  simp at this

theorem np_joined {w v : Str} {r : List Str} (h : 61 ∉ w) : nextParam ⟨(w ++ 61 :: v) :: r, []⟩ = (w ++ [61], ⟨r, v⟩) := by
  unfold nextParam
  rw [if_neg (by simp)]
  dsimp only
  rw [if_pos (by simp)]
  have e1 : (w ++ 61 :: v).takeWhile (· ≠ 61) = w := by
    rw [List.takeWhile_append_of_pos]
    · simp
    · intro c hc
      simp only [ne_eq, decide_not, Bool.not_eq_true', decide_eq_false_iff_not]
      rintro rfl
      exact h hc
  have e2 : (w ++ 61 :: v).dropWhile (· ≠ 61) = 61 :: v := by
    rw [List.dropWhile_append_of_pos]
    · simp
    · intro c hc
      simp only [ne_eq, decide_not, Bool.not_eq_true', decide_eq_false_iff_not]
      rintro rfl
      exact h hc
  rw [e1, e2, noQuotes_eq, List.tail_cons]

theorem np_apart {w v : Str} {r : List Str} (h : 61 ∉ w) : nextParam ⟨w :: (61 :: v) :: r, []⟩ = (w ++ [61], ⟨r, v⟩) := by
  unfold nextParam
  rw [if_neg (by simp)]
  dsimp only
  rw [if_neg h, noQuotes_eq]
  rfl

theorem np_nil : nextParam ⟨[], []⟩ = ([], ⟨[], []⟩) := rfl

theorem noQuotes_of {w : Str} (h : w ≠ [39, 39]) : noQuotes w = w := if_neg h

theorem quoted_eq {v q : Text} (h : Quoted v q) : noQuotes v = q := by
  rcases h with ⟨h1, h2⟩ | ⟨h1, h2⟩
  · rw [h1, h2]
    decide
  · rw [h2]
    exact if_neg h1

/-! ### the loop -/

/-- one option -/
def stepOf (c : Conf) (x : Key × Str) : Option Conf :=
  if x.1.valued = false then some (setFlag c x.1) else if dup c x.1 = true then none else setVal c x.1 x.2

def stepsOf : Conf → List (Key × Str) → Option Conf
  | c, [] => some c
  | c, x :: l => do
    let c ← stepOf c x
    stepsOf c l

theorem short_ok {s : Str} (h : s.length ≤ 255) : short s = .ok s := if_pos h

/-- what the first two calls of NextParam give for an option -/
theorem form_next {w : Text} {k : Key} (hw : IsOpt w k) {a : List Text} {v q : Text} {r : List Text} (h : Form w a v r) (hq : Quoted v q) :
    ∃ s p, nextParam ⟨a ++ r, []⟩ = (s, p) ∧ (s = w ∨ s = w ++ [61]) ∧ nextParam p = (q, ⟨r, []⟩) ∧ a ++ r ≠ [] ∧ r.length < (a ++ r).length := by
  obtain ⟨h61, hqq⟩ := opt_no61 hw
  have q' := quoted_eq hq
  have nq := noQuotes_of hqq
  cases h with
  | joined hv => exact ⟨w ++ [61], ⟨r, v⟩, np_joined h61, .inr rfl, by rw [np_hold _ hv, q'], by simp, by simp⟩
  | after hv hf => exact ⟨w ++ [61], ⟨v :: r, []⟩, np_joined h61, .inr rfl, by rw [np_free hv hf, q'], by simp, by simp⟩
  | word hv hf =>
    refine ⟨w, ⟨v :: r, []⟩, ?_, .inl rfl, by rw [np_free hv hf, q'], by simp, by simp⟩
    have : Free ([v] ++ r) := by
      intro x hx hh
      rw [List.singleton_append, List.head?_cons, Option.some.injEq] at hx
      subst hx
      exact hv (List.mem_of_mem_head? hh)
    have := np_free (a := w) h61 this
    rw [nq] at this
    exact this
  | before hv => exact ⟨w ++ [61], ⟨r, v⟩, np_apart h61, .inr rfl, by rw [np_hold _ hv, q'], by simp, by simp⟩
  | apart hv hf => exact ⟨w ++ [61], ⟨v :: r, []⟩, np_apart h61, .inr rfl, by rw [np_free hv hf, q'], by simp, by simp; omega⟩
  | last =>
    refine ⟨w, ⟨[], []⟩, ?_, .inl rfl, by rw [np_nil, ← q']; rfl, by simp, by simp⟩
    have : Free ([] : List Text) := by intro x hx; cases hx
    have := np_free (a := w) h61 this
    rw [nq] at this
    exact this
  | lastEq => exact ⟨w ++ [61], ⟨[], []⟩, np_joined h61, .inr rfl, by rw [np_nil, ← q']; rfl, by simp, by simp⟩
  | lastApart => exact ⟨w ++ [61], ⟨[], []⟩, np_apart h61, .inr rfl, by rw [np_nil, ← q']; rfl, by simp, by simp⟩

theorem np_len (p : PSt) (n : Nat) (h1 : ∀ a ∈ p.rest, a.length < n) (h2 : p.hold.length < n) (h3 : 0 < n) : (nextParam p).1.length ≤ n := by
  have nq : ∀ s : Str, (noQuotes s).length ≤ s.length := by
    intro s
    unfold noQuotes
    split
    · simp
    · exact le_refl _
  unfold nextParam
  split
  · exact (nq _).trans (by omega)
  · split
    · simp
    · rename_i a t ha
      have hl := h1 a (by rw [ha]; simp)
      split
      · refine (nq _).trans ?_
        have := (List.takeWhile_sublist (l := a) (· ≠ 61)).length_le
        rw [List.length_append, List.length_singleton]
        omega
      · split
        · refine (nq _).trans ?_
          rw [List.length_append, List.length_singleton]
          omega
        · exact (nq _).trans (by omega)

/-- every argument is short enough for a ShortString -/
theorem loop_means : ∀ {args : List Text} {l : List (Key × Text)} {u : Bool}, Means args l u → ∀ (f : Nat) (c : Conf), (∀ a ∈ args, a.length ≤ 254) →
    (∀ x ∈ l, x.2.length ≤ 255) → args.length < f → loop f c ⟨args, []⟩ = .ok (do let c ← stepsOf c l; if u = true then none else some c) := by
  intro args l u h
  induction h with
  | nil =>
    intro f c _ _ hf
    obtain ⟨f, rfl⟩ : ∃ g, f = g + 1 := ⟨f - 1, by omega⟩
    rw [loop, if_pos rfl]
    rfl
  | @flag w k args l u hw hfree _ ih =>
    intro f c hl hx hf
    obtain ⟨f, rfl⟩ : ∃ g, f = g + 1 := ⟨f - 1, by omega⟩
    obtain ⟨k1, k2⟩ := flag_key hw
    obtain ⟨h61, hqq⟩ := flag_no61 hw
    have hn := np_free h61 hfree
    rw [noQuotes_of hqq] at hn
    rw [loop, if_neg (by simp), hn]
    dsimp only
    rw [short_ok (by have := hl w (by simp); omega), Res.bind_ok]
    rw [k1]
    dsimp only
    rw [if_pos k2, ih f _ (fun a ha => hl a (List.mem_cons_of_mem _ ha)) (fun x hx' => hx x (List.mem_cons_of_mem _ hx')) (by simp only [List.length_cons] at hf; omega)]
    rw [stepsOf, stepOf, if_pos k2]
    rfl
  | @opt w k a v q args l u hw hform hq _ ih =>
    intro f c hl hx hf
    obtain ⟨f, rfl⟩ : ∃ g, f = g + 1 := ⟨f - 1, by omega⟩
    obtain ⟨k1, k2, k3⟩ := opt_key hw
    obtain ⟨s, p, n1, n2, n3, n4, n5⟩ := form_next hw hform hq
    have hs : s.length ≤ 255 := by
      have := np_len ⟨a ++ args, []⟩ 255 (fun b hb => by have := hl b hb; omega) (by simp) (by norm_num)
      rw [n1] at this
      exact this
    have hk : keyOf (upper s) = some k := by
      rcases n2 with rfl | rfl
      · exact k1
      · exact k2
    have hqs : q.length ≤ 255 := hx (k, q) (by simp)
    rw [loop, if_neg n4, n1]
    dsimp only
    rw [short_ok hs, Res.bind_ok, hk]
    dsimp only
    have hk3 : ¬ k.valued = false := by rw [k3]; simp
    rw [if_neg hk3, n3, stepsOf, stepOf]
    dsimp only
    rw [if_neg hk3]
    by_cases hd : dup c k = true
    · rw [if_pos hd, if_pos hd]
      rfl
    · rw [if_neg hd, if_neg hd]
      simp only [short_ok hqs, Res.bind_ok, Res.pure_eq, ite_self]
      cases hv : setVal c k q with
      | none => rfl
      | some c' =>
        dsimp only
        rw [ih f c' (fun b hb => hl b (List.mem_append_right _ hb)) (fun x hx' => hx x (List.mem_cons_of_mem _ hx')) (by omega)]
        rfl
  | @unknown args hu =>
    intro f c hl hx hf
    obtain ⟨f, rfl⟩ : ∃ g, f = g + 1 := ⟨f - 1, by omega⟩
    have hs : ((nextParam ⟨args, []⟩).1).length ≤ 255 :=
      np_len ⟨args, []⟩ 255 (fun b hb => by have := hl b hb; omega) (by simp) (by norm_num)
    have fin : args ≠ [] → keyOf (upper (nextParam ⟨args, []⟩).1) = none → loop (f + 1) c ⟨args, []⟩ = .ok none := by
      intro h1 h2
      rw [loop, if_neg h1, short_ok hs, Res.bind_ok, h2]
      rfl
    have last : ∀ {w : Text}, 61 ∉ w → (∀ k, ¬ IsOpt w k) → keyOf (upper (w ++ [61])) = none := by
      intro w h1 h2
      cases hk : keyOf (upper (w ++ [61])) with
      | none => rfl
      | some k =>
        exfalso
        rcases keyOf_some hk with h3 | h3 | ⟨w', h3, h4⟩
        · exact (flag_no61 h3).1 (by simp)
        · exact (opt_no61 h3).1 (by simp)
        · rw [List.append_left_inj] at h3
          subst h3
          exact h2 k h4
    show loop (f + 1) c ⟨args, []⟩ = .ok none
    cases hu with
    | @word w r h1 h2 h3 h4 =>
      refine fin (by simp) ?_
      rw [np_free h1 h2]
      dsimp only
      cases hk : keyOf (upper (noQuotes w)) with
      | none => rfl
      | some k =>
        exfalso
        have key : ∀ s : Str, keyOf (upper s) = some k → s = [] ∨ s = w → False := by
          rintro s hsk (rfl | rfl)
          · revert hsk
            have : keyOf (upper []) = none := by decide +kernel
            rw [this]
            simp
          · rcases keyOf_some hsk with h5 | h5 | ⟨w', h5, h6⟩
            · exact h3 k h5
            · exact h4 k h5
            · apply h1
              rw [h5]
              simp
        refine key _ hk ?_
        unfold noQuotes
        split
        · exact .inl rfl
        · exact .inr rfl
    | @value w v r h1 h2 =>
      refine fin (by simp) ?_
      rw [np_joined h1]
      exact last h1 h2
    | @apart w v r h1 h2 =>
      refine fin (by simp) ?_
      rw [np_apart h1]
      exact last h1 h2

end Gdx.DumpOpts
