import Verif.Proofs.CmdLine
import Verif.Proofs.Names
import Verif.Spec.DiffOpts
import Verif.Props.CmdLine

namespace Gdx.DiffOpts
open Gdx CmdLine CmdPar Spec

def split (s : Str) : List Str := s.splitOnP (fun c => c == 44 || c == 32)

theorem isSep_eq (c : UInt8) : (c == 44 || c == 32) = isSep c := by
  unfold isSep
  by_cases h : c = 44 <;> by_cases h' : c = 32 <;> simp [h, h']

theorem isWs_iff (c : UInt8) : isWs c = true ↔ White c := by
  unfold isWs White; simp [or_assoc]

def fold (ids : List Str) (s : Str) : List Str := ((split s).map trim).foldl addId ids

theorem addId_nil (ids : List Str) : addId ids [] = ids := by simp [addId]

theorem trim_cons {c : UInt8} (h : isWs c = true) (s : Str) : trim (c :: s) = trim s := by
  simp [trim, h]

theorem trim_snoc {c : UInt8} (h : isWs c = true) (s : Str) : trim (s ++ [c]) = trim s := by
  unfold trim
  rw [List.dropWhile_append]
  by_cases e : (List.dropWhile isWs s).isEmpty = true
  · have e' : List.dropWhile isWs s = [] := by simpa using e
    simp [e', h]
  · rw [if_neg e]; simp [h]

theorem trim_nil : trim [] = [] := rfl

theorem fold_cons {c : UInt8} (h : isWs c = true) (ids : List Str) (s : Str) : fold ids (c :: s) = fold ids s := by
  unfold fold split
  rw [List.splitOnP_cons_eq_if_modifyHead]
  split
  · simp [trim_nil, addId_nil]
  · cases e : s.splitOnP (fun c => c == 44 || c == 32) with
    | nil => exact absurd e (List.splitOnP_ne_nil _ _)
    | cons p ps => simp [trim_cons h]

theorem split_snoc {c : UInt8} (h : (c == 44 || c == 32) = false) : ∀ s : Str, ∃ i l, split s = i ++ [l] ∧ split (s ++ [c]) = i ++ [l ++ [c]]
  | [] => ⟨[], [], by simp [split], by simp [split, List.splitOnP_cons_eq_if_modifyHead, h]⟩
  | d :: s => by
    obtain ⟨i, l, h1, h2⟩ := split_snoc h s
    unfold split at *
    rw [List.cons_append, List.splitOnP_cons_eq_if_modifyHead, List.splitOnP_cons_eq_if_modifyHead, h1, h2]
    split
    · exact ⟨[] :: i, l, by simp, by simp⟩
    · cases i with
      | nil => exact ⟨[], d :: l, by simp, by simp⟩
      | cons a i => exact ⟨(d :: a) :: i, l, by simp, by simp⟩

theorem fold_snoc {c : UInt8} (h : isWs c = true) (ids : List Str) (s : Str) : fold ids (s ++ [c]) = fold ids s := by
  unfold fold
  cases hc : (c == 44 || c == 32) with
  | true =>
    unfold split
    rw [List.splitOnP_append_cons (p := fun c => c == 44 || c == 32) s [] hc]
    simp [trim_nil, addId_nil]
  | false =>
    obtain ⟨i, l, h1, h2⟩ := split_snoc hc s
    rw [h1, h2]
    simp [trim_snoc h]

theorem fold_drop (ids : List Str) : ∀ s : Str, fold ids (s.dropWhile isWs) = fold ids s
  | [] => rfl
  | c :: s => by
    by_cases h : isWs c = true
    · rw [List.dropWhile_cons_of_pos h, fold_drop ids s, fold_cons h]
    · rw [List.dropWhile_cons_of_neg h]

theorem fold_dropRight (ids : List Str) : ∀ s : Str, fold ids (s.dropWhile isWs).reverse = fold ids s.reverse
  | [] => rfl
  | c :: s => by
    by_cases h : isWs c = true
    · rw [List.dropWhile_cons_of_pos h, fold_dropRight ids s, List.reverse_cons, fold_snoc h]
    · rw [List.dropWhile_cons_of_neg h]

theorem fold_trim (ids : List Str) (s : Str) : fold ids (trim s) = fold ids s := by
  unfold trim
  rw [fold_dropRight, List.reverse_reverse, fold_drop]

theorem trim_len (s : Str) : (trim s).length ≤ s.length := by
  unfold trim
  have h1 := (List.dropWhile_suffix (l := (List.dropWhile isWs s).reverse) isWs).length_le
  have h2 := (List.dropWhile_suffix (l := s) isWs).length_le
  simp only [List.length_reverse] at *; omega

theorem mem_tw {p : UInt8 → Bool} {s : Str} {c : UInt8} (h : c ∈ s.takeWhile p) : p c = true :=
  List.all_eq_true.mp List.all_takeWhile c h

theorem idLoop_eq : ∀ (n : Nat) (s : Str) (ids : List Str), s.length < n → idLoop n s ids = .ok (fold ids s)
  | 0, s, _, h => by omega
  | n + 1, s, ids, h => by
    unfold idLoop
    by_cases hs : s = []
    · subst hs; simp [fold, split, trim_nil, addId_nil]
    · rw [if_neg hs]
      have hp : 0 < s.length := List.length_pos_iff.mpr hs
      have happ := List.takeWhile_append_dropWhile (p := fun c => !isSep c) (l := s)
      have htw : ∀ c ∈ s.takeWhile (fun c => !isSep c), (c == 44 || c == 32) = false := by
        intro c hc
        rw [isSep_eq]
        simpa using mem_tw hc
      split
      · next e =>
        rw [e, List.append_nil] at happ
        rw [idLoop_eq n [] _ (by simp; omega)]
        have : split s = [s] := by
          unfold split
          exact List.splitOnP_eq_singleton (by rwa [happ] at htw)
        rw [fold, fold, this]; simp [split, trim_nil, addId_nil]
      · next c r e =>
        have hc : (c == 44 || c == 32) = true := by
          rw [isSep_eq]
          have := List.head?_dropWhile_not (fun c => !isSep c) s
          rw [e] at this; simpa using this
        rw [e] at happ
        have hl : r.length < s.length := by
          have := congrArg List.length happ; simp at this; omega
        have := trim_len r
        rw [idLoop_eq n (trim r) _ (by omega), fold_trim]
        have e2 : split s = s.takeWhile (fun c => !isSep c) :: split r := by
          unfold split
          conv_lhs => rw [← happ]
          exact List.splitOnP_append_cons_of_forall_mem htw c hc r
        unfold fold
        rw [e2]; simp

theorem trimmed_trim (s : Str) : Trimmed s (trim s) := by
  unfold Trimmed trim
  generalize hd : List.dropWhile isWs s = d
  refine ⟨s.takeWhile isWs, (d.reverse.takeWhile isWs).reverse, ?_, ?_, ?_, ?_, ?_⟩
  · rw [List.append_assoc, ← List.reverse_append, List.takeWhile_append_dropWhile, List.reverse_reverse, ← hd, List.takeWhile_append_dropWhile]
  · intro c hc; exact (isWs_iff c).mp (mem_tw hc)
  · intro c hc; exact (isWs_iff c).mp (mem_tw (List.mem_reverse.mp hc))
  · intro c hc hw
    have happ := List.takeWhile_append_dropWhile (p := isWs) (l := d.reverse)
    have h1 : d = (d.reverse.dropWhile isWs).reverse ++ (d.reverse.takeWhile isWs).reverse := by
      rw [← List.reverse_append, happ, List.reverse_reverse]
    have h2 : d.head? = some c := by rw [h1, List.head?_append, hc]; rfl
    have h3 := List.head?_dropWhile_not isWs s
    rw [hd, h2] at h3
    simp [(isWs_iff c).mpr hw] at h3
  · intro c hc hw
    rw [List.getLast?_reverse] at hc
    have h3 := List.head?_dropWhile_not isWs d.reverse
    rw [hc] at h3
    simp [(isWs_iff c).mpr hw] at h3

theorem Trimmed.eq {m x : Str} (h : Trimmed m x) (h0 : x ≠ []) : x = trim m := by
  obtain ⟨u, w, rfl, hu, hw, hx, hx'⟩ := h
  unfold trim
  have h1 : ∀ c ∈ u, isWs c = true := fun c hc => (isWs_iff c).mpr (hu c hc)
  have h2 : ∀ c ∈ w.reverse, isWs c = true := fun c hc => (isWs_iff c).mpr (hw c (List.mem_reverse.mp hc))
  rw [List.append_assoc, List.dropWhile_append_of_pos h1]
  have e1 : List.dropWhile isWs (x ++ w) = x ++ w := by
    cases x with
    | nil => contradiction
    | cons c t =>
      rw [List.cons_append, List.dropWhile_cons_of_neg]
      intro h; exact hx c rfl ((isWs_iff c).mp h)
  rw [e1, List.reverse_append, List.dropWhile_append_of_pos h2]
  have e2 : List.dropWhile isWs x.reverse = x.reverse := by
    have : x.reverse ≠ [] := by simpa using h0
    cases e : x.reverse with
    | nil => contradiction
    | cons c t =>
      rw [List.dropWhile_cons_of_neg]
      intro h
      refine hx' c ?_ ((isWs_iff c).mp h)
      rw [← List.head?_reverse, e]; rfl
  rw [e2, List.reverse_reverse]

/-- the identifiers in the values of a parameter -/
def allIds (l : List Param) (v : Int) : List Str := (l.filter fun p => p.1 = v).flatMap fun p => (split p.2).map trim

theorem idsFrom_eq (v : Int) : ∀ (l : List Param) (ids : List Str), (∀ p ∈ l, p.2.length ≤ 255) → idsFrom v l ids = .ok ((allIds l v).foldl addId ids)
  | [], ids, _ => rfl
  | p :: l, ids, h => by
    have h1 := h p (by simp)
    have h2 := trim_len p.2
    unfold idsFrom
    by_cases e : p.1 = v
    · rw [if_pos e]
      have hs : short (trim p.2) = .ok (trim p.2) := by unfold short; rw [if_pos (by omega)]
      simp only [hs, Res.bind_ok, idLoop_eq _ _ _ (Nat.lt_succ_self _), fold_trim]
      rw [idsFrom_eq v l _ (fun q hq => h q (by simp [hq]))]
      simp [allIds, e, fold]
    · rw [if_neg e, idsFrom_eq v l _ (fun q hq => h q (by simp [hq]))]
      simp [allIds, e]

theorem sameName_false (a b : Str) : SameName false a b ↔ SameNoCase a b := by simp [SameName]

theorem foldl_addId : ∀ (xs ids : List Str), ids.Pairwise (fun a b => ¬ SameNoCase a b) →
    (∀ x ∈ xs.foldl addId ids, x ∈ ids ∨ (x ∈ xs ∧ x ≠ [])) ∧ (∀ x ∈ ids, x ∈ xs.foldl addId ids) ∧
    (∀ x ∈ xs, x ≠ [] → ∃ y ∈ xs.foldl addId ids, SameNoCase y x) ∧ (xs.foldl addId ids).Pairwise (fun a b => ¬ SameNoCase a b)
  | [], ids, h => ⟨fun x hx => .inl hx, fun x hx => hx, by simp, h⟩
  | x :: xs, ids, h => by
    have hp : (addId ids x).Pairwise (fun a b => ¬ SameNoCase a b) := by
      unfold addId
      split
      · exact h
      · next e =>
        have hn : lookup false x ids = none := by
          cases hl : lookup false x ids with
          | none => rfl
          | some n => exact absurd (.inr (by simp [hl])) e
        rw [List.pairwise_append]
        refine ⟨h, by simp, ?_⟩
        intro a ha b hb
        simp at hb; subst hb
        have := lookup_none.mp hn a ha
        rwa [sameName_false] at this
    obtain ⟨h1, h2, h3, h4⟩ := foldl_addId xs (addId ids x) hp
    have hsub : ∀ y ∈ ids, y ∈ addId ids x := by
      intro y hy; unfold addId; split
      · exact hy
      · simp [hy]
    refine ⟨?_, fun y hy => h2 y (hsub y hy), ?_, h4⟩
    · intro y hy
      rcases h1 y hy with hy | ⟨hy, h0⟩
      · unfold addId at hy
        split at hy
        · exact .inl hy
        · next e =>
          rcases List.mem_append.mp hy with hy | hy
          · exact .inl hy
          · simp at hy; subst hy
            refine .inr ⟨by simp, fun h0 => e (.inl h0)⟩
      · exact .inr ⟨by simp [hy], h0⟩
    · intro y hy h0
      rcases List.mem_cons.mp hy with rfl | hy
      · have : ∃ z ∈ addId ids y, SameNoCase z y := by
          unfold addId
          split
          · next e =>
            rcases e with e | e
            · contradiction
            · obtain ⟨n, hn⟩ := Option.isSome_iff_exists.mp e
              obtain ⟨z, hz, hs⟩ := lookup_some hn
              exact ⟨z, List.mem_of_getElem? hz, by rwa [sameName_false] at hs⟩
          · exact ⟨y, by simp, rfl⟩
        obtain ⟨z, hz, hs⟩ := this
        exact ⟨z, h2 z hz, hs⟩
      · exact h3 y hy h0

theorem last_iff {l : List Param} {v : Int} {s : Str} : findKey l v = some s ↔ Last l v s := C73_last l v s

theorem given_iff {l : List Param} {v : Int} : (findKey l v).isSome = true ↔ Given l v := by
  rw [← not_iff_not, Option.not_isSome_iff_eq_none, C73_none]
  constructor
  · rintro h ⟨s, hs⟩; exact h _ hs rfl
  · rintro h ⟨v', s⟩ hp rfl; exact h ⟨s, hp⟩

theorem none_iff {l : List Param} {v : Int} : findKey l v = none ↔ ¬ Given l v := by
  rw [← given_iff, Option.not_isSome_iff_eq_none]

theorem hasKey_iff {l : List Param} {v : Int} : hasKey l v = true ↔ Given l v := given_iff

theorem Last.given {l : List Param} {v : Int} {s : Str} (h : Last l v s) : Given l v := by
  obtain ⟨a, b, rfl, _⟩ := h; exact ⟨s, by simp⟩

theorem Last.unique {l : List Param} {v : Int} {s t : Str} (h : Last l v s) (h' : Last l v t) : s = t := by
  rw [← last_iff] at h h'; rw [h] at h'; exact Option.some.inj h'

theorem mem_of_find {l : List Param} {v : Int} {s : Str} (h : findKey l v = some s) : (v, s) ∈ l := by
  obtain ⟨a, b, rfl, _⟩ := last_iff.mp h; simp

theorem hasParam_short {l : List Param} (h : ∀ p ∈ l, p.2.length ≤ 255) (v : Int) : hasParam l v = .ok (findKey l v) := by
  unfold hasParam
  cases e : findKey l v with
  | none => rfl
  | some s => simp [h _ (mem_of_find e)]

/-- the list of identifiers -/
theorem idList_eq {l : List Param} (h : ∀ p ∈ l, p.2.length ≤ 255) (v : Int) : ∃ o, idList l v = .ok o ∧ IdSet l v o := by
  unfold idList
  rw [hasParam_short h]
  cases e : findKey l v with
  | none => exact ⟨none, rfl, .inl ⟨none_iff.mp e, rfl⟩⟩
  | some s =>
    simp only [Res.bind_ok, idsFrom_eq v l [] h]
    refine ⟨_, rfl, .inr ⟨_, rfl, ⟨s, mem_of_find e⟩, ?_⟩⟩
    obtain ⟨h1, _, h3, h4⟩ := foldl_addId (allIds l v) [] (by simp)
    refine ⟨?_, ?_, h4⟩
    · intro x hx
      rcases h1 x hx with hx | ⟨hx, h0⟩
      · simp at hx
      · simp only [allIds, List.mem_flatMap, List.mem_filter, List.mem_map, decide_eq_true_eq] at hx
        obtain ⟨⟨v', s⟩, ⟨hp, rfl⟩, m, hm, rfl⟩ := hx
        exact ⟨s, m, hp, hm, trimmed_trim m, h0⟩
    · rintro x ⟨s, m, hp, hm, ht, h0⟩
      refine h3 x ?_ h0
      simp only [allIds, List.mem_flatMap, List.mem_filter, List.mem_map, decide_eq_true_eq]
      exact ⟨(v, s), ⟨hp, rfl⟩, m, hm, (ht.eq h0).symm⟩

theorem uEqual_iff (a b : Str) : uEqual a b = true ↔ SameNoCase a b := by
  unfold uEqual; rw [decide_eq_true_eq, upper_iff]

end Gdx.DiffOpts
